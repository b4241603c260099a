import Verif.Config.ExecLemmas

/-! # Lemmas about the files of a configuration -/

namespace Fastd.Config.Spec

open Fastd.Config (Bytes)
open Fastd.Config.Gram
open Fastd.Config.Exec
open Fastd.Daemon (Addr simplify v4Mapped)

variable {D : Type} {env : Env D}

theorem back_eq (hs : Sane env) (old : D) (st : St D) : back env old st = { st with cwd := old } := by
  unfold back
  rw [hs]

theorem bind_ok {α β} {r : Res D α} {f : α → St D → Res D β} {b st'} (h : r.bind f = .ok b st') : ∃ a st, r = .ok a st ∧ f a st = .ok b st' := by
  cases r with
  | ok a st => exact ⟨a, st, rfl, h⟩
  | fail st => cases h
  | exit => cases h

/-! ## Peer files -/

/-- Nothing but the current directory has changed, and it is back to what it was. -/
def Keeps {α} (st : St D) : Res D α → Prop
  | .ok _ st' => st' = st
  | .fail st' => st' = st
  | .exit => True

theorem Keeps.bind {α β} {st : St D} {r : Res D α} {f : α → St D → Res D β} (h : Keeps st r) (hf : ∀ a, Keeps st (f a st)) : Keeps st (r.bind f) := by
  cases r with
  | ok a st' => cases h; exact hf a
  | fail st' => exact h
  | exit => trivial

theorem readFile_keeps {α} (hs : Sane env) {name} {run : List T × Bool → St D → Res D α} {st : St D}
    (h : ∀ f st, Keeps st (run f st)) : Keeps st (readFile env name run st) := by
  unfold readFile
  split
  · rw [back_eq hs]; rfl
  · split
    · rw [back_eq hs]; rfl
    · rename_i f _ _ d _
      have := h f { st with cwd := d }
      cases hr : run f { st with cwd := d } with
      | ok a st' => rw [hr] at this; cases this; simp only [back_eq hs]; rfl
      | fail st' => rw [hr] at this; cases this; simp only [back_eq hs]; rfl
      | exit => trivial

theorem runPeer_keeps {inc : Bytes → Peer → St D → Res D Peer} {bad} (hinc : ∀ f p st, Keeps st (inc f p st)) :
    ∀ n ts p st, Keeps st (runPeer env inc bad n ts p st) := by
  intro n
  induction n with
  | zero => intro ts p st; exact rfl
  | succ n ih =>
    intro ts p st
    unfold runPeer
    split
    · split <;> exact rfl
    · split
      · exact rfl
      · refine (hinc _ _ _).bind fun p => ?_
        split
        · exact ih _ _ _
        · exact rfl
      · split
        · exact rfl
        · split
          · exact ih _ _ _
          · exact rfl

theorem readPeer_keeps (hs : Sane env) (g : Nat) : ∀ k f p st, Keeps st (readPeer env g k f p st) := by
  intro k
  induction k with
  | zero => intro f p st; trivial
  | succ k ih => intro f p st; exact readFile_keeps hs fun _ _ => runPeer_keeps ih _ _ _ _

theorem execPs_keeps {inc : Bytes → Peer → St D → Res D Peer} (hinc : ∀ f p st, Keeps st (inc f p st)) :
    ∀ ss p st, Keeps st (execPs env inc ss p st) := by
  intro ss
  induction ss with
  | nil => intro p st; exact rfl
  | cons s ss ih =>
    intro p st
    unfold execPs
    split
    · exact rfl
    · rename_i h; cases h; exact (hinc _ _ _).bind fun p => ih _ _
    · rename_i h; cases h
      split
      · exact rfl
      · exact ih _ _

/-- What it means to include a peer file -/
def IncP (env : Env D) (k : Nat) (d : D) (f : Bytes) (xs : List PStmt) : Prop :=
  ∃ k' ts d' body, k = k' + 1 ∧ File env d f ts d' ∧ DPConf body ts ∧ ExpP env k' d' body xs

theorem ExpP.inc {k d f xs ss ys} (h : IncP env k d f xs) (h2 : ExpP env k d ss ys) : ExpP env k d (.incl f :: ss) (xs ++ ys) := by
  obtain ⟨k', ts, d', body, rfl, hf, hd, he⟩ := h
  exact .incl hf hd he h2

/-- What is known about reading an included file -/
def GoodP (env : Env D) (p₀ : Peer) (g k : Nat) (inc : Bytes → Peer → St D → Res D Peer) : Prop :=
  (∀ f p st, Keeps st (inc f p st)) ∧
  ∀ f ss st p st', inc f (peerAfter env p₀ g ss) st = .ok p st' →
    ∃ xs, IncP env k st.cwd f xs ∧ (∀ s ∈ xs, ValidP s) ∧ p = peerAfter env p₀ g (ss ++ xs)

theorem pP_of_body {ts s r r'} (h : pPBody ts = some (s, r)) (h2 : eat .semi r = some r') : ∃ t, DPStmt s t ∧ ts = t ++ r' := by
  apply pP_sound
  unfold pP
  rw [h]
  simp [semi, h2]

theorem runPeer_ok {p₀ g k} {inc : Bytes → Peer → St D → Res D Peer} (hinc : GoodP env p₀ g k inc) {bad} :
    ∀ n ts ss st p st', runPeer env inc bad n ts (peerAfter env p₀ g ss) st = .ok p st' →
      bad = false ∧ ∃ body xs, DPConf body ts ∧ ExpP env k st.cwd body xs ∧ (∀ s ∈ xs, ValidP s) ∧ p = peerAfter env p₀ g (ss ++ xs) := by
  intro n
  induction n with
  | zero => intro ts ss st p st' h; cases h
  | succ n ih =>
    intro ts ss st p st' h
    unfold runPeer at h
    split at h
    · rename_i hts
      subst hts
      split at h
      · cases h
      · rename_i hb
        simp only [Res.ok.injEq] at h
        obtain ⟨rfl, rfl⟩ := h
        exact ⟨by simpa using hb, [], [], .nil, .nil, by simp, by simp⟩
    · split at h
      · cases h
      · rename_i f r hp
        obtain ⟨p1, st1, h1, h⟩ := bind_ok h
        have hk := hinc.1 f (peerAfter env p₀ g ss) st
        rw [h1] at hk
        cases hk
        obtain ⟨xs, hx, hv, rfl⟩ := hinc.2 _ _ _ _ _ h1
        split at h
        · rename_i r' hr
          obtain ⟨t, hd, rfl⟩ := pP_of_body hp hr
          obtain ⟨hb, body, ys, hd', he, hv', rfl⟩ := ih _ _ _ _ _ h
          refine ⟨hb, .incl f :: body, xs ++ ys, .cons hd hd', ExpP.inc hx he, ?_, by simp⟩
          intro s hs
          rcases List.mem_append.1 hs with hs | hs
          · exact hv s hs
          · exact hv' s hs
        · cases h
      · rename_i s r hne hp
        split at h
        · cases h
        · rename_i p1 hp1
          have hni : ∀ f, s ≠ .incl f := by
            rintro f rfl
            exact hne f rfl
          obtain ⟨hvs, rfl⟩ := execP_some hni hp1
          split at h
          · rename_i r' hr
            obtain ⟨t, hd, rfl⟩ := pP_of_body hp hr
            obtain ⟨hb, body, ys, hd', he, hv', rfl⟩ := ih _ _ _ _ _ h
            refine ⟨hb, s :: body, s :: ys, .cons hd hd', .cons hni he, ?_, by simp⟩
            intro s' hs'
            rcases List.mem_cons.1 hs' with rfl | hs'
            · exact hvs
            · exact hv' s' hs'
          · cases h

theorem readFile_ok {α} (hs : Sane env) {name} {run : List T × Bool → St D → Res D α} {st st' : St D} {a} (h : readFile env name run st = .ok a st') :
    ∃ ts bad d' st'', env.file st.cwd name = some (ts, bad) ∧ env.chdir st.cwd (env.dirname name) = some d' ∧
      run (ts, bad) { st with cwd := d' } = .ok a st'' ∧ st' = { st'' with cwd := st.cwd } := by
  unfold readFile at h
  split at h
  · cases h
  · rename_i f hf
    split at h
    · cases h
    · rename_i d hd
      split at h
      · rename_i a' st'' hr
        simp only [Res.ok.injEq] at h
        obtain ⟨rfl, rfl⟩ := h
        exact ⟨f.1, f.2, d, st'', hf, hd, hr, back_eq hs _ _⟩
      · cases h
      · cases h

theorem peerAfter_group (p₀ : Peer) (g ss) : { peerAfter env p₀ g ss with group := some g } = peerAfter env p₀ g ss := rfl

theorem readPeer_ok' (hs : Sane env) {p₀ : Peer} {g : Nat} : ∀ k f p ss st p' st', { p with group := some g } = peerAfter env p₀ g ss →
    readPeer env g k f p st = .ok p' st' → ∃ xs, IncP env k st.cwd f xs ∧ (∀ s ∈ xs, ValidP s) ∧ p' = peerAfter env p₀ g (ss ++ xs) := by
  intro k
  induction k with
  | zero => intro f p ss st p' st' _ h; cases h
  | succ k ih =>
    intro f p ss st p' st' hp h
    obtain ⟨ts, bad, d', st'', hf, hd, hr, rfl⟩ := readFile_ok hs h
    simp only [hp] at hr
    have hgood : GoodP env p₀ g k (readPeer env g k) :=
      ⟨readPeer_keeps hs g k, fun f ss st p st' h => ih f _ ss st p st' (peerAfter_group p₀ g ss) h⟩
    obtain ⟨rfl, body, xs, hdp, he, hv, rfl⟩ := runPeer_ok hgood _ _ _ _ _ _ hr
    exact ⟨xs, ⟨k, ts, d', body, rfl, ⟨hf, hd⟩, hdp, he⟩, hv, rfl⟩

theorem readPeer_good (hs : Sane env) (p₀ : Peer) (g k : Nat) : GoodP env p₀ g k (readPeer env g k) :=
  ⟨readPeer_keeps hs g k, fun f ss st p st' h => readPeer_ok' hs k f _ ss st p st' (peerAfter_group p₀ g ss) h⟩

theorem execPs_ok {p₀ g k} {inc : Bytes → Peer → St D → Res D Peer} (hinc : GoodP env p₀ g k inc) :
    ∀ body ss st p st', execPs env inc body (peerAfter env p₀ g ss) st = .ok p st' →
      ∃ xs, ExpP env k st.cwd body xs ∧ (∀ s ∈ xs, ValidP s) ∧ p = peerAfter env p₀ g (ss ++ xs) := by
  intro body
  induction body with
  | nil =>
    intro ss st p st' h
    simp only [execPs, Res.ok.injEq] at h
    obtain ⟨rfl, rfl⟩ := h
    exact ⟨[], .nil, by simp, by simp⟩
  | cons s body ih =>
    intro ss st p st' h
    by_cases hi : ∃ f, s = .incl f
    · obtain ⟨f, rfl⟩ := hi
      simp only [execPs] at h
      obtain ⟨p1, st1, h1, h⟩ := bind_ok h
      have hk := hinc.1 f (peerAfter env p₀ g ss) st
      rw [h1] at hk
      cases hk
      obtain ⟨xs, hx, hv, rfl⟩ := hinc.2 _ _ _ _ _ h1
      obtain ⟨ys, he, hv', rfl⟩ := ih _ _ _ _ h
      refine ⟨xs ++ ys, ExpP.inc hx he, ?_, by simp⟩
      intro s hs
      rcases List.mem_append.1 hs with hs | hs
      · exact hv s hs
      · exact hv' s hs
    · have hni : ∀ f, s ≠ .incl f := fun f e => hi ⟨f, e⟩
      have h' : (match execP env s (peerAfter env p₀ g ss) with | none => Res.fail st | some p => execPs env inc body p st) = .ok p st' := by
        rw [← h]
        cases s <;> first | rfl | exact absurd rfl (hni _)
      cases hp1 : execP env s (peerAfter env p₀ g ss) with
      | none => rw [hp1] at h'; cases h'
      | some p1 =>
        rw [hp1] at h'
        obtain ⟨hvs, rfl⟩ := execP_some hni hp1
        obtain ⟨ys, he, hv', rfl⟩ := ih _ _ _ _ h'
        refine ⟨s :: ys, .cons hni he, ?_, by simp⟩
        intro s' hs'
        rcases List.mem_cons.1 hs' with rfl | hs'
        · exact hvs
        · exact hv' s' hs'

/-! ## Valid peer files are read -/

/-- What is known about reading a valid file -/
def CompleteP (env : Env D) (k : Nat) (inc : Bytes → Peer → St D → Res D Peer) : Prop :=
  ∀ f p st xs, IncP env k st.cwd f xs → (∀ s ∈ xs, ValidP s) → ∃ p', inc f p st = .ok p' st

theorem body_of_stmt {s t} (r) (h : DPStmt s t) : ∃ r', pPBody (t ++ r) = some (s, r') ∧ eat .semi r' = some r := by
  have := pP_complete r h
  unfold pP at this
  rw [semi_iff] at this
  exact ⟨_, this, by simp [eat]⟩

theorem ExpP.cons_inv {k d s ss xs} (h : ExpP env k d (s :: ss) xs) :
    (∃ f ys zs, s = .incl f ∧ xs = ys ++ zs ∧ IncP env k d f ys ∧ ExpP env k d ss zs) ∨
    ((∀ f, s ≠ .incl f) ∧ ∃ zs, xs = s :: zs ∧ ExpP env k d ss zs) := by
  cases h with
  | cons hn h => exact .inr ⟨hn, _, rfl, h⟩
  | incl hf hd he h => exact .inl ⟨_, _, _, rfl, rfl, ⟨_, _, _, _, rfl, hf, hd, he⟩, h⟩

theorem runPeer_valid {k} {inc : Bytes → Peer → St D → Res D Peer} (hinc : CompleteP env k inc) :
    ∀ n body ts xs p st, DPConf body ts → ExpP env k st.cwd body xs → (∀ s ∈ xs, ValidP s) → ts.length < n →
      ∃ p', runPeer env inc false n ts p st = .ok p' st := by
  intro n
  induction n with
  | zero => intro body ts xs p st _ _ _ h; omega
  | succ n ih =>
    intro body ts xs p st hd he hv hn
    cases hd with
    | nil => exact ⟨p, by simp [runPeer]⟩
    | @cons s ss t ts hs hd =>
      obtain ⟨k0, t0, rfl⟩ := hs.head
      obtain ⟨r', hb, hr⟩ := body_of_stmt ts hs
      have hlen : ts.length < n := by simp at hn; omega
      unfold runPeer
      rw [if_neg (by simp), hb]
      rcases he.cons_inv with ⟨f, ys, zs, rfl, rfl, hi, he'⟩ | ⟨hni, zs, rfl, he'⟩
      · obtain ⟨p1, h1⟩ := hinc f p st ys hi (fun s hs => hv s (List.mem_append_left _ hs))
        simp only [h1, Res.bind, hr]
        exact ih ss ts zs p1 st hd he' (fun s hs => hv s (List.mem_append_right _ hs)) hlen
      · obtain ⟨p1, h1⟩ := execP_valid (env := env) (p := p) (hv s (by simp))
        obtain ⟨p2, h2⟩ := ih ss ts zs p1 st hd he' (fun s hs => hv s (List.mem_cons_of_mem _ hs)) hlen
        refine ⟨p2, ?_⟩
        cases s with
        | incl f => exact absurd rfl (hni f)
        | _ => simp only [h1, hr, h2]

theorem readPeer_valid (hs : Sane env) (g : Nat) : ∀ k, CompleteP env k (readPeer env g k) := by
  intro k
  induction k with
  | zero => rintro f p st xs ⟨k', _, _, _, h, _⟩; omega
  | succ k ih =>
    rintro f p st xs ⟨k', ts, d', body, hk, ⟨hf, hd⟩, hdp, he⟩ hv
    obtain rfl : k = k' := by omega
    obtain ⟨p', h⟩ := runPeer_valid ih (ts.length + 1) body ts xs { p with group := some g } { st with cwd := d' } hdp he hv (Nat.lt_succ_self _)
    refine ⟨p', ?_⟩
    simp only [readPeer, readFile, hf, hd, h, back_eq hs]

theorem execPs_valid {k} {inc : Bytes → Peer → St D → Res D Peer} (hinc : CompleteP env k inc) :
    ∀ body xs p st, ExpP env k st.cwd body xs → (∀ s ∈ xs, ValidP s) → ∃ p', execPs env inc body p st = .ok p' st := by
  intro body
  induction body with
  | nil => intro xs p st _ _; exact ⟨p, rfl⟩
  | cons s body ih =>
    intro xs p st he hv
    rcases he.cons_inv with ⟨f, ys, zs, rfl, rfl, hi, he'⟩ | ⟨hni, zs, rfl, he'⟩
    · obtain ⟨p1, h1⟩ := hinc f p st ys hi (fun s hs => hv s (List.mem_append_left _ hs))
      simp only [execPs, h1, Res.bind]
      exact ih zs p1 st he' (fun s hs => hv s (List.mem_append_right _ hs))
    · obtain ⟨p1, h1⟩ := execP_valid (env := env) (p := p) (hv s (by simp))
      obtain ⟨p2, h2⟩ := ih zs p1 st he' (fun s hs => hv s (List.mem_cons_of_mem _ hs))
      refine ⟨p2, ?_⟩
      cases s with
      | incl f => exact absurd rfl (hni f)
      | _ => simp only [execPs, h1, h2]

end Fastd.Config.Spec
