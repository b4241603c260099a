import Verif.Config.ExecPeer

/-! # Lemmas about whole configurations -/

namespace Fastd.Config.Spec

open Fastd.Config (Bytes)
open Fastd.Config.Gram
open Fastd.Config.Exec

variable {D : Type} {env : Env D}

/-- The numbers of groups are used once. -/
structure Fresh (its : List (Nat × Item D)) (next : Nat) : Prop where
  pos : 1 ≤ next
  lt : ∀ x ∈ its, x.1 < next
  sub : ∀ x ∈ its, ∀ n, theSub x.2 = some n → 1 ≤ n ∧ n < next
  orig : ∀ n, 1 ≤ n → n < next → (origin n its).isSome

structure Inv (env : Env D) (its : List (Nat × Item D)) (next : Nat) (st : St D) : Prop where
  meets : Meets env its next st
  fresh : Fresh its next
  valid : ∀ x ∈ its, Valid env x.2
  keys : KeysValid env its

theorem Fresh.snoc {its : List (Nat × Item D)} {next} (h : Fresh its next) {g it} (hg : g < next) (hs : theSub it = none) :
    Fresh (its ++ [(g, it)]) next where
  pos := h.pos
  lt := by
    intro x hx
    rcases List.mem_append.1 hx with hx | hx
    · exact h.lt x hx
    · simp at hx; subst hx; exact hg
  sub := by
    intro x hx n hn
    rcases List.mem_append.1 hx with hx | hx
    · exact h.sub x hx n hn
    · simp at hx; subst hx; rw [hs] at hn; cases hn
  orig := by
    intro n h1 h2
    rw [origin_snoc _ _ _ (by simp [hs])]
    exact h.orig n h1 h2

theorem origin_fresh {its : List (Nat × Item D)} {n} (h : ∀ x ∈ its, theSub x.2 ≠ some n) : origin n its = none := by
  unfold origin
  rw [List.findSome?_eq_none_iff]
  rintro ⟨g, it⟩ hx
  have := h _ hx
  cases it <;> simp_all [theSub]

theorem origin_append {its : List (Nat × Item D)} {n a} (l) (h : origin n its = some a) : origin n (its ++ l) = some a := by
  unfold origin at *
  rw [List.findSome?_append, h]
  rfl

theorem keys_snoc_other {its : List (Nat × Item D)} {x} (h : thePeer env x = none) (hk : KeysValid env its) : KeysValid env (its ++ [x]) := by
  unfold KeysValid at *
  simpa [h] using hk

theorem valid_snoc {its : List (Nat × Item D)} {g it} (h : ∀ x ∈ its, Valid env x.2) (hv : Valid env it) : ∀ x ∈ its ++ [(g, it)], Valid env x.2 := by
  intro x hx
  rcases List.mem_append.1 hx with hx | hx
  · exact h x hx
  · simp at hx; subst hx; exact hv

theorem groupSpec_none (its : List (Nat × Item D)) (g i : Nat) (it : Item D)
    (h : (∃ d s, it = .simple d s) ∨ (∃ n ss, it = .peer n ss) ∨ ∃ i, it = .ident i) : groupSpec env (its ++ [(g, it)]) i = groupSpec env its i := by
  by_cases hi : g = i
  · unfold groupSpec
    rw [own_snoc, origin_snoc _ _ _ (by rcases h with ⟨d, s, rfl⟩ | ⟨n, ss, rfl⟩ | ⟨i, rfl⟩ <;> simp [theSub]), if_pos hi]
    simp only [last_snoc, List.filterMap_append]
    rcases h with ⟨d, s, rfl⟩ | ⟨n, ss, rfl⟩ | ⟨i, rfl⟩ <;> simp [theLimit, theMethod, theCmd, theDir, theSub]
  · exact groupSpec_other _ _ _ (by rcases h with ⟨d, s, rfl⟩ | ⟨n, ss, rfl⟩ | ⟨i, rfl⟩ <;> simp [theSub]) hi

theorem Inv.leaf (hs : Sane env) {its next g s} {st st' : St D} (hi : Inv env its next st) (hg : g < next) (hl : Leaf s)
    (h : execG env g s st = .ok () st') : st'.cwd = st.cwd ∧ Inv env (its ++ [(g, .leaf st.cwd s)]) next st' := by
  obtain ⟨hv, hc, hm⟩ := leaf_step hs hi.meets hg hl h
  exact ⟨hc, hm, hi.fresh.snoc hg rfl, valid_snoc hi.valid hv, keys_snoc_other rfl hi.keys⟩

theorem Inv.simple {its next g s} {st st' : St D} (hi : Inv env its next st) (hg : g < next) (hns : ∀ g, s ≠ .g g)
    (h : execS env s st = .ok () st') : st'.cwd = st.cwd ∧ Inv env (its ++ [(g, .simple st.cwd s)]) next st' := by
  obtain ⟨hv, hc, hgr, hp, hcs⟩ := execS_ok g hns hi.meets.conf h
  refine ⟨hc, ⟨by rw [hgr]; exact hi.meets.count, ?_, ?_, hcs⟩, hi.fresh.snoc hg rfl, valid_snoc hi.valid hv, keys_snoc_other rfl hi.keys⟩
  · intro i h
    rw [hgr, groupSpec_none _ _ _ _ (.inl ⟨_, _, rfl⟩)]
    exact hi.meets.group i h
  · rw [hp, hi.meets.peers]
    simp [thePeer]

theorem addPeer_ok {p : Peer} {st st' : St D} (h : addPeer p st = .ok () st') :
    p.key ≠ none ∧ p.key ∉ st.peers.map (·.key) ∧ st' = { st with peers := st.peers ++ [p] } := by
  unfold addPeer at h
  split at h
  · cases h
  · rename_i k hk
    split at h
    · cases h
    · rename_i hn
      simp only [Res.ok.injEq, true_and] at h
      refine ⟨by simp [hk], ?_, h.symm⟩
      simp only [hk]
      intro hm
      obtain ⟨q, hq, he⟩ := List.mem_map.1 hm
      exact hn (List.any_eq_true.2 ⟨q, hq, by simp [he]⟩)

theorem addPeer_valid {p : Peer} {st : St D} (h : p.key ≠ none) (h2 : p.key ∉ st.peers.map (·.key)) : ∃ st', addPeer p st = .ok () st' := by
  unfold addPeer
  split
  · contradiction
  · rename_i k hk
    rw [if_neg]
    · exact ⟨_, rfl⟩
    · intro ha
      obtain ⟨q, hq, he⟩ := List.any_eq_true.1 ha
      exact h2 (List.mem_map.2 ⟨q, hq, by rw [hk]; simpa using he⟩)

theorem keys_snoc {its : List (Nat × Item D)} {g name ss} :
    KeysValid env (its ++ [(g, .peer name ss)]) ↔ KeysValid env its ∧ (peerSpec env g name ss).key ≠ none ∧
      (peerSpec env g name ss).key ∉ (its.filterMap (thePeer env)).map (·.key) := by
  unfold KeysValid
  have : (its ++ [(g, Item.peer name ss)]).filterMap (thePeer env) = its.filterMap (thePeer env) ++ [peerSpec env g name ss] := by simp [thePeer]
  rw [this, List.map_append, List.nodup_append]
  constructor
  · rintro ⟨h1, h2, h3, h4⟩
    refine ⟨⟨fun p hp => h1 p (List.mem_append_left _ hp), h2⟩, h1 _ (by simp), fun hm => ?_⟩
    exact h4 _ hm _ (by simp) rfl
  · rintro ⟨⟨h1, h2⟩, h3, h4⟩
    refine ⟨?_, h2, by simp, ?_⟩
    · intro p hp
      rcases List.mem_append.1 hp with hp | hp
      · exact h1 p hp
      · simp at hp; subst hp; exact h3
    · intro a ha b hb e
      simp at hb
      subst hb; subst e
      exact h4 ha

theorem Inv.peer {its next g name xs} {st st' : St D} (hi : Inv env its next st) (hg : g < next) (hv : ∀ s ∈ xs, ValidP s)
    (h : addPeer (peerSpec env g name xs) st = .ok () st') : st'.cwd = st.cwd ∧ Inv env (its ++ [(g, .peer name xs)]) next st' := by
  obtain ⟨h1, h2, rfl⟩ := addPeer_ok h
  refine ⟨rfl, ⟨hi.meets.count, ?_, ?_, hi.meets.conf.snoc_same (by simp) (by simp) rfl⟩, hi.fresh.snoc hg rfl, valid_snoc hi.valid hv, ?_⟩
  · intro i h
    rw [groupSpec_none _ _ _ _ (.inr (.inl ⟨_, _, rfl⟩))]
    exact hi.meets.group i h
  · simp [hi.meets.peers, thePeer]
  · rw [keys_snoc]
    rw [hi.meets.peers] at h2
    exact ⟨hi.keys, h1, h2⟩

theorem groupSpec_new {its : List (Nat × Item D)} {next} (h : Fresh its next) {g name} (hg : g < next) :
    groupSpec env (its ++ [(g, .sub next name)]) next = defaultGroup name (some g) := by
  have ho : own next its = [] := by
    unfold own
    rw [List.filter_eq_nil_iff]
    intro x hx
    have := h.lt x hx
    simp; omega
  have hor : origin next (its ++ [(g, Item.sub next name)]) = some (g, name) := by
    unfold origin
    rw [List.findSome?_append]
    have : origin next its = none := origin_fresh (fun x hx e => by have := (h.sub x hx next e).2; omega)
    unfold origin at this
    rw [this]
    simp
  unfold groupSpec
  rw [own_snoc, ho, if_neg (by simp; omega), hor]
  simp [defaultGroup, last]

theorem groupSpec_parent {its : List (Nat × Item D)} {next g name} (hg : g < next) :
    groupSpec env (its ++ [(g, .sub next name)]) g = { groupSpec env its g with children := next :: (groupSpec env its g).children } := by
  unfold groupSpec
  rw [own_snoc, origin_snoc _ _ _ (by simp [theSub]; omega), if_pos rfl]
  simp only [last_snoc, List.filterMap_append]
  simp [theLimit, theMethod, theCmd, theDir, theSub]

theorem Inv.push {its next g name} {st : St D} (hi : Inv env its next st) (hg : g < next) :
    (push g name st).1 = next ∧ (push g name st).2.cwd = st.cwd ∧ Inv env (its ++ [(g, .sub next name)]) (next + 1) (push g name st).2 := by
  have hl := hi.meets.count
  refine ⟨hl, rfl, ⟨?_, ?_, ?_, hi.meets.conf.snoc_same (by simp) (by simp) rfl⟩, ⟨?_, ?_, ?_, ?_⟩, valid_snoc hi.valid trivial, keys_snoc_other rfl hi.keys⟩
  · simp [Exec.push, setGroup, hl]
  · intro i h
    simp only [Exec.push, setGroup, hl, List.getElem?_modify]
    by_cases hin : i = next
    · subst hin
      rw [List.getElem?_append_right (by omega), hl]
      have : g ≠ i := by omega
      simp [this, groupSpec_new hi.fresh hg]
    · rw [List.getElem?_append_left (by omega), hi.meets.group i (by omega)]
      by_cases hgi : g = i
      · subst hgi
        simp [groupSpec_parent hg]
      · rw [groupSpec_other _ _ _ (by simp [theSub]; omega) hgi]
        simp [hgi]
  · simp [Exec.push, setGroup, hi.meets.peers, thePeer]
  · omega
  · intro x hx
    rcases List.mem_append.1 hx with hx | hx
    · have := hi.fresh.lt x hx; omega
    · simp at hx; subst hx; show g < _; omega
  · intro x hx n hn
    rcases List.mem_append.1 hx with hx | hx
    · have := hi.fresh.sub x hx n hn; omega
    · simp at hx; subst hx
      simp [theSub] at hn
      have := hi.fresh.pos
      omega
  · intro n h1 h2
    by_cases hn : n = next
    · subst hn
      have := congrArg Group.parent (groupSpec_new (env := env) (name := name) hi.fresh hg)
      simp only [groupSpec, defaultGroup] at this
      rw [← Option.isSome_map (f := (·.1)), this]
      rfl
    · rw [origin_snoc _ _ _ (by simp [theSub]; omega)]
      exact hi.fresh.orig n h1 (by omega)

/-- `state->peer_group` is the root group if it has no parent -/
theorem Inv.root {its next g} {st : St D} (hi : Inv env its next st) (hg : g < next) : (groupSpec env its g).parent.isSome = decide (g ≠ 0) := by
  simp only [groupSpec, Option.isSome_map]
  by_cases h : g = 0
  · subst h
    rw [origin_fresh (fun x hx e => by have := (hi.fresh.sub x hx 0 e).1; omega)]
    rfl
  · rw [hi.fresh.orig g (by omega) hg]
    simp [h]

theorem walk_append (next g : Nat) (xs ys : List (X D)) :
    walk next g (xs ++ ys) = ((walk next g xs).1 ++ (walk (walk next g xs).2 g ys).1, (walk (walk next g xs).2 g ys).2) := by
  induction xs generalizing next with
  | nil => simp [walk]
  | cons x xs ih => simp [walk, ih]

mutual
theorem walk1_le (next g : Nat) : ∀ x : X D, next ≤ (walk1 next g x).2
  | .simple .. => by simp [walk1]
  | .leaf .. => by simp [walk1]
  | .peer .. => by simp [walk1]
  | .ident .. => by simp [walk1]
  | .group _ body => by
    have := walk_le (next + 1) next body
    simp only [walk1]
    omega
theorem walk_le (next g : Nat) : ∀ xs : List (X D), next ≤ (walk next g xs).2
  | [] => by simp [walk]
  | x :: xs => by
    have := walk1_le next g x
    have := walk_le (walk1 next g x).2 g xs
    simp only [walk]
    omega
end

/-- What including a file into the group `g` means -/
def IncX (env : Env D) (k : Nat) (d : D) (g : Nat) (f : Bytes) (xs : List (X D)) : Prop :=
  ∃ k' ts d', k = k' + 1 ∧ File env d f ts d' ∧
    ((g = 0 ∧ ∃ body, DConf body ts ∧ ExpC env k' d' body xs) ∨ (g ≠ 0 ∧ ∃ body, DGConf body ts ∧ ExpG env k' d' body xs))

/-- What is known about reading an included file -/
def Good (env : Env D) (k : Nat) (inc : Nat → Bytes → St D → Res D Unit) : Prop :=
  ∀ g f its next st st', Inv env its next st → g < next → inc g f st = .ok () st' →
    st'.cwd = st.cwd ∧ ∃ xs, IncX env k st.cwd g f xs ∧ Inv env (its ++ (walk next g xs).1) (walk next g xs).2 st'

/-- The expansion of one statement -/
def Ext (env : Env D) (k : Nat) (d : D) (g : Nat) (s : GStmt) (xs : List (X D)) : Prop :=
  (g ≠ 0 → ∀ ss ys, ExpG env k d ss ys → ExpG env k d (s :: ss) (xs ++ ys)) ∧
  (g = 0 → ∀ ss ys, ExpC env k d ss ys → ExpC env k d (.g s :: ss) (xs ++ ys))

theorem execGStmt_leaf {k inc g s} {st : St D} (hl : Leaf s) :
    execGStmt env k inc g s st = (execG env g s st).bind fun _ st => .ok g st := by
  cases s <;> first | rfl | (simp [execGStmt]; done) | exact hl.elim

theorem leafCase (hs : Sane env) {k inc s its next st g g' st'} (hl : Leaf s) (hi : Inv env its next st) (hg : g < next)
    (h : execGStmt env k inc g s st = .ok g' st') :
    g' = g ∧ st'.cwd = st.cwd ∧ ∃ xs, Ext env k st.cwd g s xs ∧ Inv env (its ++ (walk next g xs).1) (walk next g xs).2 st' := by
  rw [execGStmt_leaf hl] at h
  obtain ⟨_, st1, h1, h⟩ := bind_ok h
  simp only [Res.ok.injEq] at h
  obtain ⟨rfl, rfl⟩ := h
  obtain ⟨hc, hi'⟩ := hi.leaf hs hg hl h1
  refine ⟨rfl, hc, [.leaf st.cwd s], ⟨fun _ ss ys hy => .leaf hl hy, fun _ ss ys hy => .leaf hl hy⟩, ?_⟩
  simpa [walk, walk1] using hi'

mutual
theorem execGStmt_ok (hs : Sane env) {k inc} (hinc : Good env k inc) : ∀ (s : GStmt) its next st g g' st', Inv env its next st → g < next →
    execGStmt env k inc g s st = .ok g' st' →
    g' = g ∧ st'.cwd = st.cwd ∧ ∃ xs, Ext env k st.cwd g s xs ∧ Inv env (its ++ (walk next g xs).1) (walk next g xs).2 st'
  | .peer name body, its, next, st, g, g', st', hi, hg, h => by
    rw [execGStmt] at h
    obtain ⟨p, st1, h1, h⟩ := bind_ok h
    obtain ⟨_, st2, h2, h⟩ := bind_ok h
    simp only [Res.ok.injEq] at h
    obtain ⟨rfl, rfl⟩ := h
    have hgood := readPeer_good hs (newPeer (some name)) g k
    have hk := execPs_keeps hgood.1 (env := env) body { newPeer (some name) with group := some g } st
    rw [h1] at hk
    cases hk
    have h1' : execPs env (readPeer env g k) body (peerAfter env (newPeer (some name)) g []) st = .ok p st := h1
    obtain ⟨xs, he, hv, rfl⟩ := execPs_ok hgood _ _ _ _ _ h1'
    obtain ⟨hc, hi'⟩ := hi.peer (name := some name) hg hv h2
    refine ⟨rfl, hc, [.peer (some name) xs], ⟨fun _ ss ys hy => .peer he hy, fun _ ss ys hy => .peer he hy⟩, ?_⟩
    simpa [walk, walk1] using hi'
  | .group name body, its, next, st, g, g', st', hi, hg, h => by
    rw [execGStmt] at h
    obtain ⟨hn, hc, hi'⟩ := hi.push (name := name) hg
    simp only [hn] at h
    obtain ⟨n, st1, h1, h2⟩ := bind_ok h
    obtain ⟨rfl, hc1, xs, he, hi1⟩ := execGStmts_ok hs hinc body _ _ _ _ _ _ hi' (Nat.lt_succ_self _) h1
    have he := he (by have := hi.fresh.pos; omega)
    have hp : pop n st1 = some g := by
      have hm := hi1.meets.group n (by have := walk_le (n + 1) n xs; omega)
      unfold pop
      rw [hm]
      have hor : origin n (its ++ [(g, Item.sub n name)]) = some (g, name) := by
        unfold origin
        rw [List.findSome?_append]
        have : origin n its = none := origin_fresh (fun x hx e => by have := (hi.fresh.sub x hx n e).2; omega)
        unfold origin at this
        rw [this]
        simp
      simp only [groupSpec, origin_append _ hor]
      rfl
    rw [hp] at h2
    simp only [Res.ok.injEq] at h2
    obtain ⟨rfl, rfl⟩ := h2
    rw [hc] at hc1 he
    refine ⟨rfl, hc1, [.group name xs], ⟨fun _ ss ys hy => .group he hy, fun _ ss ys hy => .group he hy⟩, ?_⟩
    simpa [walk, walk1] using hi1
  | .inclPeer f as?, its, next, st, g, g', st', hi, hg, h => by
    rw [execGStmt] at h
    obtain ⟨p, st1, h1, h⟩ := bind_ok h
    obtain ⟨_, st2, h2, h⟩ := bind_ok h
    simp only [Res.ok.injEq] at h
    obtain ⟨rfl, rfl⟩ := h
    have hk := readPeer_keeps hs g k f (newPeer as?) st
    rw [h1] at hk
    cases hk
    obtain ⟨xs, ⟨k', ts, d', body, rfl, hf, hd, he⟩, hv, rfl⟩ := readPeer_ok' hs (p₀ := newPeer as?) k f (newPeer as?) [] st p st rfl h1
    obtain ⟨hc, hi'⟩ := hi.peer (name := as?) hg hv h2
    refine ⟨rfl, hc, [.peer as? xs], ⟨fun _ ss ys hy => .inclPeer hf hd he hy, fun _ ss ys hy => .inclPeer hf hd he hy⟩, ?_⟩
    simpa [walk, walk1] using hi'
  | .incl f, its, next, st, g, g', st', hi, hg, h => by
    rw [execGStmt] at h
    obtain ⟨p, st1, h1, h⟩ := bind_ok h
    simp only [Res.ok.injEq] at h
    obtain ⟨rfl, rfl⟩ := h
    obtain ⟨hc, xs, ⟨k', ts, d', rfl, hf, hx⟩, hi'⟩ := hinc _ _ _ _ _ _ hi hg h1
    refine ⟨rfl, hc, xs, ⟨?_, ?_⟩, hi'⟩
    · intro hne ss ys hy
      rcases hx with ⟨h0, _⟩ | ⟨_, body, hd, he⟩
      · exact absurd h0 hne
      · exact .incl hf hd he hy
    · intro h0 ss ys hy
      rcases hx with ⟨_, body, hd, he⟩ | ⟨hne, _⟩
      · exact .incl hf hd he hy
      · exact absurd h0 hne
  | .limit n, its, next, st, g, g', st', hi, hg, h => leafCase hs trivial hi hg h
  | .method n, its, next, st, g, g', st', hi, hg, h => leafCase hs trivial hi hg h
  | .on _ _ _, its, next, st, g, g', st', hi, hg, h => leafCase hs trivial hi hg h
  | .inclPeers n, its, next, st, g, g', st', hi, hg, h => leafCase hs trivial hi hg h

theorem execGStmts_ok (hs : Sane env) {k inc} (hinc : Good env k inc) : ∀ (ss : List GStmt) its next st g g' st', Inv env its next st → g < next →
    execGStmts env k inc g ss st = .ok g' st' →
    g' = g ∧ st'.cwd = st.cwd ∧ ∃ xs, (g ≠ 0 → ExpG env k st.cwd ss xs) ∧ Inv env (its ++ (walk next g xs).1) (walk next g xs).2 st'
  | [], its, next, st, g, g', st', hi, hg, h => by
    simp only [execGStmts, Res.ok.injEq] at h
    obtain ⟨rfl, rfl⟩ := h
    exact ⟨rfl, rfl, [], fun _ => .nil, by simpa [walk] using hi⟩
  | s :: ss, its, next, st, g, g', st', hi, hg, h => by
    rw [execGStmts] at h
    obtain ⟨g1, st1, h1, h2⟩ := bind_ok h
    obtain ⟨rfl, hc1, xs, hx, hi1⟩ := execGStmt_ok hs hinc s _ _ _ _ _ _ hi hg h1
    obtain ⟨rfl, hc2, ys, hy, hi2⟩ := execGStmts_ok hs hinc ss _ _ _ _ _ _ hi1 (Nat.lt_of_lt_of_le hg (walk_le _ _ _)) h2
    rw [hc1] at hc2 hy
    refine ⟨rfl, hc2, xs ++ ys, fun hne => hx.1 hne _ _ (hy hne), ?_⟩
    rw [walk_append, ← List.append_assoc]
    exact hi2
end

theorem execStmts_ok (hs : Sane env) {k inc} (hinc : Good env k inc) : ∀ (ss : List Stmt) its next st g' st', Inv env its next st →
    execStmts env k inc 0 ss st = .ok g' st' →
    g' = 0 ∧ st'.cwd = st.cwd ∧ ∃ xs, ExpC env k st.cwd ss xs ∧ Inv env (its ++ (walk next 0 xs).1) (walk next 0 xs).2 st' := by
  intro ss
  induction ss with
  | nil =>
    intro its next st g' st' hi h
    simp only [execStmts, Res.ok.injEq] at h
    obtain ⟨rfl, rfl⟩ := h
    exact ⟨rfl, rfl, [], .nil, by simpa [walk] using hi⟩
  | cons s ss ih =>
    intro its next st g' st' hi h
    by_cases hg : ∃ g, s = .g g
    · obtain ⟨s, rfl⟩ := hg
      rw [execStmts] at h
      obtain ⟨g1, st1, h1, h2⟩ := bind_ok h
      obtain ⟨rfl, hc1, xs, hx, hi1⟩ := execGStmt_ok hs hinc s _ _ _ _ _ _ hi hi.fresh.pos h1
      obtain ⟨rfl, hc2, ys, hy, hi2⟩ := ih _ _ _ _ _ hi1 h2
      rw [hc1] at hc2 hy
      refine ⟨rfl, hc2, xs ++ ys, hx.2 rfl _ _ hy, ?_⟩
      rw [walk_append, ← List.append_assoc]
      exact hi2
    · have hns : ∀ g, s ≠ .g g := fun g e => hg ⟨g, e⟩
      have h' : (execS env s st).bind (fun _ st => execStmts env k inc 0 ss st) = .ok g' st' := by
        rw [← h]
        cases s <;> first | rfl | exact absurd rfl (hns _)
      obtain ⟨_, st1, h1, h2⟩ := bind_ok h'
      obtain ⟨hc1, hi1⟩ := hi.simple (g := 0) hi.fresh.pos hns h1
      obtain ⟨rfl, hc2, ys, hy, hi2⟩ := ih _ _ _ _ _ hi1 h2
      rw [hc1] at hc2 hy
      refine ⟨rfl, hc2, .simple st.cwd s :: ys, .simple hns hy, ?_⟩
      simpa [walk, walk1] using hi2

theorem Inv.cwd {its next} {st : St D} (h : Inv env its next st) (d : D) : Inv env its next { st with cwd := d } :=
  ⟨⟨h.meets.count, h.meets.group, h.meets.peers, h.meets.conf⟩, h.fresh, h.valid, h.keys⟩

theorem readConf_good (hs : Sane env) : ∀ k, Good env k (readConf env k) := by
  intro k
  induction k with
  | zero => intro g f its next st st' _ _ h; cases h
  | succ k ih =>
    intro g f its next st st' hi hg h
    obtain ⟨ts, bad, d', st1, hf, hd, hr, rfl⟩ := readFile_ok hs h
    dsimp only at hr
    split at hr
    · cases hr
    · rename_i hb
      obtain rfl : bad = false := by simpa using hb
      have hi' := hi.cwd (env := env) d'
      rw [hi.meets.group g hg] at hr
      simp only [hi.root hg] at hr
      by_cases h0 : g = 0
      · subst h0
        rw [if_neg (by simp)] at hr
        split at hr
        · rename_i ss hp
          obtain ⟨g', st2, h1, h2⟩ := bind_ok hr
          simp only [Res.ok.injEq, true_and] at h2
          subst h2
          obtain ⟨rfl, hc, xs, hx, hi2⟩ := execStmts_ok hs ih ss _ _ _ _ _ hi' h1
          exact ⟨rfl, xs, ⟨k, ts, d', rfl, ⟨hf, hd⟩, .inl ⟨rfl, ss, parseConf_iff.1 hp, hx⟩⟩, hi2.cwd _⟩
        · cases hr
      · rw [if_pos (by simp [h0])] at hr
        split at hr
        · rename_i ss hp
          obtain ⟨g', st2, h1, h2⟩ := bind_ok hr
          simp only [Res.ok.injEq, true_and] at h2
          subst h2
          obtain ⟨rfl, hc, xs, hx, hi2⟩ := execGStmts_ok hs ih ss _ _ _ _ _ _ hi' hg h1
          exact ⟨rfl, xs, ⟨k, ts, d', rfl, ⟨hf, hd⟩, .inr ⟨h0, ss, parseGroup_iff.1 hp, hx h0⟩⟩, hi2.cwd _⟩
        · cases hr

theorem inv_start (d : D) : Inv env [] 1 (start d) := by
  refine ⟨⟨rfl, ?_, rfl, ?_⟩, ⟨Nat.le_refl _, by simp, by simp, fun n h1 h2 => by omega⟩, by simp, by simp [KeysValid]⟩
  · intro g hg
    obtain rfl : g = 0 := by omega
    rfl
  · constructor <;> first | rfl | simp [start, defaultConf, IsDefault]

/-! ## Valid configurations are accepted -/

/-- What is known about reading a valid file -/
def Complete (env : Env D) (k : Nat) (inc : Nat → Bytes → St D → Res D Unit) : Prop :=
  ∀ g f its next st xs, Inv env its next st → g < next → IncX env k st.cwd g f xs → (∀ x ∈ (walk next g xs).1, Valid env x.2) →
    KeysValid env (its ++ (walk next g xs).1) → ∃ st', inc g f st = .ok () st'

theorem KeysValid.left {a b : List (Nat × Item D)} (h : KeysValid env (a ++ b)) : KeysValid env a := by
  unfold KeysValid at *
  rw [List.filterMap_append, List.map_append, List.nodup_append] at h
  exact ⟨fun p hp => h.1 p (List.mem_append_left _ hp), h.2.1⟩

theorem File.det {d : D} {f ts ts' d1 d2} (h : File env d f ts d1) (h' : File env d f ts' d2) : ts = ts' ∧ d1 = d2 := by
  obtain ⟨h1, h2⟩ := h
  obtain ⟨h1', h2'⟩ := h'
  rw [h1] at h1'
  rw [h2] at h2'
  cases h1'; cases h2'
  exact ⟨rfl, rfl⟩

theorem _root_.Fastd.Config.Gram.DPConf.det {a b ts} (h : DPConf a ts) (h' : DPConf b ts) : a = b := by
  have h := parsePeer_iff.2 h
  rw [parsePeer_iff.2 h'] at h
  exact (Option.some.inj h).symm

theorem _root_.Fastd.Config.Gram.DGConf.det {a b ts} (h : DGConf a ts) (h' : DGConf b ts) : a = b := by
  have h := parseGroup_iff.2 h
  rw [parseGroup_iff.2 h'] at h
  exact (Option.some.inj h).symm

theorem _root_.Fastd.Config.Gram.DConf.det {a b ts} (h : DConf a ts) (h' : DConf b ts) : a = b := by
  have h := parseConf_iff.2 h
  rw [parseConf_iff.2 h'] at h
  exact (Option.some.inj h).symm

theorem ExpP.det {k} {d : D} {ss xs ys} (h : ExpP env k d ss xs) : ExpP env k d ss ys → xs = ys := by
  induction h generalizing ys with
  | nil => intro h; cases h; rfl
  | cons hn _ ih =>
    intro h
    cases h with
    | cons _ h => rw [ih h]
    | incl => exact absurd rfl (hn _)
  | incl hf hd _ _ ih1 ih2 =>
    intro h
    cases h with
    | cons hn _ => exact absurd rfl (hn _)
    | incl hf' hd' he' h' =>
      obtain ⟨rfl, rfl⟩ := hf.det hf'
      obtain rfl := hd.det hd'
      rw [ih1 he', ih2 h']

theorem ExpG.det {k} {d : D} {ss xs ys} (h : ExpG env k d ss xs) : ExpG env k d ss ys → xs = ys := by
  induction h generalizing ys with
  | nil => intro h; cases h; rfl
  | leaf hl _ ih =>
    intro h
    cases h with
    | leaf _ h => rw [ih h]
    | _ => exact hl.elim
  | peer he _ ih =>
    intro h
    cases h with
    | peer he' h => rw [he.det he', ih h]
    | leaf hl => exact hl.elim
  | group _ _ ih1 ih2 =>
    intro h
    cases h with
    | group he' h => rw [ih1 he', ih2 h]
    | leaf hl => exact hl.elim
  | inclPeer hf hd he _ ih =>
    intro h
    cases h with
    | inclPeer hf' hd' he' h' =>
      obtain ⟨rfl, rfl⟩ := hf.det hf'
      obtain rfl := hd.det hd'
      rw [he.det he', ih h']
    | leaf hl => exact hl.elim
  | incl hf hd _ _ ih1 ih2 =>
    intro h
    cases h with
    | incl hf' hd' he' h' =>
      obtain ⟨rfl, rfl⟩ := hf.det hf'
      obtain rfl := hd.det hd'
      rw [ih1 he', ih2 h']
    | leaf hl => exact hl.elim

theorem ExpC.det {k} {d : D} {ss xs ys} (h : ExpC env k d ss xs) : ExpC env k d ss ys → xs = ys := by
  induction h generalizing ys with
  | nil => intro h; cases h; rfl
  | simple hn _ ih =>
    intro h
    cases h with
    | simple _ h => rw [ih h]
    | _ => exact absurd rfl (hn _)
  | leaf hl _ ih =>
    intro h
    cases h with
    | leaf _ h => rw [ih h]
    | simple hn => exact absurd rfl (hn _)
    | _ => exact hl.elim
  | peer he _ ih =>
    intro h
    cases h with
    | peer he' h => rw [he.det he', ih h]
    | leaf hl => exact hl.elim
    | simple hn => exact absurd rfl (hn _)
  | group he _ ih2 =>
    intro h
    cases h with
    | group he' h => rw [he.det he', ih2 h]
    | leaf hl => exact hl.elim
    | simple hn => exact absurd rfl (hn _)
  | inclPeer hf hd he _ ih =>
    intro h
    cases h with
    | inclPeer hf' hd' he' h' =>
      obtain ⟨rfl, rfl⟩ := hf.det hf'
      obtain rfl := hd.det hd'
      rw [he.det he', ih h']
    | leaf hl => exact hl.elim
    | simple hn => exact absurd rfl (hn _)
  | incl hf hd _ _ ih1 ih2 =>
    intro h
    cases h with
    | incl hf' hd' he' h' =>
      obtain ⟨rfl, rfl⟩ := hf.det hf'
      obtain rfl := hd.det hd'
      rw [ih1 he', ih2 h']
    | leaf hl => exact hl.elim
    | simple hn => exact absurd rfl (hn _)

theorem IncP.det {k} {d : D} {f xs ys} (h : IncP env k d f xs) (h' : IncP env k d f ys) : xs = ys := by
  obtain ⟨k1, ts, d1, body, rfl, hf, hd, he⟩ := h
  obtain ⟨k2, ts, d2, body, hk, hf', hd', he'⟩ := h'
  obtain rfl : k1 = k2 := by omega
  obtain ⟨rfl, rfl⟩ := hf.det hf'
  obtain rfl := hd.det hd'
  exact he.det he'

theorem IncX.det {k} {d : D} {g f xs ys} (h : IncX env k d g f xs) (h' : IncX env k d g f ys) : xs = ys := by
  obtain ⟨k1, ts, d1, rfl, hf, h⟩ := h
  obtain ⟨k2, ts, d2, hk, hf', h'⟩ := h'
  obtain rfl : k1 = k2 := by omega
  obtain ⟨rfl, rfl⟩ := hf.det hf'
  rcases h with ⟨h0, body, hd, he⟩ | ⟨h0, body, hd, he⟩
  · rcases h' with ⟨_, body', hd', he'⟩ | ⟨h0', _⟩
    · obtain rfl := hd.det hd'; exact he.det he'
    · exact absurd h0 h0'
  · rcases h' with ⟨h0', _⟩ | ⟨_, body', hd', he'⟩
    · exact absurd h0' h0
    · obtain rfl := hd.det hd'; exact he.det he'

theorem addPeer_inv {its next g name ps} {st : St D} (hi : Inv env its next st) (hk : KeysValid env (its ++ [(g, .peer name ps)])) :
    ∃ st', addPeer (peerSpec env g name ps) st = .ok () st' := by
  obtain ⟨_, h1, h2⟩ := keys_snoc.1 hk
  rw [← hi.meets.peers] at h2
  exact addPeer_valid h1 h2

theorem execPeer_valid (hs : Sane env) {k its next g name body ps} {st : St D} (hi : Inv env its next st)
    (he : ExpP env k st.cwd body ps) (hv : ∀ s ∈ ps, ValidP s) (hk : KeysValid env (its ++ [(g, .peer name ps)])) :
    ∃ st', (execPs env (readPeer env g k) body { newPeer name with group := some g } st).bind (fun p st =>
      (addPeer p st).bind fun _ st => .ok g st) = .ok g st' := by
  obtain ⟨p, hp⟩ := execPs_valid (readPeer_valid hs g k) body ps { newPeer name with group := some g } st he hv
  have hp' : execPs env (readPeer env g k) body (peerAfter env (newPeer name) g []) st = .ok p st := hp
  obtain ⟨xs, hx, _, rfl⟩ := execPs_ok (readPeer_good hs (newPeer name) g k) _ _ _ _ _ hp'
  obtain rfl := he.det hx
  obtain ⟨st', h⟩ := addPeer_inv hi hk
  have h' : addPeer (peerAfter env (newPeer name) g ([] ++ ps)) st = .ok () st' := h
  exact ⟨st', by rw [hp]; simp only [Res.bind]; rw [h']⟩

theorem readPeer_step (hs : Sane env) {k its next g f name ps} {st : St D} (hi : Inv env its next st)
    (he : IncP env k st.cwd f ps) (hv : ∀ s ∈ ps, ValidP s) (hk : KeysValid env (its ++ [(g, .peer name ps)])) :
    ∃ st', (readPeer env g k f (newPeer name) st).bind (fun p st => (addPeer p st).bind fun _ st => .ok g st) = .ok g st' := by
  obtain ⟨p, hp⟩ := readPeer_valid hs g k f (newPeer name) st ps he hv
  obtain ⟨xs, hx, _, rfl⟩ := readPeer_ok' hs (p₀ := newPeer name) k f (newPeer name) [] st p st rfl hp
  obtain rfl := he.det hx
  obtain ⟨st', h⟩ := addPeer_inv hi hk
  have h' : addPeer (peerAfter env (newPeer name) g ([] ++ ps)) st = .ok () st' := h
  exact ⟨st', by rw [hp]; simp only [Res.bind]; rw [h']⟩

/-- Expansion of a single statement of a group other than the root group -/
theorem ExpG.cons_inv {k} {d : D} {s ss xs} (h : ExpG env k d (s :: ss) xs) :
    ∃ ys zs, xs = ys ++ zs ∧ ExpG env k d [s] ys ∧ ExpG env k d ss zs := by
  cases h with
  | leaf hl h => exact ⟨[_], _, rfl, .leaf hl .nil, h⟩
  | peer he h => exact ⟨[_], _, rfl, .peer he .nil, h⟩
  | group he h => exact ⟨[_], _, rfl, .group he .nil, h⟩
  | inclPeer hf hd he h => exact ⟨[_], _, rfl, .inclPeer hf hd he .nil, h⟩
  | incl hf hd he h => exact ⟨_, _, rfl, by simpa using ExpG.incl hf hd he .nil, h⟩

/-- What the expansion of one statement in the group `g` is -/
def One (env : Env D) (k : Nat) (d : D) (g : Nat) (s : GStmt) (xs : List (X D)) : Prop :=
  (g ≠ 0 ∧ ExpG env k d [s] xs) ∨ (g = 0 ∧ ExpC env k d [.g s] xs)

theorem One.det {k} {d : D} {g s xs ys} (h : One env k d g s xs) (h' : Ext env k d g s ys) : xs = ys := by
  rcases h with ⟨h0, h⟩ | ⟨h0, h⟩
  · have := h'.1 h0 [] [] .nil
    rw [List.append_nil] at this
    exact h.det this
  · have := h'.2 h0 [] [] .nil
    rw [List.append_nil] at this
    exact h.det this

theorem One.cases {k} {d : D} {g s xs} (h : One env k d g s xs) :
    (Leaf s ∧ xs = [.leaf d s]) ∨
    (∃ name body ps, s = .peer name body ∧ xs = [.peer (some name) ps] ∧ ExpP env k d body ps) ∨
    (∃ name body ys, s = .group name body ∧ xs = [.group name ys] ∧ ExpG env k d body ys) ∨
    (∃ f as? ps, s = .inclPeer f as? ∧ xs = [.peer as? ps] ∧ IncP env k d f ps) ∨
    (∃ f, s = .incl f ∧ IncX env k d g f xs) := by
  rcases h with ⟨h0, h⟩ | ⟨h0, h⟩
  · cases h with
    | leaf hl h => cases h; exact .inl ⟨hl, rfl⟩
    | peer he h => cases h; exact .inr (.inl ⟨_, _, _, rfl, rfl, he⟩)
    | group he h => cases h; exact .inr (.inr (.inl ⟨_, _, _, rfl, rfl, he⟩))
    | inclPeer hf hd he h => cases h; exact .inr (.inr (.inr (.inl ⟨_, _, _, rfl, rfl, ⟨_, _, _, _, rfl, hf, hd, he⟩⟩)))
    | incl hf hd he h => cases h; exact .inr (.inr (.inr (.inr ⟨_, rfl, _, _, _, rfl, hf, .inr ⟨h0, _, hd, by simpa using he⟩⟩)))
  · cases h with
    | simple hn h => exact absurd rfl (hn _)
    | leaf hl h => cases h; exact .inl ⟨hl, rfl⟩
    | peer he h => cases h; exact .inr (.inl ⟨_, _, _, rfl, rfl, he⟩)
    | group he h => cases h; exact .inr (.inr (.inl ⟨_, _, _, rfl, rfl, he⟩))
    | inclPeer hf hd he h => cases h; exact .inr (.inr (.inr (.inl ⟨_, _, _, rfl, rfl, ⟨_, _, _, _, rfl, hf, hd, he⟩⟩)))
    | incl hf hd he h => cases h; exact .inr (.inr (.inr (.inr ⟨_, rfl, _, _, _, rfl, hf, .inl ⟨h0, _, hd, by simpa using he⟩⟩)))

theorem leafValid (hs : Sane env) {k inc s next st g xs} (hl : Leaf s) (ho : One env k st.cwd g s xs)
    (hv : ∀ x ∈ (walk next g xs).1, Valid env x.2) : ∃ st', execGStmt env k inc g s st = .ok g st' := by
  rw [execGStmt_leaf hl]
  rcases ho.cases with ⟨_, rfl⟩ | ⟨n, b, ps, rfl, _⟩ | ⟨n, b, ys, rfl, _⟩ | ⟨f, a, ps, rfl, _⟩ | ⟨f, rfl, _⟩
  · obtain ⟨st', h⟩ := leaf_valid hs (g := g) hl (hv (g, .leaf st.cwd s) (by simp [walk, walk1]))
    exact ⟨st', by rw [h]; rfl⟩
  all_goals exact hl.elim

mutual
theorem execGStmt_valid (hs : Sane env) {k inc} (hinc : Good env k inc) (hcomp : Complete env k inc) : ∀ (s : GStmt) its next st g xs, Inv env its next st → g < next →
    One env k st.cwd g s xs → (∀ x ∈ (walk next g xs).1, Valid env x.2) → KeysValid env (its ++ (walk next g xs).1) →
    ∃ st', execGStmt env k inc g s st = .ok g st'
  | .peer name body, its, next, st, g, xs, hi, hg, ho, hv, hk => by
    rcases ho.cases with ⟨hl, _⟩ | ⟨n, b, ps, e, rfl, he⟩ | ⟨n, b, ys, e, _⟩ | ⟨f, a, ps, e, _⟩ | ⟨f, e, _⟩
    · exact hl.elim
    · cases e
      rw [execGStmt]
      exact execPeer_valid hs hi he (hv (g, .peer (some name) ps) (by simp [walk, walk1])) (by simpa [walk, walk1] using hk)
    all_goals cases e
  | .group name body, its, next, st, g, xs, hi, hg, ho, hv, hk => by
    rcases ho.cases with ⟨hl, _⟩ | ⟨n, b, ps, e, _⟩ | ⟨n, b, ys, e, rfl, he⟩ | ⟨f, a, ps, e, _⟩ | ⟨f, e, _⟩
    · exact hl.elim
    · cases e
    · cases e
      have hw : (walk next g [X.group name ys]).1 = (g, .sub next name) :: (walk (next + 1) next ys).1 := by simp [walk, walk1]
      rw [hw] at hv hk
      obtain ⟨hn, hc, hi'⟩ := hi.push (name := name) hg
      obtain ⟨st1, h1⟩ := execGStmts_valid hs hinc hcomp body _ _ (push g name st).2 _ ys hi' (Nat.lt_succ_self _) (by have := hi.fresh.pos; omega) (by rw [hc]; exact he)
        (fun x hx => hv x (List.mem_cons_of_mem _ hx)) (by simpa using hk)
      obtain ⟨_, _, zs, hz, hi1⟩ := execGStmts_ok hs hinc body _ _ _ _ _ _ hi' (Nat.lt_succ_self _) h1
      have hp : pop next st1 = some g := by
        have hm := hi1.meets.group next (by have := walk_le (next + 1) next zs; omega)
        unfold pop
        rw [hm]
        have hor : origin next (its ++ [(g, Item.sub next name)]) = some (g, name) := by
          unfold origin
          rw [List.findSome?_append]
          have : origin next its = none := origin_fresh (fun x hx e => by have := (hi.fresh.sub x hx next e).2; omega)
          unfold origin at this
          rw [this]
          simp
        simp only [groupSpec, origin_append _ hor]
        rfl
      refine ⟨st1, ?_⟩
      rw [execGStmt]
      simp only [hn, h1, Res.bind, hp]
    all_goals cases e
  | .inclPeer f as?, its, next, st, g, xs, hi, hg, ho, hv, hk => by
    rcases ho.cases with ⟨hl, _⟩ | ⟨n, b, ps, e, _⟩ | ⟨n, b, ys, e, _⟩ | ⟨f, a, ps, e, rfl, he⟩ | ⟨f, e, _⟩
    · exact hl.elim
    · cases e
    · cases e
    · cases e
      rw [execGStmt]
      exact readPeer_step hs hi he (hv (g, .peer as? ps) (by simp [walk, walk1])) (by simpa [walk, walk1] using hk)
    · cases e
  | .incl f, its, next, st, g, xs, hi, hg, ho, hv, hk => by
    rcases ho.cases with ⟨hl, _⟩ | ⟨n, b, ps, e, _⟩ | ⟨n, b, ys, e, _⟩ | ⟨f, a, ps, e, _⟩ | ⟨f, e, he⟩
    · exact hl.elim
    · cases e
    · cases e
    · cases e
    · cases e
      obtain ⟨st', h⟩ := hcomp _ _ _ _ _ _ hi hg he hv hk
      exact ⟨st', by rw [execGStmt, h]; rfl⟩
  | .limit n, its, next, st, g, xs, hi, hg, ho, hv, hk => leafValid hs trivial ho hv
  | .method n, its, next, st, g, xs, hi, hg, ho, hv, hk => leafValid hs trivial ho hv
  | .on _ _ _, its, next, st, g, xs, hi, hg, ho, hv, hk => leafValid hs trivial ho hv
  | .inclPeers n, its, next, st, g, xs, hi, hg, ho, hv, hk => leafValid hs trivial ho hv

theorem execGStmts_valid (hs : Sane env) {k inc} (hinc : Good env k inc) (hcomp : Complete env k inc) : ∀ (ss : List GStmt) its next st g xs, Inv env its next st → g < next →
    g ≠ 0 → ExpG env k st.cwd ss xs → (∀ x ∈ (walk next g xs).1, Valid env x.2) → KeysValid env (its ++ (walk next g xs).1) →
    ∃ st', execGStmts env k inc g ss st = .ok g st'
  | [], its, next, st, g, xs, hi, hg, h0, he, hv, hk => ⟨st, by simp [execGStmts]⟩
  | s :: ss, its, next, st, g, xs, hi, hg, h0, he, hv, hk => by
    obtain ⟨ys, zs, rfl, h1, h2⟩ := he.cons_inv
    rw [walk_append] at hv hk
    dsimp only at hv hk
    rw [← List.append_assoc] at hk
    obtain ⟨st1, e1⟩ := execGStmt_valid hs hinc hcomp s _ _ _ _ ys hi hg (.inl ⟨h0, h1⟩) (fun x hx => hv x (List.mem_append_left _ hx)) hk.left
    obtain ⟨_, hc, xs', hx, hi1⟩ := execGStmt_ok hs hinc s _ _ _ _ _ _ hi hg e1
    obtain rfl := One.det (.inl ⟨h0, h1⟩) hx
    obtain ⟨st2, e2⟩ := execGStmts_valid hs hinc hcomp ss _ _ st1 g zs hi1 (Nat.lt_of_lt_of_le hg (walk_le _ _ _)) h0 (by rw [hc]; exact h2)
      (fun x hx => hv x (List.mem_append_right _ hx)) hk
    exact ⟨st2, by rw [execGStmts, e1]; exact e2⟩
end

theorem ExpC.cons_inv {k} {d : D} {s ss xs} (h : ExpC env k d (s :: ss) xs) :
    ∃ ys zs, xs = ys ++ zs ∧ ExpC env k d [s] ys ∧ ExpC env k d ss zs := by
  cases h with
  | simple hn h => exact ⟨[_], _, rfl, .simple hn .nil, h⟩
  | leaf hl h => exact ⟨[_], _, rfl, .leaf hl .nil, h⟩
  | peer he h => exact ⟨[_], _, rfl, .peer he .nil, h⟩
  | group he h => exact ⟨[_], _, rfl, .group he .nil, h⟩
  | inclPeer hf hd he h => exact ⟨[_], _, rfl, .inclPeer hf hd he .nil, h⟩
  | incl hf hd he h => exact ⟨_, _, rfl, by simpa using ExpC.incl hf hd he .nil, h⟩

theorem execStmts_valid (hs : Sane env) {k inc} (hinc : Good env k inc) (hcomp : Complete env k inc) : ∀ (ss : List Stmt) its next st xs, Inv env its next st →
    ExpC env k st.cwd ss xs → (∀ x ∈ (walk next 0 xs).1, Valid env x.2) → KeysValid env (its ++ (walk next 0 xs).1) →
    ∃ st', execStmts env k inc 0 ss st = .ok 0 st' := by
  intro ss
  induction ss with
  | nil => intro its next st xs _ _ _ _; exact ⟨st, by simp [execStmts]⟩
  | cons s ss ih =>
    intro its next st xs hi he hv hk
    obtain ⟨ys, zs, rfl, h1, h2⟩ := he.cons_inv
    rw [walk_append] at hv hk
    dsimp only at hv hk
    rw [← List.append_assoc] at hk
    by_cases hg : ∃ g, s = .g g
    · obtain ⟨s, rfl⟩ := hg
      obtain ⟨st1, e1⟩ := execGStmt_valid hs hinc hcomp s _ _ _ _ ys hi hi.fresh.pos (.inr ⟨rfl, h1⟩) (fun x hx => hv x (List.mem_append_left _ hx)) hk.left
      obtain ⟨_, hc, xs', hx, hi1⟩ := execGStmt_ok hs hinc s _ _ _ _ _ _ hi hi.fresh.pos e1
      obtain rfl := One.det (.inr ⟨rfl, h1⟩) hx
      obtain ⟨st2, e2⟩ := ih _ _ st1 zs hi1 (by rw [hc]; exact h2) (fun x hx => hv x (List.mem_append_right _ hx)) hk
      exact ⟨st2, by rw [execStmts, e1]; exact e2⟩
    · have hns : ∀ g, s ≠ .g g := fun g e => hg ⟨g, e⟩
      have hy : ys = [.simple st.cwd s] := by
        cases h1 with
        | simple _ h => cases h; rfl
        | _ => exact absurd rfl (hns _)
      subst hy
      obtain ⟨st1, e1⟩ := execS_valid (env := env) (st := st) (s := s) (hv (0, .simple st.cwd s) (by simp [walk, walk1]))
      obtain ⟨hc, hi1⟩ := hi.simple (g := 0) hi.fresh.pos hns e1
      have hw : walk next 0 [X.simple st.cwd s] = ([(0, .simple st.cwd s)], next) := by simp [walk, walk1]
      rw [hw] at hk hv
      obtain ⟨st2, e2⟩ := ih _ _ st1 zs hi1 (by rw [hc]; exact h2) (fun x hx => hv x (List.mem_append_right _ hx)) hk
      refine ⟨st2, ?_⟩
      have : execStmts env k inc 0 (s :: ss) st = (execS env s st).bind (fun _ st => execStmts env k inc 0 ss st) := by
        cases s <;> first | rfl | exact absurd rfl (hns _)
      rw [this, e1]
      exact e2

theorem readConf_complete (hs : Sane env) : ∀ k, Complete env k (readConf env k) := by
  intro k
  induction k with
  | zero => rintro g f its next st xs _ _ ⟨k', _, _, h, _⟩; omega
  | succ k ih =>
    rintro g f its next st xs hi hg ⟨k', ts, d', hk', ⟨hf, hd⟩, h⟩ hv hk
    obtain rfl : k = k' := by omega
    have hi' := hi.cwd (env := env) d'
    rcases h with ⟨rfl, body, hb, he⟩ | ⟨h0, body, hb, he⟩
    · obtain ⟨st1, e1⟩ := execStmts_valid hs (readConf_good hs k) ih body _ _ { st with cwd := d' } xs hi' he hv hk
      simp only [readConf, readFile, hf, hd, hi.meets.group 0 hg, hi.root hg, parseConf_iff.2 hb, e1, Res.bind]
      exact ⟨_, rfl⟩
    · obtain ⟨st1, e1⟩ := execGStmts_valid hs (readConf_good hs k) ih body _ _ { st with cwd := d' } g xs hi' hg h0 he hv hk
      simp only [readConf, readFile, hf, hd, hi.meets.group g hg, hi.root hg, parseGroup_iff.2 hb, e1, Res.bind]
      rw [if_neg (by simp), if_pos (by simp [h0])]
      exact ⟨_, rfl⟩

end Fastd.Config.Spec
