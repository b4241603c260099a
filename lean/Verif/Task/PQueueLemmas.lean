import Verif.Task.PQueue

/-! Helper lemmas: the linked nodes represent a forest (left child, right sibling). -/

namespace Fastd.Task

inductive Forest
  | nil
  | cons (e : Nat) (c r : Forest)

namespace Forest

def ids : Forest → List Nat
  | nil => []
  | cons e c r => e :: (c.ids ++ r.ids)

/-- Number of siblings at the top. -/
def width : Forest → Nat
  | nil => 0
  | cons _ _ r => r.width + 1

/-- No child has a smaller value than its parent; `lb` is a lower bound for the roots. -/
def ordered (v : Nat → Int) (lb : Int) : Forest → Prop
  | nil => True
  | cons e c r => lb ≤ v e ∧ c.ordered v (v e) ∧ r.ordered v lb

end Forest

open Forest

def mergeT (v : Nat → Int) (a b : Nat × Forest) : Nat × Forest :=
  if v a.1 < v b.1 then (a.1, cons b.1 b.2 a.2) else (b.1, cons a.1 a.2 b.2)

def mergePairsT (v : Nat → Int) : Forest → Option (Nat × Forest)
  | nil => none
  | cons a ca nil => some (a, ca)
  | cons a ca (cons b cb r) =>
    match mergePairsT v r with
    | none => some (mergeT v (a, ca) (b, cb))
    | some t => some (mergeT v (mergeT v (a, ca) (b, cb)) t)

def graft (t : Option (Nat × Forest)) (r : Forest) : Forest :=
  match t with
  | none => r
  | some t => cons t.1 t.2 r

def removeF (v : Nat → Int) (x : Nat) : Forest → Forest
  | nil => nil
  | cons e c r => if e = x then graft (mergePairsT v c) r else cons e (removeF v x c) (removeF v x r)

/-- The list of nodes that starts with the pointer in `s` is `f`. -/
def seg (m : Mem) (s : Slot) : Forest → Prop
  | nil => m.ptr s = none
  | cons e c r => m.ptr s = some e ∧ m.pprev e = some s ∧ seg m (.child e) c ∧ seg m (.next e) r

def owned (s : Slot) (x : Nat) : Prop := s = .next x ∨ s = .child x

theorem nown {s : Slot} {x : Nat} (h : ¬ owned s x) : Slot.next x ≠ s ∧ Slot.child x ≠ s :=
  ⟨fun e => h (.inl e.symm), fun e => h (.inr e.symm)⟩

/-- `m'` differs from `m` only in the fields of elements of `X` and in the pointer `s`. -/
structure Chg (X : List Nat) (s : Slot) (m m' : Mem) : Prop where
  pprev : ∀ x, x ∉ X → m'.pprev x = m.pprev x
  ptr : ∀ t, t ≠ s → (∀ x ∈ X, ¬ owned t x) → m'.ptr t = m.ptr t
  value : m'.value = m.value

theorem Chg.refl (X : List Nat) (s : Slot) (m : Mem) : Chg X s m m := ⟨fun _ _ => rfl, fun _ _ _ => rfl, rfl⟩

theorem Chg.trans {X Y : List Nat} {s s' : Slot} {m m' m'' : Mem} (h : Chg X s m m') (h' : Chg Y s' m' m'')
    {Z : List Nat} {t : Slot} (hX : ∀ x ∈ X, x ∈ Z) (hY : ∀ x ∈ Y, x ∈ Z)
    (hs : s = t ∨ ∃ z ∈ Z, owned s z) (hs' : s' = t ∨ ∃ z ∈ Z, owned s' z) : Chg Z t m m'' := by
  refine ⟨fun x hx => ?_, fun u hu hz => ?_, h'.value.trans h.value⟩
  · rw [h'.pprev x (fun h => hx (hY x h)), h.pprev x (fun h => hx (hX x h))]
  · rw [h'.ptr u ?_ (fun x hx => hz x (hY x hx)), h.ptr u ?_ (fun x hx => hz x (hX x hx))]
    · rcases hs with rfl | ⟨z, hz', ho⟩
      · exact hu
      · rintro rfl; exact hz z hz' ho
    · rcases hs' with rfl | ⟨z, hz', ho⟩
      · exact hu
      · rintro rfl; exact hz z hz' ho

theorem seg_frame {m m' : Mem} {s : Slot} {f : Forest} (h : seg m s f) (hs : m'.ptr s = m.ptr s)
    (hp : ∀ x ∈ f.ids, m'.pprev x = m.pprev x)
    (hn : ∀ x ∈ f.ids, m'.ptr (.next x) = m.ptr (.next x) ∧ m'.ptr (.child x) = m.ptr (.child x)) :
    seg m' s f := by
  induction f generalizing s with
  | nil => exact hs.trans h
  | cons e c r ihc ihr =>
    obtain ⟨h1, h2, h3, h4⟩ := h
    have he : e ∈ (cons e c r).ids := by simp [ids]
    refine ⟨hs.trans h1, (hp e he).trans h2, ihc h3 (hn e he).2 ?_ ?_, ihr h4 (hn e he).1 ?_ ?_⟩ <;>
    · intro x hx
      first
        | exact hp x (by simp [ids, hx])
        | exact hn x (by simp [ids, hx])

theorem seg_chg {m m' : Mem} {s t : Slot} {f : Forest} {X : List Nat} (h : seg m s f) (hc : Chg X t m m')
    (hs : s ≠ t) (hsX : ∀ x ∈ X, ¬ owned s x) (hd : ∀ x ∈ f.ids, x ∉ X ∧ ¬ owned t x) : seg m' s f := by
  refine seg_frame h (hc.ptr s hs hsX) (fun x hx => hc.pprev x (hd x hx).1) (fun x hx => ⟨?_, ?_⟩)
  · refine hc.ptr _ (fun he => (hd x hx).2 (.inl he.symm)) (fun y hy ho => ?_)
    rcases ho with ho | ho
    · injection ho with ho; exact (hd x hx).1 (ho ▸ hy)
    · cases ho
  · refine hc.ptr _ (fun he => (hd x hx).2 (.inr he.symm)) (fun y hy ho => ?_)
    rcases ho with ho | ho
    · cases ho
    · injection ho with ho; exact (hd x hx).1 (ho ▸ hy)

/-- A tree that is not linked to a following one. -/
def tree (m : Mem) (e : Nat) (c : Forest) : Prop := m.ptr (.next e) = none ∧ seg m (.child e) c

theorem seg_ptr {m : Mem} {s : Slot} {f : Forest} (h : seg m s f) :
    m.ptr s = match f with | nil => none | cons e _ _ => some e := by
  cases f with
  | nil => exact h
  | cons => exact h.1

theorem link_spec {m : Mem} {s : Slot} {e : Nat} {c f : Forest} (ht : tree m e c) (hf : seg m s f)
    (hnd : (e :: (c.ids ++ f.ids)).Nodup) (hs : ∀ x ∈ e :: (c.ids ++ f.ids), ¬ owned s x) :
    ∃ m', link m s e = .ok m' ∧ seg m' s (cons e c f) ∧ Chg (e :: f.ids) s m m' ∧
      (∀ t, t ≠ s → t ≠ .next e → m'.ptr t = m.ptr t) := by
  simp only [List.nodup_cons, List.nodup_append, List.mem_append, not_or] at hnd
  obtain ⟨⟨hec, hef⟩, hndc, hndf, hdis⟩ := hnd
  have hse : s ≠ .next e ∧ s ≠ .child e := by
    have := hs e (by simp)
    exact ⟨fun h => this (.inl h), fun h => this (.inr h)⟩
  cases f with
  | nil =>
    have hsn : m.ptr s = none := hf
    refine ⟨_, by unfold link; rw [ht.1]; rfl, ?_, ?_, ?_⟩
    · have hnone : (m.setPprev e (some s)).ptr s = none := hsn
      simp only [hnone]
      have h1 : ∀ t, t ≠ s → t ≠ .next e →
          ((((m.setPprev e (some s)).setPtr (.next e) none)).setPtr s (some e)).ptr t = m.ptr t := by
        intro t h1 h2; simp [Mem.setPtr, Mem.setPprev, h1, h2]
      refine ⟨by simp [Mem.setPtr, Mem.setPprev], by simp [Mem.setPtr, Mem.setPprev], ?_, ?_⟩
      · simp only [Mem.setPtr, Mem.setPprev, if_true]
        refine seg_frame ht.2 ?_ ?_ ?_
        · simp [hse.2.symm]
        · intro x hx
          have : x ≠ e := fun h => hec (h ▸ hx)
          simp [this]
        · intro x hx
          have hxe : x ≠ e := fun h => hec (h ▸ hx)
          have := hs x (by simp [hx])
          simp [hxe, (nown this).1, (nown this).2]
      · simp [seg, Mem.setPtr, Mem.setPprev, hse.1.symm]
    · refine ⟨?_, ?_, ?_⟩
      · intro x hx
        simp only [ids, List.mem_cons, not_or] at hx
        simp [Mem.setPtr, Mem.setPprev, hx.1, hsn]
      · intro t h1 h2
        have : t ≠ .next e := fun h => h2 e (by simp) (.inl h)
        simp [Mem.setPtr, Mem.setPprev, h1, this, hsn]
      · simp [Mem.setPtr, Mem.setPprev, hsn]
    · intro t h1 h2
      simp [Mem.setPtr, Mem.setPprev, h1, h2, hsn]
  | cons n cn rn =>
    obtain ⟨hsn, hpn, hcn, hrn⟩ := hf
    have hne : n ≠ e := fun h => hef (by simp [ids, h])
    have hsn' := hs n (by simp [ids])
    simp only [ids, List.nodup_cons, List.mem_cons, List.mem_append, not_or] at hndf hdis hef
    refine ⟨_, by unfold link; rw [ht.1]; rfl, ?_, ?_, ?_⟩
    · have hsome : (m.setPprev e (some s)).ptr s = some n := hsn
      simp only [hsome]
      refine ⟨by simp [Mem.setPtr, Mem.setPprev], ?_, ?_, ?_⟩
      · simp [Mem.setPtr, Mem.setPprev, hne.symm]
      · refine seg_frame ht.2 ?_ ?_ ?_
        · simp [Mem.setPtr, Mem.setPprev, hse.2.symm]
        · intro x hx
          have : x ≠ e := fun h => hec (h ▸ hx)
          have h2 : x ≠ n := fun h => (hdis x hx n (.inl rfl)) h
          simp [Mem.setPtr, Mem.setPprev, this, h2]
        · intro x hx
          have hxe : x ≠ e := fun h => hec (h ▸ hx)
          have := hs x (by simp [hx])
          simp [Mem.setPtr, Mem.setPprev, hxe, (nown this).1, (nown this).2]
      · refine ⟨by simp [Mem.setPtr, Mem.setPprev, hse.1.symm], by simp [Mem.setPtr, Mem.setPprev], ?_, ?_⟩
        · refine seg_frame hcn ?_ ?_ ?_
          · simp [Mem.setPtr, Mem.setPprev, (nown hsn').2]
          · intro x hx
            have : x ≠ e := fun h => hef.2.1 (h ▸ hx)
            have h2 : x ≠ n := fun h => hndf.1.1 (h ▸ hx)
            simp [Mem.setPtr, Mem.setPprev, this, h2]
          · intro x hx
            have hxe : x ≠ e := fun h => hef.2.1 (h ▸ hx)
            have := hs x (by simp [ids, hx])
            simp [Mem.setPtr, Mem.setPprev, hxe, (nown this).1, (nown this).2]
        · refine seg_frame hrn ?_ ?_ ?_
          · simp [Mem.setPtr, Mem.setPprev, hne, (nown hsn').1]
          · intro x hx
            have : x ≠ e := fun h => hef.2.2 (h ▸ hx)
            have h2 : x ≠ n := fun h => hndf.1.2 (h ▸ hx)
            simp [Mem.setPtr, Mem.setPprev, this, h2]
          · intro x hx
            have hxe : x ≠ e := fun h => hef.2.2 (h ▸ hx)
            have := hs x (by simp [ids, hx])
            simp [Mem.setPtr, Mem.setPprev, hxe, (nown this).1, (nown this).2]
    · refine ⟨?_, ?_, ?_⟩
      · intro x hx
        simp only [ids, List.mem_cons, not_or] at hx
        simp [Mem.setPtr, Mem.setPprev, hx.1, hx.2.1, hsn]
      · intro t h1 h2
        have : t ≠ .next e := fun h => h2 e (by simp) (.inl h)
        simp [Mem.setPtr, Mem.setPprev, h1, this, hsn]
      · simp [Mem.setPtr, Mem.setPprev, hsn]
    · intro t h1 h2
      simp [Mem.setPtr, Mem.setPprev, h1, h2, hsn]

theorem unlink_spec {m : Mem} {s : Slot} {e : Nat} {c r : Forest} (hf : seg m s (cons e c r))
    (hnd : (e :: (c.ids ++ r.ids)).Nodup) (hs : ∀ x ∈ e :: (c.ids ++ r.ids), ¬ owned s x) :
    ∃ m', unlink m e = .ok m' ∧ seg m' s r ∧ tree m' e c ∧ m'.pprev e = some s ∧ Chg (e :: r.ids) s m m' := by
  simp only [List.nodup_cons, List.nodup_append, List.mem_append, not_or] at hnd
  obtain ⟨⟨hec, hef⟩, hndc, hndf, hdis⟩ := hnd
  have hse : s ≠ .next e ∧ s ≠ .child e := by
    have := hs e (by simp)
    exact ⟨fun h => this (.inl h), fun h => this (.inr h)⟩
  obtain ⟨h1, h2, h3, h4⟩ := hf
  refine ⟨_, by unfold unlink; rw [h2], ?_, ?_, ?_, ?_⟩
  · cases r with
    | nil =>
      have hn : m.ptr (.next e) = none := h4
      simp [seg, Mem.setPtr, hn, hse.1, hse.1.symm]
    | cons n cn rn =>
      obtain ⟨k1, k2, k3, k4⟩ := h4
      have hne : n ≠ e := fun h => hef (by simp [ids, h])
      have hsn' := hs n (by simp [ids])
      simp only [ids, List.nodup_cons, List.mem_cons, List.mem_append, not_or] at hndf hdis hef
      have e1 : (m.setPtr s (m.ptr (.next e))).ptr (.next e) = some n := by
        simp [Mem.setPtr, hse.1.symm, k1]
      rw [e1]
      refine ⟨by simp [Mem.setPtr, Mem.setPprev, hse.1, k1], by simp [Mem.setPtr, Mem.setPprev, h2], ?_, ?_⟩
      · refine seg_frame k3 ?_ ?_ ?_
        · simp [Mem.setPtr, Mem.setPprev, (nown hsn').2]
        · intro x hx
          have h2 : x ≠ n := fun h => hndf.1.1 (h ▸ hx)
          simp [Mem.setPtr, Mem.setPprev, h2]
        · intro x hx
          have hxe : x ≠ e := fun h => hef.2.1 (h ▸ hx)
          have := hs x (by simp [ids, hx])
          simp [Mem.setPtr, Mem.setPprev, hxe, (nown this).1, (nown this).2]
      · refine seg_frame k4 ?_ ?_ ?_
        · simp [Mem.setPtr, Mem.setPprev, hne, (nown hsn').1]
        · intro x hx
          have h2 : x ≠ n := fun h => hndf.1.2 (h ▸ hx)
          simp [Mem.setPtr, Mem.setPprev, h2]
        · intro x hx
          have hxe : x ≠ e := fun h => hef.2.2 (h ▸ hx)
          have := hs x (by simp [ids, hx])
          simp [Mem.setPtr, Mem.setPprev, hxe, (nown this).1, (nown this).2]
  · refine ⟨by simp [Mem.setPtr], ?_⟩
    refine seg_frame h3 ?_ ?_ ?_
    · split <;> simp [Mem.setPtr, Mem.setPprev, hse.2.symm]
    · intro x hx
      split
      · rfl
      · rename_i n hn
        have hn : m.ptr (.next e) = some n := by simpa [Mem.setPtr, hse.1.symm] using hn
        have : x ≠ n := by
          cases r with
          | nil => rw [show m.ptr (.next e) = none from h4] at hn; cases hn
          | cons n' cn rn =>
            have : n' = n := by have := h4.1; rw [hn] at this; injection this with this; exact this.symm
            subst this
            exact fun h => hdis x hx n' (by simp [ids]) h
        simp [Mem.setPtr, Mem.setPprev, this]
    · intro x hx
      have hxe : x ≠ e := fun h => hec (h ▸ hx)
      have := hs x (by simp [hx])
      split <;>
      simp [Mem.setPtr, Mem.setPprev, hxe, (nown this).1, (nown this).2]
  · split
    · exact h2
    · simp only [Mem.setPtr, Mem.setPprev]
      split
      · exact h2
      · exact h2
  · refine ⟨?_, ?_, ?_⟩
    · intro x hx
      simp only [List.mem_cons, not_or] at hx
      split
      · rfl
      · rename_i n hn
        have hn : m.ptr (.next e) = some n := by simpa [Mem.setPtr, hse.1.symm] using hn
        have : x ≠ n := by
          cases r with
          | nil => rw [show m.ptr (.next e) = none from h4] at hn; cases hn
          | cons n' cn rn =>
            have : n' = n := by have := h4.1; rw [hn] at this; injection this with this; exact this.symm
            subst this
            exact fun h => hx.2 (by simp [ids, h])
        simp [Mem.setPtr, Mem.setPprev, this]
    · intro t ht1 ht2
      have : t ≠ .next e := fun h => ht2 e (by simp) (.inl h)
      split <;> simp [Mem.setPtr, Mem.setPprev, ht1, this]
    · split <;> rfl

theorem Chg.mono {X Z : List Nat} {s : Slot} {m m' : Mem} (h : Chg X s m m') (hX : ∀ x ∈ X, x ∈ Z)
    {t : Slot} (hs : s = t ∨ ∃ z ∈ Z, owned s z) : Chg Z t m m' :=
  h.trans (Chg.refl X s m') hX hX hs hs

theorem tree_chg {m m' : Mem} {s : Slot} {e : Nat} {c : Forest} {X : List Nat} (h : tree m e c) (hc : Chg X s m m')
    (hs : ¬ owned s e) (he : e ∉ X) (hd : ∀ x ∈ c.ids, x ∉ X ∧ ¬ owned s x) : tree m' e c := by
  have hno : ∀ x ∈ X, ¬ owned (.next e) x ∧ ¬ owned (.child e) x := by
    intro x hx
    have : x ≠ e := fun h => he (h ▸ hx)
    constructor <;> rintro (h | h) <;> simp at h <;> exact this h.symm
  refine ⟨?_, seg_chg h.2 hc (nown hs).2 (fun x hx => (hno x hx).2) hd⟩
  rw [hc.ptr _ (nown hs).1 (fun x hx => (hno x hx).1)]
  exact h.1

theorem mergeT_perm (v : Nat → Int) (a b : Nat × Forest) :
    ((mergeT v a b).1 :: (mergeT v a b).2.ids).Perm (a.1 :: (a.2.ids ++ (b.1 :: b.2.ids))) := by
  unfold mergeT
  split
  · simp only [ids]
    refine List.Perm.cons _ ?_
    have : (b.1 :: (b.2.ids ++ a.2.ids)) = (b.1 :: b.2.ids) ++ a.2.ids := rfl
    rw [this]
    exact List.perm_append_comm
  · simp only [ids]
    have h1 : (b.1 :: a.1 :: (a.2.ids ++ b.2.ids)).Perm (a.1 :: b.1 :: (a.2.ids ++ b.2.ids)) := List.Perm.swap _ _ _
    refine h1.trans (List.Perm.cons _ ?_)
    exact List.perm_middle.symm

theorem forest_pairs {P : Forest → Prop} (h0 : P nil) (h1 : ∀ a ca, P (cons a ca nil))
    (h2 : ∀ a ca b cb r, P r → P (cons a ca (cons b cb r))) : ∀ f, P f
  | nil => h0
  | cons a ca nil => h1 a ca
  | cons a ca (cons b cb r) => h2 a ca b cb r (forest_pairs h0 h1 h2 r)

theorem mergePairsT_perm (v : Nat → Int) (f : Forest) :
    (graft (mergePairsT v f) nil).ids.Perm f.ids := by
  induction f using forest_pairs with
  | h0 => exact List.Perm.refl _
  | h1 a ca => simp [mergePairsT, graft, ids]
  | h2 a ca b cb r ih =>
    simp only [mergePairsT]
    have hp := mergeT_perm v (a, ca) (b, cb)
    cases hr : mergePairsT v r with
    | none =>
      rw [hr] at ih
      simp only [graft, ids, List.append_nil] at ih ⊢
      have : r.ids = [] := by simpa using ih.symm.length_eq
      rw [this]
      simpa using hp
    | some t =>
      rw [hr] at ih
      simp only [graft, ids, List.append_nil] at ih ⊢
      refine (mergeT_perm v _ t).trans ?_
      have h1 := List.Perm.append hp ih
      simpa using h1

theorem merge_spec {m : Mem} {a b : Nat} {ca cb : Forest} (ha : tree m a ca) (hb : tree m b cb)
    (hnd : (a :: (ca.ids ++ (b :: cb.ids))).Nodup) :
    ∃ m', merge m (some a) (some b) = .ok (m', (mergeT m.value (a, ca) (b, cb)).1) ∧
      tree m' (mergeT m.value (a, ca) (b, cb)).1 (mergeT m.value (a, ca) (b, cb)).2 ∧
      ∀ s, Chg (a :: (ca.ids ++ (b :: cb.ids))) s m m' := by
  simp only [List.nodup_cons, List.nodup_append, List.mem_append, List.mem_cons, not_or] at hnd
  obtain ⟨⟨h1, h2, h3⟩, h4, ⟨h5, h6⟩, h7⟩ := hnd
  unfold merge mergeT
  simp only [ha.1, hb.1, Option.isSome_none, Bool.false_eq_true, if_false]
  by_cases hv : m.value a < m.value b
  · rw [if_pos hv, if_pos hv]
    obtain ⟨m', hl, hseg, hchg, hptr⟩ := link_spec (s := .child a) hb ha.2
      (by
        simp only [List.nodup_cons, List.nodup_append, List.mem_append, not_or]
        refine ⟨⟨h5, ?_⟩, h6, h4, ?_⟩
        · intro h; exact h7 b h b (.inl rfl) rfl
        · intro x hx y hy hxy; exact h7 y hy x (.inr hx) hxy.symm)
      (by
        intro x hx ho
        rcases ho with ho | ho
        · cases ho
        · injection ho with ho
          subst ho
          simp only [List.mem_cons, List.mem_append] at hx
          rcases hx with h | h | h
          · exact h2 h
          · exact h3 h
          · exact h1 h)
    refine ⟨m', by rw [hl]; rfl, ⟨?_, hseg⟩, ?_⟩
    · rw [hptr _ (by simp) (by simp; exact h2)]; exact ha.1
    · intro s; refine hchg.mono (fun x hx => ?_) (.inr ⟨a, by simp, .inr rfl⟩)
      simp only [List.mem_cons, List.mem_append] at hx ⊢
      rcases hx with h | h
      · exact .inr (.inr (.inl h))
      · exact .inr (.inl h)
  · rw [if_neg hv, if_neg hv]
    obtain ⟨m', hl, hseg, hchg, hptr⟩ := link_spec (s := .child b) ha hb.2
      (by
        simp only [List.nodup_cons, List.nodup_append, List.mem_append, not_or]
        refine ⟨⟨h1, h3⟩, h4, h6, ?_⟩
        intro x hx y hy hxy; exact h7 x hx y (.inr hy) hxy)
      (by
        intro x hx ho
        rcases ho with ho | ho
        · cases ho
        · injection ho with ho
          subst ho
          simp only [List.mem_cons, List.mem_append] at hx
          rcases hx with h | h | h
          · exact h2 h.symm
          · exact h7 b h b (.inl rfl) rfl
          · exact h5 h)
    refine ⟨m', by rw [hl]; rfl, ⟨?_, hseg⟩, ?_⟩
    · rw [hptr _ (by simp) (by simp; exact fun h => h2 h.symm)]; exact hb.1
    · intro s; refine hchg.mono (fun x hx => ?_) (.inr ⟨b, by simp, .inr rfl⟩)
      simp only [List.mem_cons, List.mem_append] at hx ⊢
      rcases hx with h | h
      · exact .inl h
      · exact .inr (.inr (.inr h))

/-- A list of trees linked by their `next` pointers, starting from a pointer. -/
def chain (m : Mem) : Option Nat → Forest → Prop
  | p, nil => p = none
  | p, cons e c r => p = some e ∧ (m.pprev e).isSome ∧ seg m (.child e) c ∧ chain m (m.ptr (.next e)) r

theorem seg_chain {m : Mem} {s : Slot} {f : Forest} (h : seg m s f) : chain m (m.ptr s) f := by
  induction f generalizing s with
  | nil => exact h
  | cons e c r ihc ihr =>
    obtain ⟨h1, h2, h3, h4⟩ := h
    exact ⟨h1, by rw [h2]; rfl, h3, ihr h4⟩

theorem chain_chg {m m' : Mem} {s : Slot} {p : Option Nat} {f : Forest} {X : List Nat} (h : chain m p f)
    (hc : Chg X s m m') (hd : ∀ x ∈ f.ids, x ∉ X ∧ ¬ owned s x) : chain m' p f := by
  induction f generalizing p with
  | nil => exact h
  | cons e c r ihc ihr =>
    obtain ⟨h1, h2, h3, h4⟩ := h
    have he := hd e (by simp [ids])
    have hno : ∀ x ∈ X, ¬ owned (.next e) x ∧ ¬ owned (.child e) x := by
      intro x hx
      have : x ≠ e := fun h => he.1 (h ▸ hx)
      constructor <;> rintro (h | h) <;> simp at h <;> exact this h.symm
    refine ⟨h1, ?_, ?_, ?_⟩
    · rw [hc.pprev e he.1]; exact h2
    · exact seg_chg h3 hc (nown he.2).2 (fun x hx => (hno x hx).2) (fun x hx => hd x (by simp [ids, hx]))
    · rw [hc.ptr _ (nown he.2).1 (fun x hx => (hno x hx).1)]
      exact ihr h4 (fun x hx => hd x (by simp [ids, hx]))

theorem mergePairs_spec (rl : Bool) {fuel : Nat} {m : Mem} {p : Option Nat} {f : Forest} (h : chain m p f)
    (hnd : f.ids.Nodup) (hfuel : f.width ≤ fuel) :
    ∃ m', mergePairs rl fuel m p = .ok (m', (mergePairsT m.value f).map Prod.fst) ∧
      (∀ t, mergePairsT m.value f = some t → tree m' t.1 t.2) ∧ ∀ s, Chg f.ids s m m' := by
  induction fuel generalizing m p f with
  | zero =>
    cases f with
    | nil =>
      have h : p = none := h
      subst h
      exact ⟨m, rfl, fun t ht => (by cases ht), fun _ => Chg.refl _ _ _⟩
    | cons => simp [width] at hfuel
  | succ fuel ih =>
    cases f with
    | nil =>
      have h : p = none := h
      subst h
      exact ⟨m, rfl, fun t ht => (by cases ht), fun _ => Chg.refl _ _ _⟩
    | cons a ca f' =>
      obtain ⟨rfl, hpp, hca, hf'⟩ := h
      have hpn : ¬ (m.pprev a).isNone = true := by
        cases hx : m.pprev a with
        | none => rw [hx] at hpp; cases hpp
        | some => simp
      cases f' with
      | nil =>
        have hf' : m.ptr (.next a) = none := hf'
        refine ⟨m, ?_, ?_, fun _ => Chg.refl _ _ _⟩
        · simp only [mergePairs, if_neg hpn, hf']; rfl
        · intro t ht
          simp only [mergePairsT, Option.some.injEq] at ht
          subst ht
          exact ⟨hf', hca⟩
      | cons b cb r =>
        obtain ⟨hnx, hpb, hcb, hr⟩ := hf'
        have hnd0 := hnd
        simp only [ids, List.nodup_cons, List.nodup_append, List.mem_append, List.mem_cons, not_or] at hnd
        obtain ⟨⟨hac, hab, hacb, har⟩, hndca, ⟨⟨hbc, hbr⟩, hndcb, hndr, hdbr⟩, hd⟩ := hnd
        -- after clearing the links
        let m0 := (m.setPtr (.next b) none).setPtr (.next a) none
        have hc0 : ∀ t, Chg [a, b] t m m0 := by
          intro t
          refine ⟨fun _ _ => rfl, fun u _ hu => ?_, rfl⟩
          have h1 : u ≠ .next a := fun h => hu a (by simp) (.inl h)
          have h2 : u ≠ .next b := fun h => hu b (by simp) (.inl h)
          simp [m0, Mem.setPtr, h1, h2]
        have hta : tree m0 a ca := by
          refine ⟨by simp [m0, Mem.setPtr], seg_frame hca (by simp [m0, Mem.setPtr]) (fun _ _ => rfl) ?_⟩
          intro x hx
          have h1 : x ≠ a := fun h => hac (h ▸ hx)
          have h2 : x ≠ b := fun h => hd x hx b (.inl rfl) h
          simp [m0, Mem.setPtr, h1, h2]
        have htb : tree m0 b cb := by
          refine ⟨by simp [m0, Mem.setPtr], seg_frame hcb (by simp [m0, Mem.setPtr]) (fun _ _ => rfl) ?_⟩
          intro x hx
          have h1 : x ≠ a := fun h => hacb (h ▸ hx)
          have h2 : x ≠ b := fun h => hbc (h ▸ hx)
          simp [m0, Mem.setPtr, h1, h2]
        have hcr : chain m0 (m.ptr (.next b)) r := by
          refine chain_chg hr (hc0 .root) (fun x hx => ⟨?_, ?_⟩)
          · simp only [List.mem_cons, List.not_mem_nil, or_false, not_or]
            exact ⟨fun h => har (h ▸ hx), fun h => hbr (h ▸ hx)⟩
          · rintro (h | h) <;> cases h
        have hndab : (a :: (ca.ids ++ (b :: cb.ids))).Nodup := by
          simp only [List.nodup_cons, List.nodup_append, List.mem_append, List.mem_cons, not_or]
          exact ⟨⟨hac, hab, hacb⟩, hndca, ⟨hbc, hndcb⟩, fun x hx y hy => hd x hx y (by
            rcases hy with h | h
            · exact .inl h
            · exact .inr (.inl h))⟩
        have hfuel' : r.width ≤ fuel := by simp [width] at hfuel; omega
        have hdisj : ∀ x ∈ a :: (ca.ids ++ (b :: cb.ids)), x ∉ r.ids := by
          intro x hx hxr
          simp only [List.mem_cons, List.mem_append] at hx
          rcases hx with rfl | hx | rfl | hx
          · exact har hxr
          · exact hd x hx x (.inr (.inr hxr)) rfl
          · exact hbr hxr
          · exact hdbr x hx x hxr rfl
        have noroot : ∀ x, ¬ owned .root x := by rintro x (h | h) <;> cases h
        have hpT1 := mergeT_perm m.value (a, ca) (b, cb)
        have hpT2 := mergePairsT_perm m.value r
        generalize hT1 : mergeT m.value (a, ca) (b, cb) = T1 at hpT1
        have hT1d : ∀ x ∈ T1.1 :: T1.2.ids, x ∉ r.ids := fun x hx => hdisj x (hpT1.subset hx)
        have hv0 : m0.value = m.value := rfl
        -- both orders of evaluation
        have key : ∃ m2, (∀ k : Mem → Nat → Option Nat → R (Mem × Option Nat),
            (if rl then (do
              let (m, b2) ← mergePairs rl fuel m0 (m.ptr (.next b))
              let (m, a2) ← merge m (some a) (some b)
              k m a2 b2)
            else (do
              let (m', a2) ← merge m0 (some a) (some b)
              let (m, b2) ← mergePairs rl fuel m' (m.ptr (.next b))
              k m a2 b2)) = k m2 T1.1 ((mergePairsT m.value r).map Prod.fst)) ∧
            tree m2 T1.1 T1.2 ∧ (∀ t, mergePairsT m.value r = some t → tree m2 t.1 t.2) ∧
            ∀ s, Chg (cons a ca (cons b cb r)).ids s m0 m2 := by
          cases rl with
          | true =>
            obtain ⟨m1, he1, ht1, hc1⟩ := ih hcr hndr hfuel'
            have hta1 : tree m1 a ca := tree_chg hta (hc1 .root) (noroot a) har
              (fun x hx => ⟨hdisj x (by simp [hx]), noroot x⟩)
            have htb1 : tree m1 b cb := tree_chg htb (hc1 .root) (noroot b) hbr
              (fun x hx => ⟨hdisj x (by simp [hx]), noroot x⟩)
            obtain ⟨m2, he2, ht2, hc2⟩ := merge_spec hta1 htb1 hndab
            rw [(hc1 .root).value, hv0, hT1] at he2 ht2
            refine ⟨m2, fun k => ?_, ht2, fun t ht => ?_, ?_⟩
            · rw [if_pos rfl, he1]
              show (merge m1 (some a) (some b) >>= fun (m, a2) => k m a2 _) = _
              rw [he2]; rfl
            · have hp : (t.1 :: t.2.ids).Perm r.ids := by
                have := hpT2; rw [ht] at this; simpa [graft, ids] using this
              refine tree_chg (ht1 t ht) (hc2 .root) (noroot _) (fun h => hdisj _ h (hp.subset (by simp))) (fun x hx => ⟨?_, noroot x⟩)
              exact fun h => hdisj _ h (hp.subset (by simp [hx]))
            · intro s
              refine (hc1 s).trans (hc2 s) (fun x hx => by simp [ids, hx]) (fun x hx => ?_) (.inl rfl) (.inl rfl)
              simp only [ids, List.mem_cons, List.mem_append] at hx ⊢
              rcases hx with h | h | h | h <;> simp [h]
          | false =>
            obtain ⟨m1, he1, ht1, hc1⟩ := merge_spec hta htb hndab
            rw [hv0, hT1] at he1 ht1
            have hcr1 : chain m1 (m.ptr (.next b)) r :=
              chain_chg hcr (hc1 .root) (fun x hx => ⟨fun h => hdisj x h hx, noroot x⟩)
            obtain ⟨m2, he2, ht2, hc2⟩ := ih hcr1 hndr hfuel'
            rw [(hc1 .root).value, hv0] at he2 ht2
            refine ⟨m2, fun k => ?_, ?_, ht2, ?_⟩
            · rw [if_neg (by simp), he1]
              show (mergePairs false fuel m1 (m.ptr (.next b)) >>= fun (m, b2) => k m _ b2) = _
              rw [he2]; rfl
            · exact tree_chg ht1 (hc2 .root) (noroot _) (hT1d _ (by simp)) (fun x hx => ⟨hT1d x (by simp [hx]), noroot x⟩)
            · intro s
              refine (hc1 s).trans (hc2 s) (fun x hx => ?_) (fun x hx => by simp [ids, hx]) (.inl rfl) (.inl rfl)
              simp only [ids, List.mem_cons, List.mem_append] at hx ⊢
              rcases hx with h | h | h | h <;> simp [h]
        obtain ⟨m2, hk, ht1, ht2, hc2⟩ := key
        have hstart : mergePairs rl (fuel + 1) m (some a) =
            (do
              let (m, r) ← merge m2 (some T1.1) ((mergePairsT m.value r).map Prod.fst)
              return (m, some r)) := by
          rw [← hk (fun m a2 b2 => do
            let (m, r) ← merge m (some a2) b2
            return (m, some r))]
          simp only [mergePairs, if_neg hpn, hnx]
          rfl
        have hc02 : ∀ s, Chg (cons a ca (cons b cb r)).ids s m m2 := fun s =>
          (hc0 s).trans (hc2 s) (fun x hx => by
            simp only [List.mem_cons, List.not_mem_nil, or_false] at hx
            rcases hx with h | h <;> simp [ids, h]) (fun _ h => h) (.inl rfl) (.inl rfl)
        rw [hstart]
        cases hr' : mergePairsT m.value r with
        | none =>
          refine ⟨m2, ?_, ?_, hc02⟩
          · simp only [mergePairsT, hr', Option.map_none, Option.map_some, hT1]
            simp only [merge, ht1.1]
            rfl
          · intro t ht
            simp only [mergePairsT, hr', hT1, Option.some.injEq] at ht
            subst ht; exact ht1
        | some t =>
          have hp : (t.1 :: t.2.ids).Perm r.ids := by
            have := hpT2; rw [hr'] at this; simpa [graft, ids] using this
          have hndt : (t.1 :: t.2.ids).Nodup := hp.nodup_iff.2 hndr
          have hndT1 : (T1.1 :: T1.2.ids).Nodup := hpT1.nodup_iff.2 hndab
          have hnd2 : (T1.1 :: (T1.2.ids ++ (t.1 :: t.2.ids))).Nodup := by
            rw [← List.cons_append, List.nodup_append]
            exact ⟨hndT1, hndt, fun x hx y hy hxy => hT1d x hx (hp.subset (hxy ▸ hy))⟩
          obtain ⟨m3, he3, ht3, hc3⟩ := merge_spec ht1 (ht2 t hr') hnd2
          rw [(hc02 .root).value] at he3 ht3
          refine ⟨m3, ?_, ?_, ?_⟩
          · simp only [mergePairsT, hr', Option.map_some, hT1]
            rw [he3]; rfl
          · intro t' ht'
            simp only [mergePairsT, hr', hT1, Option.some.injEq] at ht'
            subst ht'; exact ht3
          · intro s; refine (hc02 s).trans (hc3 s) (fun _ h => h) (fun x hx => ?_) (.inl rfl) (.inl rfl)
            rw [← List.cons_append, List.mem_append] at hx
            rcases hx with h | h
            · have := hpT1.subset h
              simp only [ids, List.mem_cons, List.mem_append] at this ⊢
              rcases this with h | h | h | h <;> simp [h]
            · have := hp.subset h
              simp [ids, this]

/-! ### Removal and insertion -/

theorem removeF_notMem {v : Nat → Int} {x : Nat} {f : Forest} (h : x ∉ f.ids) : removeF v x f = f := by
  induction f with
  | nil => rfl
  | cons e c r ihc ihr =>
    simp only [ids, List.mem_cons, List.mem_append, not_or] at h
    rw [removeF, if_neg (fun h' => h.1 h'.symm), ihc h.2.1, ihr h.2.2]

theorem removeF_perm (v : Nat → Int) {x : Nat} {f : Forest} (hnd : f.ids.Nodup) (hx : x ∈ f.ids) :
    (x :: (removeF v x f).ids).Perm f.ids := by
  induction f with
  | nil => cases hx
  | cons e c r ihc ihr =>
    simp only [ids, List.nodup_cons, List.nodup_append, List.mem_append, not_or] at hnd
    obtain ⟨⟨hec, her⟩, hndc, hndr, hd⟩ := hnd
    by_cases hex : e = x
    · subst hex
      rw [removeF, if_pos rfl]
      simp only [ids]
      refine List.Perm.cons _ ?_
      have hp := mergePairsT_perm v c
      cases hm : mergePairsT v c with
      | none =>
        rw [hm] at hp
        have : c.ids = [] := by simpa [graft, ids] using hp.symm.length_eq
        simp [graft, this]
      | some t =>
        rw [hm] at hp
        simp only [graft, ids, List.append_nil] at hp ⊢
        exact List.Perm.append_right r.ids hp
    · rw [removeF, if_neg hex]
      simp only [ids, List.mem_cons, List.mem_append] at hx ⊢
      refine (List.Perm.swap _ _ _).trans (List.Perm.cons _ ?_)
      rcases hx with h | h | h
      · exact absurd h.symm hex
      · have hxr : x ∉ r.ids := fun h' => hd x h x h' rfl
        rw [removeF_notMem hxr]
        exact List.Perm.append_right r.ids (ihc hndc h)
      · have hxc : x ∉ c.ids := fun h' => hd x h' x h rfl
        rw [removeF_notMem hxc]
        exact List.perm_middle.symm.trans (List.Perm.append_left c.ids (ihr hndr h))

theorem mergeT_ordered {v : Nat → Int} {lb : Int} {a b : Nat × Forest} (ha : lb ≤ v a.1 ∧ a.2.ordered v (v a.1))
    (hb : lb ≤ v b.1 ∧ b.2.ordered v (v b.1)) :
    lb ≤ v (mergeT v a b).1 ∧ (mergeT v a b).2.ordered v (v (mergeT v a b).1) := by
  unfold mergeT
  split
  · exact ⟨ha.1, by simp only []; omega, hb.2, ha.2⟩
  · exact ⟨hb.1, by simp only []; omega, ha.2, hb.2⟩

theorem mergePairsT_ordered {v : Nat → Int} {lb : Int} {f : Forest} (h : f.ordered v lb) :
    ∀ t, mergePairsT v f = some t → lb ≤ v t.1 ∧ t.2.ordered v (v t.1) := by
  induction f using forest_pairs with
  | h0 => intro t ht; cases ht
  | h1 a ca =>
    intro t ht
    simp only [mergePairsT, Option.some.injEq] at ht
    subst ht; exact ⟨h.1, h.2.1⟩
  | h2 a ca b cb r ih =>
    intro t ht
    obtain ⟨h1, h2, h3, h4, h5⟩ := h
    simp only [mergePairsT] at ht
    have hm := mergeT_ordered (v := v) (lb := lb) (a := (a, ca)) (b := (b, cb)) ⟨h1, h2⟩ ⟨h3, h4⟩
    cases hr : mergePairsT v r with
    | none =>
      rw [hr] at ht
      simp only [Option.some.injEq] at ht
      subst ht; exact hm
    | some t' =>
      rw [hr] at ht
      simp only [Option.some.injEq] at ht
      subst ht
      exact mergeT_ordered hm (ih h5 t' hr)

theorem ordered_mono {v : Nat → Int} {lb lb' : Int} {f : Forest} (h : f.ordered v lb) (hl : lb' ≤ lb) :
    f.ordered v lb' := by
  induction f with
  | nil => trivial
  | cons e c r ihc ihr => exact ⟨by have := h.1; omega, h.2.1, ihr h.2.2⟩

theorem removeF_ordered {v : Nat → Int} {lb : Int} {x : Nat} {f : Forest} (h : f.ordered v lb) :
    (removeF v x f).ordered v lb := by
  induction f generalizing lb with
  | nil => trivial
  | cons e c r ihc ihr =>
    obtain ⟨h1, h2, h3⟩ := h
    rw [removeF]
    split
    · cases hm : mergePairsT v c with
      | none => exact h3
      | some t =>
        have := mergePairsT_ordered h2 t hm
        exact ⟨by omega, this.2, h3⟩
    · exact ⟨h1, ihc h2, ihr h3⟩

theorem ordered_ge {v : Nat → Int} {lb : Int} {f : Forest} (h : f.ordered v lb) : ∀ x ∈ f.ids, lb ≤ v x := by
  induction f generalizing lb with
  | nil => intro x hx; cases hx
  | cons e c r ihc ihr =>
    obtain ⟨h1, h2, h3⟩ := h
    intro x hx
    simp only [ids, List.mem_cons, List.mem_append] at hx
    rcases hx with rfl | hx | hx
    · exact h1
    · have := ihc h2 x hx; omega
    · exact ihr h3 x hx

theorem ordered_congr {v v' : Nat → Int} {lb : Int} {f : Forest} (h : f.ordered v lb)
    (hv : ∀ x ∈ f.ids, v' x = v x) : f.ordered v' lb := by
  induction f generalizing lb with
  | nil => trivial
  | cons e c r ihc ihr =>
    obtain ⟨h1, h2, h3⟩ := h
    have he := hv e (by simp [ids])
    refine ⟨by rw [he]; exact h1, ?_, ihr h3 (fun x hx => hv x (by simp [ids, hx]))⟩
    rw [he]; exact ihc h2 (fun x hx => hv x (by simp [ids, hx]))

theorem width_le (f : Forest) : f.width ≤ f.ids.length := by
  induction f with
  | nil => exact Nat.le_refl _
  | cons e c r _ ihr => simp [width, ids]; omega

theorem remove_spec (rl : Bool) {fuel : Nat} {m : Mem} {s : Slot} {f : Forest} {x : Nat} (h : seg m s f)
    (hnd : f.ids.Nodup) (hs : ∀ y ∈ f.ids, ¬ owned s y) (hx : x ∈ f.ids) (hfuel : f.ids.length ≤ fuel) :
    ∃ m', remove rl fuel m x = .ok m' ∧ seg m' s (removeF m.value x f) ∧ Chg f.ids s m m' ∧
      m'.pprev x = none ∧ m'.ptr (.next x) = none ∧ m'.ptr (.child x) = none := by
  induction f generalizing s with
  | nil => cases hx
  | cons e c r ihc ihr =>
    have hnd0 := hnd
    simp only [ids, List.nodup_cons, List.nodup_append, List.mem_append, not_or] at hnd
    obtain ⟨⟨hec, her⟩, hndc, hndr, hd⟩ := hnd
    by_cases hex : e = x
    · subst hex
      obtain ⟨m1, he1, hs1, ht1, hp1, hc1⟩ := unlink_spec h hnd0 hs
      have hfw : c.width ≤ fuel := by have := width_le c; simp [ids] at hfuel; omega
      obtain ⟨m2, he2, ht2, hc2⟩ := mergePairs_spec rl (seg_chain ht1.2) hndc hfw
      have hse := nown (hs e (by simp [ids]))
      have hnoc : ∀ y ∈ c.ids, ¬ owned (.next e) y ∧ ¬ owned (.child e) y := by
        intro y hy
        have : y ≠ e := fun h => hec (h ▸ hy)
        constructor <;> rintro (h | h) <;> simp at h <;> exact this h.symm
      have hnor : ∀ y ∈ r.ids, ¬ owned (.next e) y ∧ ¬ owned (.child e) y := by
        intro y hy
        have : y ≠ e := fun h => her (h ▸ hy)
        constructor <;> rintro (h | h) <;> simp at h <;> exact this h.symm
      have hs2 : seg m2 s r := seg_chg hs1 (hc2 (.next e)) (fun h => hse.1 h.symm) (fun y hy => hs y (by simp [ids, hy]))
        (fun y hy => ⟨fun h => hd y h y hy rfl, (hnor y hy).1⟩)
      have hpe : m.pprev e = some s := h.2.1
      have hv1 := hc1.value
      rw [hv1] at he2 ht2
      have hn2 : m2.ptr (.next e) = none := by
        rw [(hc2 (.child e)).ptr _ (by simp) (fun y hy => (hnoc y hy).1)]; exact ht1.1
      -- link
      have hlink : ∃ m3, (match (mergePairsT m.value c).map Prod.fst with
            | none => (.ok m2 : R Mem)
            | some r => link m2 s r) = .ok m3 ∧ seg m3 s (graft (mergePairsT m.value c) r) ∧
          Chg (c.ids ++ r.ids) s m2 m3 ∧ m3.ptr (.next e) = none := by
        have hp := mergePairsT_perm m.value c
        cases hm : mergePairsT m.value c with
        | none => exact ⟨m2, rfl, hs2, Chg.refl _ _ _, hn2⟩
        | some t =>
          rw [hm] at hp
          simp only [graft, ids, List.append_nil] at hp
          obtain ⟨m3, he3, hs3, hc3, hk3⟩ := link_spec (ht2 t hm) hs2
            (by
              rw [← List.cons_append, List.nodup_append]
              exact ⟨hp.nodup_iff.2 hndc, hndr, fun a ha b hb => hd a (hp.subset ha) b hb⟩)
            (by
              intro y hy
              rw [← List.cons_append, List.mem_append] at hy
              rcases hy with hy | hy
              · exact hs y (by simp [ids, hp.subset hy])
              · exact hs y (by simp [ids, hy]))
          refine ⟨m3, he3, hs3, hc3.mono (fun y hy => ?_) (.inl rfl), ?_⟩
          · simp only [List.mem_cons, List.mem_append] at hy ⊢
            rcases hy with rfl | hy
            · exact .inl (hp.subset (by simp))
            · exact .inr hy
          · rw [hk3 _ hse.1 (by
              intro h; injection h with h
              exact hec (hp.subset (by simp [h])))]
            exact hn2
      obtain ⟨m3, he3, hs3, hc3, hn3⟩ := hlink
      refine ⟨(m3.setPprev e none).setPtr (.child e) none, ?_, ?_, ?_, ?_, ?_, ?_⟩
      · unfold remove
        rw [hpe]
        simp only [he1, bind, Except.bind, he2]
        cases hm : (mergePairsT m.value c).map Prod.fst with
        | none =>
          rw [hm] at he3
          injection he3 with he3
          subst he3; rfl
        | some q =>
          rw [hm] at he3
          simp only [] at he3 ⊢
          rw [he3]; rfl
      · rw [removeF, if_pos rfl]
        have hids : ∀ y ∈ (graft (mergePairsT m.value c) r).ids, y ≠ e := by
          intro y hy hye
          subst hye
          have hp := removeF_perm m.value hnd0 (x := y) (by simp [ids])
          rw [removeF, if_pos rfl] at hp
          have := hp.nodup_iff.2 hnd0
          simp only [List.nodup_cons] at this
          exact this.1 hy
        refine seg_frame hs3 ?_ ?_ ?_
        · simp [Mem.setPtr, Mem.setPprev, hse.2.symm]
        · intro y hy; simp [Mem.setPtr, Mem.setPprev, hids y hy]
        · intro y hy; simp [Mem.setPtr, Mem.setPprev, hids y hy]
      · have h12 : Chg (cons e c r).ids s m m2 := hc1.trans (hc2 s)
          (fun y hy => by
            simp only [ids, List.mem_cons, List.mem_append] at hy ⊢
            rcases hy with h | h <;> simp [h]) (fun y hy => by simp [ids, hy]) (.inl rfl) (.inl rfl)
        have h13 : Chg (cons e c r).ids s m m3 := h12.trans hc3 (fun _ h => h)
          (fun y hy => by simp only [ids, List.mem_cons]; exact .inr hy) (.inl rfl) (.inl rfl)
        refine ⟨?_, ?_, ?_⟩
        · intro y hy
          have : y ≠ e := fun h => hy (by simp [ids, h])
          simp only [Mem.setPtr, Mem.setPprev, this, if_false]
          exact h13.pprev y hy
        · intro u hu hno
          have : u ≠ .child e := fun h => hno e (by simp [ids]) (.inr h)
          simp only [Mem.setPtr, Mem.setPprev, this, if_false]
          exact h13.ptr u hu hno
        · exact h13.value
      · simp [Mem.setPtr, Mem.setPprev]
      · simp [Mem.setPtr, Mem.setPprev]; exact hn3
      · simp [Mem.setPtr, Mem.setPprev]
    · obtain ⟨h1, h2, h3, h4⟩ := h
      simp only [ids, List.mem_cons, List.mem_append] at hx
      have hse := nown (hs e (by simp [ids]))
      rcases hx with hx | hx | hx
      · exact absurd hx.symm hex
      · have hno : ∀ y ∈ c.ids, ¬ owned (.child e) y ∧ ¬ owned (.next e) y := by
          intro y hy
          have : y ≠ e := fun h => hec (h ▸ hy)
          constructor <;> rintro (h | h) <;> simp at h <;> exact this h.symm
        obtain ⟨m', he, hs', hc', hend⟩ := ihc h3 hndc (fun y hy => (hno y hy).1) hx (by simp [ids] at hfuel; omega)
        refine ⟨m', he, ?_, ?_, hend⟩
        · have hxr : x ∉ r.ids := fun h' => hd x hx x h' rfl
          rw [removeF, if_neg hex, removeF_notMem hxr]
          refine ⟨?_, ?_, hs', ?_⟩
          · rw [hc'.ptr s hse.2.symm (fun y hy => hs y (by simp [ids, hy]))]; exact h1
          · rw [hc'.pprev e hec]; exact h2
          · refine seg_chg h4 hc' (by simp) (fun y hy => (hno y hy).2) (fun y hy => ⟨fun h => hd y h y hy rfl, ?_⟩)
            have : y ≠ e := fun h => her (h ▸ hy)
            rintro (h | h) <;> simp at h
            exact this h.symm
        · exact hc'.mono (fun y hy => by simp [ids, hy]) (.inr ⟨e, by simp [ids], .inr rfl⟩)
      · have hno : ∀ y ∈ r.ids, ¬ owned (.child e) y ∧ ¬ owned (.next e) y := by
          intro y hy
          have : y ≠ e := fun h => her (h ▸ hy)
          constructor <;> rintro (h | h) <;> simp at h <;> exact this h.symm
        obtain ⟨m', he, hs', hc', hend⟩ := ihr h4 hndr (fun y hy => (hno y hy).2) hx (by simp [ids] at hfuel; omega)
        refine ⟨m', he, ?_, ?_, hend⟩
        · have hxc : x ∉ c.ids := fun h' => hd x h' x hx rfl
          rw [removeF, if_neg hex, removeF_notMem hxc]
          refine ⟨?_, ?_, ?_, hs'⟩
          · rw [hc'.ptr s hse.1.symm (fun y hy => hs y (by simp [ids, hy]))]; exact h1
          · rw [hc'.pprev e her]; exact h2
          · refine seg_chg h3 hc' (by simp) (fun y hy => (hno y hy).1) (fun y hy => ⟨fun h => hd y hy y h rfl, ?_⟩)
            have : y ≠ e := fun h => hec (h ▸ hy)
            rintro (h | h) <;> simp at h
            exact this h.symm
        · exact hc'.mono (fun y hy => by simp [ids, hy]) (.inr ⟨e, by simp [ids], .inl rfl⟩)

/-- The memory holds a queue with the forest `f`. -/
structure Rep (m : Mem) (f : Forest) : Prop where
  seg : seg m .root f
  nodup : f.ids.Nodup
  one : f.width ≤ 1
  ord : ∃ lb, f.ordered m.value lb
  out : ∀ x, x ∉ f.ids → m.pprev x = none ∧ m.ptr (.next x) = none ∧ m.ptr (.child x) = none

theorem noroot (x : Nat) : ¬ owned .root x := by rintro (h | h) <;> cases h

theorem rep_empty : Rep Mem.empty nil :=
  ⟨rfl, List.nodup_nil, by simp [width], ⟨0, trivial⟩, fun _ _ => ⟨rfl, rfl, rfl⟩⟩

theorem seg_linked {m : Mem} {s : Slot} {f : Forest} (h : seg m s f) : ∀ x ∈ f.ids, (m.pprev x).isSome := by
  induction f generalizing s with
  | nil => intro x hx; cases hx
  | cons e c r ihc ihr =>
    obtain ⟨h1, h2, h3, h4⟩ := h
    intro x hx
    simp only [ids, List.mem_cons, List.mem_append] at hx
    rcases hx with rfl | hx | hx
    · rw [h2]; rfl
    · exact ihc h3 x hx
    · exact ihr h4 x hx

theorem rep_linked {m : Mem} {f : Forest} (h : Rep m f) (x : Nat) : (m.pprev x).isSome ↔ x ∈ f.ids := by
  constructor
  · intro hx
    apply Classical.byContradiction
    intro hn
    rw [(h.out x hn).1] at hx; cases hx
  · exact seg_linked h.seg x

theorem remove_rep (rl : Bool) {fuel : Nat} {m : Mem} {f : Forest} (h : Rep m f) (x : Nat)
    (hfuel : f.ids.length ≤ fuel) :
    ∃ m', remove rl fuel m x = .ok m' ∧ Rep m' (removeF m.value x f) ∧ m'.value = m.value := by
  by_cases hx : x ∈ f.ids
  · obtain ⟨m', he, hs, hc, h1, h2, h3⟩ := remove_spec rl h.seg h.nodup (fun y _ => noroot y) hx hfuel
    refine ⟨m', he, ⟨hs, ?_, ?_, ?_, ?_⟩, hc.value⟩
    · have := (removeF_perm m.value h.nodup hx).nodup_iff.2 h.nodup
      exact (List.nodup_cons.1 this).2
    · have h1 := h.one
      cases f with
      | nil => cases hx
      | cons e c r =>
        cases r with
        | cons => simp [width] at h1
        | nil =>
          rw [removeF]
          split
          · cases mergePairsT m.value c <;> simp [graft, width]
          · simp [removeF, width]
    · obtain ⟨lb, hlb⟩ := h.ord
      exact ⟨lb, by rw [hc.value]; exact removeF_ordered hlb⟩
    · intro y hy
      by_cases hyx : y = x
      · subst hyx; exact ⟨h1, h2, h3⟩
      · have hyf : y ∉ f.ids := fun h' => by
          have := (removeF_perm m.value h.nodup hx).symm.subset h'
          simp only [List.mem_cons] at this
          rcases this with h | h
          · exact hyx h
          · exact hy h
        have := h.out y hyf
        have hno : ∀ z ∈ f.ids, ¬ owned (.next y) z ∧ ¬ owned (.child y) z := by
          intro z hz
          have : z ≠ y := fun h => hyf (h ▸ hz)
          constructor <;> rintro (h | h) <;> simp at h <;> exact this h.symm
        rw [hc.pprev y hyf, hc.ptr _ (by simp) (fun z hz => (hno z hz).1), hc.ptr _ (by simp) (fun z hz => (hno z hz).2)]
        exact this
  · refine ⟨m, ?_, ?_, rfl⟩
    · obtain ⟨h1, h2, h3⟩ := h.out x hx
      unfold remove
      simp [h1, h2, h3]
    · rw [removeF_notMem hx]; exact h

theorem insert_rep {m : Mem} {f : Forest} (h : Rep m f) (e : Nat) (v : Int) (he : e ∉ f.ids) :
    ∃ m' f', reschedule m e v = .ok m' ∧ Rep m' f' ∧ f'.ids.Perm (e :: f.ids) ∧
      m'.value = fun i => if i = e then v else m.value i := by
  obtain ⟨h1, h2, h3⟩ := h.out e he
  let m0 : Mem := { m with value := fun i => if i = e then v else m.value i }
  have hseg0 : seg m0 .root f := seg_frame h.seg rfl (fun _ _ => rfl) (fun _ _ => ⟨rfl, rfl⟩)
  obtain ⟨lb, hlb⟩ := h.ord
  have hord : f.ordered m0.value lb := ordered_congr hlb (fun x hx => by
    have : x ≠ e := fun h => he (h ▸ hx)
    simp [m0, this])
  have hcond : ((m0.pprev e).isSome || (m0.ptr (.next e)).isSome || (m0.ptr (.child e)).isSome) = false := by
    simp [m0, h1, h2, h3]
  have hstart : reschedule m e v = (do
      let (m, r) ← merge m0 (some e) (m0.ptr .root)
      let m := m.setPtr .root (some r)
      return m.setPprev r (some .root)) := by
    unfold reschedule insert
    rw [if_neg (by rw [hcond]; simp)]
  -- a tree without successor, made the root
  have fin : ∀ (m2 : Mem) (t : Nat × Forest), tree m2 t.1 t.2 → (t.1 :: t.2.ids).Nodup →
      (t.1 :: t.2.ids).Perm (e :: f.ids) → t.2.ordered m2.value (m2.value t.1) →
      (∀ x, x ∉ e :: f.ids → m2.pprev x = none ∧ m2.ptr (.next x) = none ∧ m2.ptr (.child x) = none) →
      Rep ((m2.setPtr .root (some t.1)).setPprev t.1 (some .root)) (cons t.1 t.2 nil) := by
    intro m2 t ht hnd hp hord hout
    have hnd' := List.nodup_cons.1 hnd
    refine ⟨⟨by simp [Mem.setPtr, Mem.setPprev], by simp [Mem.setPtr, Mem.setPprev], ?_, ?_⟩, ?_, by simp [width], ?_, ?_⟩
    · refine seg_frame ht.2 (by simp [Mem.setPtr, Mem.setPprev]) ?_ ?_
      · intro x hx
        have : x ≠ t.1 := fun h => hnd'.1 (h ▸ hx)
        simp [Mem.setPtr, Mem.setPprev, this]
      · intro x hx; simp [Mem.setPtr, Mem.setPprev]
    · simpa [seg, Mem.setPtr, Mem.setPprev] using ht.1
    · simpa [ids] using hnd
    · exact ⟨m2.value t.1, Int.le_refl _, hord, trivial⟩
    · intro x hx
      simp only [ids, List.append_nil] at hx
      have hxe : x ∉ e :: f.ids := fun h => hx (hp.symm.subset h)
      have := hout x hxe
      have hxt : x ≠ t.1 := fun h => hx (by simp [h])
      simp [Mem.setPtr, Mem.setPprev, hxt, this]
  have hte : tree m0 e nil := ⟨h2, h3⟩
  cases f with
  | nil =>
    have hroot : m0.ptr .root = none := hseg0
    refine ⟨_, cons e nil nil, ?_, fin m0 (e, nil) hte (by simp [ids]) (by simp [ids]) trivial ?_, by simp [ids], rfl⟩
    · rw [hstart, hroot]
      simp only [merge, hte.1]
      rfl
    · intro x hx
      exact h.out x (by simp [ids])
  | cons q c r =>
    have hone := h.one
    cases r with
    | cons => simp [width] at hone
    | nil =>
      obtain ⟨hroot, hpq, hcq, hnq⟩ := hseg0
      have htq : tree m0 q c := ⟨hnq, hcq⟩
      have hnd : (e :: (nil.ids ++ (q :: c.ids))).Nodup := by
        have := h.nodup
        simp only [ids, List.append_nil, List.nil_append] at this he ⊢
        exact List.nodup_cons.2 ⟨he, this⟩
      obtain ⟨m2, he2, ht2, hc2⟩ := merge_spec hte htq hnd
      have hp := mergeT_perm m0.value (e, nil) (q, c)
      simp only [ids, List.nil_append] at hp
      refine ⟨_, cons (mergeT m0.value (e, nil) (q, c)).1 (mergeT m0.value (e, nil) (q, c)).2 nil, ?_,
        fin m2 _ ht2 (hp.nodup_iff.2 (by simpa [ids] using hnd)) (by simpa [ids] using hp) ?_ ?_, ?_, ?_⟩
      · rw [hstart, hroot, he2]; rfl
      · rw [(hc2 .root).value]
        obtain ⟨k1, k2, _⟩ := hord
        exact (mergeT_ordered (v := m0.value) (lb := min (m0.value e) (m0.value q)) (a := (e, nil)) (b := (q, c))
          ⟨by simp only []; omega, trivial⟩ ⟨by simp only []; omega, k2⟩).2
      · intro x hx
        have hx' : x ∉ e :: (nil.ids ++ (q :: c.ids)) := by simpa [ids] using hx
        have hno : ∀ z ∈ e :: (nil.ids ++ (q :: c.ids)), ¬ owned (.next x) z ∧ ¬ owned (.child x) z := by
          intro z hz
          have : z ≠ x := fun h => hx' (h ▸ hz)
          constructor <;> rintro (h | h) <;> simp at h <;> exact this h.symm
        have := h.out x (fun h => hx (by simp [h]))
        rw [(hc2 .root).pprev x hx', (hc2 .root).ptr _ (by simp) (fun z hz => (hno z hz).1),
          (hc2 .root).ptr _ (by simp) (fun z hz => (hno z hz).2)]
        exact this
      · simpa [ids] using hp
      · show m2.value = _
        rw [(hc2 .root).value]

theorem insert_linked {m : Mem} {f : Forest} (h : Rep m f) (e : Nat) (v : Int) (he : e ∈ f.ids) :
    reschedule m e v = .error .bug := by
  have := (rep_linked h e).2 he
  unfold reschedule insert
  rw [if_pos (by simp [this])]

theorem rep_root {m : Mem} {f : Forest} (h : Rep m f) :
    match m.ptr .root with
    | none => f.ids = []
    | some e => e ∈ f.ids ∧ ∀ x ∈ f.ids, m.value e ≤ m.value x := by
  have h1 := h.one
  cases f with
  | nil => rw [show m.ptr .root = none from h.seg]; rfl
  | cons e c r =>
    cases r with
    | cons => simp [width] at h1
    | nil =>
      rw [h.seg.1]
      obtain ⟨lb, _, h2, _⟩ := h.ord
      refine ⟨by simp [ids], fun x hx => ?_⟩
      simp only [ids, List.append_nil, List.mem_cons] at hx
      rcases hx with rfl | hx
      · exact Int.le_refl _
      · exact ordered_ge h2 x hx

end Fastd.Task
