import Verif.Data.Vector

/-!
# Dynamic arrays: C15
-/

namespace Fastd.Data

/-- What the operations mean on lists; `none` if an index is out of range. -/
def specStep {α : Type} (l : List α) : VOp α → Option (List α)
  | .add x => some (l ++ [x])
  | .insert x pos => if pos ≤ l.length then some (l.take pos ++ x :: l.drop pos) else none
  | .delete pos => if pos < l.length then some (l.eraseIdx pos) else none
  | .resize n => if n ≤ l.length then some (l.take n) else none
  | .set i x => if i < l.length then some (l.set i x) else none

def specRun {α : Type} : List α → List (VOp α) → Option (List α)
  | l, [] => some l
  | l, o :: os => (specStep l o).bind (specRun · os)

/-- The vector holds the list `l`: the first cells contain its elements, and the allocation (`allocated`
cells) is at least as long. -/
structure Holds {α : Type} (v : Vec α) (l : List α) : Prop where
  len : v.length = l.length
  alloc : v.cells.length = v.allocated
  fits : v.length ≤ v.allocated
  cells : v.cells.take v.length = l.map some
  bound : v.allocated < 2 ^ 64

theorem bind_ok {α β : Type} (a : α) (f : α → VRes β) : (VRes.ok a >>= f) = f a := rfl

theorem pure_ok {α : Type} (a : α) : (pure a : VRes α) = .ok a := rfl

theorem grow_ok (fuel : Nat) : ∀ alloc n, 0 < alloc → n ≤ alloc * 2 ^ fuel → n ≤ 2 ^ 62 → alloc < 2 ^ 64 →
    ∃ a, grow (fuel + 1) alloc n = some a ∧ n ≤ a ∧ alloc ≤ a ∧ a < 2 ^ 64 := by
  induction fuel with
  | zero =>
    intro alloc n h0 h1 h2 h3
    refine ⟨alloc, ?_, by simpa using h1, Nat.le_refl _, h3⟩
    unfold grow
    rw [if_neg (by simp at h1; omega)]
  | succ fuel ih =>
    intro alloc n h0 h1 h2 h3
    unfold grow
    split
    · have : alloc * 2 % 2 ^ 64 = alloc * 2 := Nat.mod_eq_of_lt (by omega)
      simp only [this]
      rw [if_neg (by omega)]
      obtain ⟨a, h4, h5, h6, h7⟩ := ih (alloc * 2) n (by omega) (by rw [Nat.pow_succ'] at h1; rw [Nat.mul_assoc]; exact h1) h2 (by omega)
      exact ⟨a, h4, h5, by omega, h7⟩
    · exact ⟨alloc, rfl, by omega, Nat.le_refl _, h3⟩

/-- Resizing keeps all cells below the new allocation, which is never smaller than before. -/
theorem resize_ok {α : Type} {v : Vec α} {n : Nat} (hal : v.cells.length = v.allocated) (hn : n < 2 ^ 61)
    (hb : v.allocated < 2 ^ 64) :
    ∃ v', vResize v n = .ok v' ∧ v'.length = n ∧ v'.cells.length = v'.allocated ∧ n ≤ v'.allocated ∧
      v'.allocated < 2 ^ 64 ∧ v.allocated ≤ v'.allocated ∧ (∀ i, i < v.allocated → v'.cells[i]? = v.cells[i]?) ∧
      (n ≤ v.allocated → 0 < v.allocated → v'.allocated = v.allocated) := by
  have h3 : n * 3 % 2 ^ 64 = n * 3 := Nat.mod_eq_of_lt (by omega)
  unfold vResize
  simp only [h3]
  by_cases h0 : v.allocated = 0
  · simp only [h0, if_true]
    obtain ⟨a, g1, g2, g3, g4⟩ := grow_ok 64 4 (n * 3 / 2) (by omega) (by omega) (by omega) (by omega)
    rw [g1]
    simp only []
    rw [if_pos (by omega)]
    have hc : v.cells = [] := List.eq_nil_of_length_eq_zero (by omega)
    refine ⟨_, rfl, rfl, ?_, ?_, g4, ?_, ?_, ?_⟩
    · simp [realloc, hc]
    · simp only []; omega
    · simp only []; omega
    · intro i hi; omega
    · intro _ h; omega
  · simp only [h0, if_false]
    obtain ⟨a, g1, g2, g3, g4⟩ := grow_ok 64 v.allocated n (by omega) (by
      have h1 : 1 * 2 ^ 64 ≤ v.allocated * 2 ^ 64 := Nat.mul_le_mul_right _ (by omega)
      omega) (by omega) hb
    rw [g1]
    simp only []
    by_cases ha : a = v.allocated
    · rw [if_neg (by simpa using ha)]
      exact ⟨_, rfl, rfl, hal, by simp only []; omega, hb, Nat.le_refl _, fun _ _ => rfl, fun _ _ => rfl⟩
    · rw [if_pos ha]
      refine ⟨_, rfl, rfl, ?_, g2, g4, g3, ?_, ?_⟩
      · simp [realloc]; omega
      · intro i hi
        simp only [realloc]
        rw [List.getElem?_append_left (by simp; omega), List.getElem?_take_of_lt (by omega)]
      · intro hn' _
        exfalso
        apply ha
        unfold grow at g1
        rw [if_neg (by omega)] at g1
        simpa using g1.symm

theorem holds_get {α : Type} {v : Vec α} {l : List α} (h : Holds v l) (i : Nat) (hi : i < l.length) :
    v.cells[i]? = some l[i]? := by
  have := congrArg (fun (x : List (Option α)) => x[i]?) h.cells
  simp only [List.getElem?_take_of_lt (show i < v.length by rw [h.len]; exact hi), List.getElem?_map] at this
  rw [this, List.getElem?_eq_getElem hi]; rfl

theorem holds_of {α : Type} {v : Vec α} {l : List α} (h1 : v.length = l.length) (h2 : v.cells.length = v.allocated)
    (h3 : v.length ≤ v.allocated) (h5 : v.allocated < 2 ^ 64) (h4 : ∀ i, i < l.length → v.cells[i]? = some l[i]?) : Holds v l := by
  refine ⟨h1, h2, h3, ?_, h5⟩
  apply List.ext_getElem?
  intro i
  by_cases hi : i < l.length
  · rw [List.getElem?_take_of_lt (by omega), h4 i hi, List.getElem?_map, List.getElem?_eq_getElem hi]; rfl
  · rw [List.getElem?_take_eq_none (by omega), List.getElem?_eq_none (by simp; omega)]

theorem memmove_get {α : Type} {c : List (Option α)} {dst src n : Nat} (h1 : src + n ≤ c.length) (h2 : dst + n ≤ c.length) :
    ∃ c', memmove c dst src n = .ok c' ∧ c'.length = c.length ∧
      ∀ i, c'[i]? = if dst ≤ i ∧ i < dst + n then c[src + (i - dst)]? else c[i]? := by
  unfold memmove
  split
  · exact ⟨c, rfl, rfl, fun i => by rw [if_neg (by omega)]⟩
  · rw [if_pos ⟨h1, h2⟩]
    refine ⟨_, rfl, by simp; omega, fun i => ?_⟩
    by_cases ha : i < dst
    · rw [if_neg (by omega), List.getElem?_append_left (by simp; omega), List.getElem?_take_of_lt ha]
    · rw [List.getElem?_append_right (by simp; omega)]
      have hlen : (c.take dst).length = dst := by simp; omega
      rw [hlen]
      by_cases hb : i < dst + n
      · rw [if_pos ⟨by omega, hb⟩, List.getElem?_append_left (by simp; omega), List.getElem?_take_of_lt (by omega),
          List.getElem?_drop]
      · rw [if_neg (by omega), List.getElem?_append_right (by simp; omega)]
        simp only [List.length_take, List.length_drop, List.getElem?_drop]
        congr 1; omega

theorem szSub_eq {a b : Nat} (h1 : b ≤ a) (h2 : a < 2 ^ 64) : szSub a b = a - b := by
  unfold szSub; omega

theorem insert_ok {α : Type} {v : Vec α} {l : List α} (h : Holds v l) (x : α) {pos : Nat} (hp : pos ≤ l.length)
    (hl : l.length + 1 < 2 ^ 61) :
    ∃ v', vInsert v x pos = .ok v' ∧ Holds v' (l.take pos ++ x :: l.drop pos) := by
  have hlen := h.len
  obtain ⟨v1, e1, hn, ha, hf, hb, hmono, hkeep, _⟩ := resize_ok h.alloc (n := v.length + 1) (by omega) h.bound
  have hfits := h.fits
  have hk : szSub (szSub v1.length pos) 1 = v1.length - pos - 1 := by
    rw [szSub_eq (a := v1.length) (by omega) (by omega), szSub_eq (by omega) (by omega)]
  obtain ⟨c2, e2, hl2, hg2⟩ := memmove_get (c := v1.cells) (dst := pos + 1) (src := pos) (n := v1.length - pos - 1) (by omega) (by omega)
  refine ⟨{ v1 with cells := c2.set pos (some x) }, ?_, holds_of ?_ ?_ ?_ hb ?_⟩
  · unfold vInsert
    rw [e1, bind_ok, hk, e2, bind_ok, store, if_pos (by omega), bind_ok, pure_ok]
  · simp; omega
  · simp; omega
  · simp only []; omega
  · intro i hi
    simp only [List.length_append, List.length_take, List.length_cons, List.length_drop] at hi
    have hlp : (l.take pos).length = pos := by simp; omega
    by_cases hip : i < pos
    · rw [List.getElem?_set_ne (by omega), hg2, if_neg (by omega), hkeep i (by omega), holds_get h i (by omega),
        List.getElem?_append_left (by omega), List.getElem?_take_of_lt hip]
    · rw [List.getElem?_append_right (by omega), hlp]
      by_cases hie : i = pos
      · subst hie
        rw [List.getElem?_set_self (by omega)]; simp
      · rw [List.getElem?_set_ne (by omega), hg2, if_pos (by omega)]
        obtain ⟨j, rfl⟩ : ∃ j, i = pos + 1 + j := ⟨i - pos - 1, by omega⟩
        have h1 : pos + (pos + 1 + j - (pos + 1)) = pos + j := by omega
        have h2 : pos + 1 + j - pos = j + 1 := by omega
        rw [h1, h2, hkeep _ (by omega), holds_get h _ (by omega)]
        simp

theorem delete_ok {α : Type} {v : Vec α} {l : List α} (h : Holds v l) {pos : Nat} (hp : pos < l.length)
    (hl : l.length < 2 ^ 61) :
    ∃ v', vDelete v pos = .ok v' ∧ Holds v' (l.eraseIdx pos) := by
  have hlen := h.len
  have hfits := h.fits
  have hal := h.alloc
  have hk : szSub (szSub v.length pos) 1 = v.length - pos - 1 := by
    rw [szSub_eq (a := v.length) (by omega) (by omega), szSub_eq (by omega) (by omega)]
  have hk2 : szSub v.length 1 = v.length - 1 := szSub_eq (by omega) (by omega)
  obtain ⟨c2, e2, hl2, hg2⟩ := memmove_get (c := v.cells) (dst := pos) (src := pos + 1) (n := v.length - pos - 1) (by omega) (by omega)
  obtain ⟨v1, e1, hn, ha, hf, hb, hmono, hkeep, _⟩ := resize_ok (v := { v with cells := c2 }) (n := v.length - 1)
    (by simp only []; omega) (by omega) h.bound
  have hle : (l.eraseIdx pos).length = l.length - 1 := by rw [List.length_eraseIdx, if_pos hp]
  refine ⟨v1, ?_, holds_of ?_ ha ?_ hb ?_⟩
  · unfold vDelete
    rw [hk, hk2, e2, bind_ok, e1]
  · omega
  · omega
  · intro i hi
    rw [hle] at hi
    rw [hkeep i (by simp only []; omega)]
    simp only []
    rw [hg2, List.getElem?_eraseIdx]
    by_cases hip : i < pos
    · rw [if_neg (by omega), if_pos hip, holds_get h i (by omega)]
    · rw [if_pos (by omega), if_neg hip]
      have h1 : pos + 1 + (i - pos) = i + 1 := by omega
      rw [h1, holds_get h _ (by omega)]

/-- The size an operation leads to stays below a quarter of the address space. -/
theorem step_ok {α : Type} {v : Vec α} {l l' : List α} {o : VOp α} (h : Holds v l) (hs : specStep l o = some l')
    (hl : l.length + 1 < 2 ^ 61) : ∃ v', o.exec v = .ok v' ∧ Holds v' l' := by
  cases o with
  | add x =>
    simp only [specStep, Option.some.injEq] at hs
    subst hs
    have := insert_ok h x (Nat.le_refl l.length) hl
    rw [List.take_length, List.drop_length] at this
    simp only [VOp.exec, vAdd, h.len]
    exact this
  | insert x pos =>
    simp only [specStep] at hs
    split at hs
    · injection hs with hs; subst hs
      exact insert_ok h x (by assumption) hl
    · cases hs
  | delete pos =>
    simp only [specStep] at hs
    split at hs
    · injection hs with hs; subst hs
      exact delete_ok h (by assumption) (by omega)
    · cases hs
  | resize n =>
    simp only [specStep] at hs
    split at hs
    · rename_i hn
      injection hs with hs; subst hs
      have hlen := h.len
      have hfits := h.fits
      obtain ⟨v1, e1, k1, k2, k3, k4, k5, k6, _⟩ := resize_ok h.alloc (n := n) (by omega) h.bound
      refine ⟨v1, e1, holds_of (by simp; omega) k2 (by omega) k4 ?_⟩
      intro i hi
      simp only [List.length_take] at hi
      rw [k6 i (by omega), holds_get h i (by omega), List.getElem?_take_of_lt (by omega)]
    · cases hs
  | set i x =>
    simp only [specStep] at hs
    split at hs
    · rename_i hi
      injection hs with hs; subst hs
      have hlen := h.len
      have hfits := h.fits
      have hal := h.alloc
      refine ⟨{ v with cells := v.cells.set i (some x) }, ?_, holds_of (by simpa using hlen) (by simpa using hal) hfits h.bound ?_⟩
      · simp only [VOp.exec, setIndex, store]
        rw [if_pos (by omega), bind_ok, pure_ok]
      · intro j hj
        simp only [List.length_set] at hj
        by_cases hij : i = j
        · subst hij
          rw [List.getElem?_set_self (by omega), List.getElem?_set_self hi]
        · rw [List.getElem?_set_ne hij, List.getElem?_set_ne hij, holds_get h j hj]
    · cases hs

theorem holds_empty {α : Type} : Holds (Vec.empty : Vec α) [] := ⟨rfl, rfl, by simp [Vec.empty], rfl, by simp [Vec.empty]⟩

theorem specStep_length {α : Type} {l l' : List α} {o : VOp α} (h : specStep l o = some l') : l'.length ≤ l.length + 1 := by
  cases o with
  | add x => simp only [specStep, Option.some.injEq] at h; subst h; simp
  | insert x pos =>
    simp only [specStep] at h
    split at h
    · injection h with h; subst h; simp; omega
    · cases h
  | delete pos =>
    simp only [specStep] at h
    split at h
    · injection h with h; subst h; rw [List.length_eraseIdx]; split <;> omega
    · cases h
  | resize n =>
    simp only [specStep] at h
    split at h
    · injection h with h; subst h; simp; omega
    · cases h
  | set i x =>
    simp only [specStep] at h
    split at h
    · injection h with h; subst h; simp
    · cases h

theorem run_ok {α : Type} (ops : List (VOp α)) : ∀ {v : Vec α} {l l' : List α}, Holds v l → specRun l ops = some l' →
    l.length + ops.length < 2 ^ 61 → ∃ v', runV v ops = .ok v' ∧ Holds v' l' := by
  induction ops with
  | nil =>
    intro v l l' h hs _
    simp only [specRun, Option.some.injEq] at hs
    subst hs; exact ⟨v, rfl, h⟩
  | cons o os ih =>
    intro v l l' h hs hl
    simp only [specRun] at hs
    simp only [List.length_cons] at hl
    cases h1 : specStep l o with
    | none => rw [h1] at hs; cases hs
    | some l1 =>
      rw [h1] at hs
      obtain ⟨v1, e1, hv1⟩ := step_ok h h1 (by omega)
      have := specStep_length h1
      obtain ⟨v2, e2, hv2⟩ := ih hv1 hs (by omega)
      refine ⟨v2, ?_, hv2⟩
      rw [runV, e1, bind_ok, e2]

/-- **C15**: any sequence of (fewer than 2^61) vector operations with indices in range behaves like the same
operations on a list. It never fails and never accesses memory outside the allocation, every element can be
read back, and the capacity is at least the length. -/
theorem C15_vector {α : Type} (ops : List (VOp α)) (l : List α) (h : specRun [] ops = some l) (hn : ops.length < 2 ^ 61) :
    ∃ v, runV Vec.empty ops = .ok v ∧ v.length = l.length ∧ v.length ≤ v.allocated ∧ v.cells.length = v.allocated ∧
      ∀ i (hi : i < l.length), index v i = .ok l[i] := by
  obtain ⟨v, h1, h2⟩ := run_ok ops holds_empty h (by simpa using hn)
  refine ⟨v, h1, h2.len, h2.fits, h2.alloc, fun i hi => ?_⟩
  unfold index
  rw [holds_get h2 i hi, List.getElem?_eq_getElem hi]

/-- Making a vector longer keeps its elements; only the new ones are unspecified. -/
theorem C15_grow {α : Type} {v : Vec α} {l : List α} (h : Holds v l) {n : Nat} (_hn : l.length ≤ n) (hb : n < 2 ^ 61) :
    ∃ v', vResize v n = .ok v' ∧ v'.length = n ∧ n ≤ v'.allocated ∧ v'.cells.length = v'.allocated ∧
      ∀ i (hi : i < l.length), index v' i = .ok l[i] := by
  have hlen := h.len
  have hfits := h.fits
  obtain ⟨v1, e1, k1, k2, k3, k4, k5, k6, _⟩ := resize_ok h.alloc (n := n) hb h.bound
  refine ⟨v1, e1, k1, k3, k2, fun i hi => ?_⟩
  unfold index
  rw [k6 i (by omega), holds_get h i hi, List.getElem?_eq_getElem hi]

/-- The allocation of a vector is a power of two and at most twice what is needed (or 4): adding elements
one by one reallocates only logarithmically often. -/
theorem C15_capacity {fuel alloc n a : Nat} (hn : n ≤ 2 ^ 63) (h : grow fuel alloc n = some a) :
    (∃ k, a = alloc * 2 ^ k) ∧ (a = alloc ∨ a < 2 * n) := by
  induction fuel generalizing alloc with
  | zero => cases h
  | succ fuel ih =>
    unfold grow at h
    split at h
    · rename_i hlt
      simp only [] at h
      split at h
      · cases h
      · rename_i hne
        rw [Nat.mod_eq_of_lt (by omega)] at h
        obtain ⟨⟨k, hk⟩, h2⟩ := ih h
        refine ⟨⟨k + 1, by rw [hk, Nat.pow_succ', Nat.mul_assoc]⟩, ?_⟩
        rcases h2 with h2 | h2
        · exact .inr (by omega)
        · exact .inr h2
    · simp only [Option.some.injEq] at h
      subst h; exact ⟨⟨0, by simp⟩, .inl rfl⟩

-- four elements are added, one is inserted in front (which needs a larger allocation), one is deleted
example : (match runV Vec.empty [VOp.add 10, .add 20, .add 30, .add 40, .insert 5 0, .delete 2, .set 1 11] with
    | .ok v => some (v.allocated, v.length, v.cells.take v.length)
    | _ => none) = some (8, 4, [some 5, some 11, some 30, some 40]) := by decide +kernel
-- an index out of range is an access outside the list
example : (match runV Vec.empty [VOp.add 10, .delete 4] with | .oob => true | _ => false) = true := by decide +kernel

end Fastd.Data
