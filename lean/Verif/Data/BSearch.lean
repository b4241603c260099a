/-!
# `bsearch`

`bsearch` of the C library, as used in src/lex.c:423, src/peer.c (`fastd_peer_find_by_id`) and by
the `VECTOR_BSEARCH` macro (src/vector.h). Modelled as the textbook binary search used by glibc
(stdlib-bsearch.h): the standard only promises that the result is some matching element if the
array is sorted consistently with the comparison function, which is what `bsearch_spec` proves.
-/

namespace Fastd.Data

/-- The loop of `bsearch`. `cmp e` is the result of `compar(key, e)`. `fuel` is at least `u - l`. -/
def bsearchLoop {α : Type} (cmp : α → Ordering) (a : List α) : Nat → Nat → Nat → Option Nat
  | 0, _, _ => none
  | fuel + 1, l, u =>
    if l < u then
      let idx := (l + u) / 2
      match a[idx]? with
      | none => none
      | some e =>
        match cmp e with
        | .lt => bsearchLoop cmp a fuel l idx
        | .gt => bsearchLoop cmp a fuel (idx + 1) u
        | .eq => some idx
    else none

/-- `bsearch(key, base, nmemb, ...)`: the index of the element found. -/
def bsearch {α : Type} (cmp : α → Ordering) (a : List α) : Option Nat :=
  bsearchLoop cmp a (a.length + 1) 0 a.length

/-- The array is sorted consistently with the key's comparison: elements greater than the key are
not followed by others, elements less than the key are not preceded by others. -/
def SortedFor {α : Type} (cmp : α → Ordering) (a : List α) : Prop :=
  ∀ i j (hi : i < a.length) (hj : j < a.length), i < j →
    (cmp a[i] = .lt → cmp a[j] = .lt) ∧ (cmp a[j] = .gt → cmp a[i] = .gt)

theorem bsearchLoop_spec {α : Type} (cmp : α → Ordering) (a : List α) (hs : SortedFor cmp a)
    (fuel l u : Nat) (hf : u - l < fuel) (hu : u ≤ a.length)
    (hl : ∀ i (hi : i < a.length), i < l → cmp a[i] = .gt)
    (hr : ∀ i (hi : i < a.length), u ≤ i → cmp a[i] = .lt) :
    match bsearchLoop cmp a fuel l u with
    | some i => ∃ hi : i < a.length, cmp a[i] = .eq
    | none => ∀ i (hi : i < a.length), cmp a[i] ≠ .eq := by
  induction fuel generalizing l u with
  | zero => omega
  | succ fuel ih =>
    rw [bsearchLoop]
    by_cases h : l < u
    · have hi : (l + u) / 2 < a.length := by omega
      simp only [if_pos h, List.getElem?_eq_getElem hi]
      cases hc : cmp a[(l + u) / 2] with
      | lt =>
        simp only []
        refine ih l ((l + u) / 2) (by omega) (by omega) hl ?_
        intro i hi' hge
        by_cases he : i = (l + u) / 2
        · subst he; exact hc
        · exact (hs ((l + u) / 2) i hi hi' (by omega)).1 hc
      | gt =>
        simp only []
        refine ih ((l + u) / 2 + 1) u (by omega) hu ?_ hr
        intro i hi' hlt
        by_cases he : i = (l + u) / 2
        · subst he; exact hc
        · exact (hs i ((l + u) / 2) hi' hi (by omega)).2 hc
      | eq => simp only []; exact ⟨hi, hc⟩
    · simp only [if_neg h]
      intro i hi
      rcases Nat.lt_or_ge i l with h1 | h1
      · rw [hl i hi h1]; decide
      · rw [hr i hi (by omega)]; decide

/-- `bsearch` finds a matching element if there is one. -/
theorem bsearch_spec {α : Type} (cmp : α → Ordering) (a : List α) (hs : SortedFor cmp a) :
    match bsearch cmp a with
    | some i => ∃ hi : i < a.length, cmp a[i] = .eq
    | none => ∀ i (hi : i < a.length), cmp a[i] ≠ .eq :=
  bsearchLoop_spec cmp a hs _ 0 a.length (by omega) (by omega) (by intros; omega) (by intros; omega)

theorem bsearch_some {α : Type} {cmp : α → Ordering} {a : List α} (hs : SortedFor cmp a) {i : Nat}
    (h : bsearch cmp a = some i) : ∃ e, a[i]? = some e ∧ cmp e = .eq := by
  have := bsearch_spec cmp a hs
  rw [h] at this
  obtain ⟨hi, hc⟩ := this
  exact ⟨a[i], List.getElem?_eq_getElem hi, hc⟩

theorem bsearch_none {α : Type} {cmp : α → Ordering} {a : List α} (hs : SortedFor cmp a)
    (h : bsearch cmp a = none) : ∀ e ∈ a, cmp e ≠ .eq := by
  have := bsearch_spec cmp a hs
  rw [h] at this
  intro e he
  obtain ⟨i, hi, rfl⟩ := List.getElem_of_mem he
  exact this i hi

/-- Sortedness by a strictly increasing `Nat` key. -/
theorem sortedFor_nat {α : Type} (key : α → Nat) (a : List α)
    (h : a.Pairwise fun x y => key x < key y) (k : Nat) :
    SortedFor (fun e => compare k (key e)) a := by
  intro i j hi hj hij
  have := List.pairwise_iff_getElem.mp h i j hi hj hij
  constructor
  · intro h1; rw [Nat.compare_eq_lt] at *; omega
  · intro h1; rw [Nat.compare_eq_gt] at *; omega

end Fastd.Data
