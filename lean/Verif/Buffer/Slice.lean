import Verif.Props.Buffer

/-! Helper lemmas about byte ranges of buffer storage. -/

namespace Fastd.Buffer

/-- `n` bytes from offset `o`. -/
def slice (m : Bytes) (o n : Nat) : Bytes := (m.drop o).take n

theorem slice_length {m : Bytes} {o n : Nat} (h : o + n ≤ m.length) : (slice m o n).length = n := by
  unfold slice; simp; omega

theorem read_eq {m : Bytes} {o n : Nat} (h : o + n ≤ m.length) : read m o n = .ok (slice m o n) :=
  if_pos h

theorem slice_add (m : Bytes) (o a b : Nat) : slice m o (a + b) = slice m o a ++ slice m (o + a) b := by
  unfold slice; rw [List.take_add, List.drop_drop]

theorem data_slice (b : Buf) : b.data = slice b.base b.off b.len := rfl

theorem slice_zero (m : Bytes) (o : Nat) : slice m o 0 = [] := by simp [slice]

theorem write_eq {m d : Bytes} {off : Nat} (h : off + d.length ≤ m.length) :
    ∃ m', write m off d = .ok m' ∧ m'.length = m.length ∧ slice m' off d.length = d ∧
      (∀ o n, off + d.length ≤ o → slice m' o n = slice m o n) ∧
      (∀ o n, o + n ≤ off → slice m' o n = slice m o n) ∧
      (∀ i n, i + n ≤ d.length → slice m' (off + i) n = (d.drop i).take n) := by
  obtain ⟨m', h1, h2, _, _, h5, h6, h7⟩ := write_ok h
  refine ⟨m', h1, h2, h5, h6, h7, ?_⟩
  intro i n hin
  conv => rhs; rw [← h5]
  unfold slice
  rw [List.drop_take, List.drop_drop, List.take_take]
  congr 1
  omega

theorem replicate_slice {m : Bytes} {o n : Nat} (h : ∀ i, o ≤ i → i < o + n → m[i]? = some 0) :
    slice m o n = List.replicate n 0 := by
  apply List.ext_getElem?
  intro i
  unfold slice
  by_cases hi : i < n
  · rw [List.getElem?_take_of_lt hi, List.getElem?_drop, h (o + i) (by omega) (by omega),
      List.getElem?_replicate, if_pos hi]
  · rw [List.getElem?_take_eq_none (by omega), List.getElem?_replicate, if_neg hi]

/-- The number of bytes in the last block that are not used. -/
def padLen (l : Nat) : Nat := blockCount l 16 * 16 - l

theorem blockCount_bounds (l : Nat) : l ≤ blockCount l 16 * 16 ∧ blockCount l 16 * 16 < l + 16 := by
  unfold blockCount; omega

end Fastd.Buffer
