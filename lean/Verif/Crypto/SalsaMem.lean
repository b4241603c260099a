import Verif.Crypto.SalsaXmm
import Verif.Spec.Salsa20

/-!
# Memory accesses of the Salsa20 implementation

Lemmas: words that are combined with the message and written, in any order, and copies.
-/

namespace Fastd.Crypto.SalsaXmm

open Spec.Salsa20 (byte)

/-! ## Words and bytes -/

theorem byte_xor (a b : UInt32) (i : Nat) : byte (a ^^^ b) i = byte a i ^^^ byte b i := by
  unfold byte
  apply UInt8.toNat_inj.1
  rw [UInt8.toNat_xor, UInt32.toNat_xor]
  simp only [UInt8.toNat_ofNat']
  rw [← Nat.shiftRight_eq_div_pow, ← Nat.shiftRight_eq_div_pow, ← Nat.shiftRight_eq_div_pow, Nat.shiftRight_xor_distrib, Nat.xor_mod_two_pow]

theorem load32_toNat (m : Mem) (r : Region) (o : Nat) :
    (load32 m r o).toNat = (m r o).toNat + 2 ^ 8 * (m r (o + 1)).toNat + 2 ^ 16 * (m r (o + 2)).toNat + 2 ^ 24 * (m r (o + 3)).toNat := by
  unfold load32
  have h0 := (m r o).toNat_lt
  have h1 := (m r (o + 1)).toNat_lt
  have h2 := (m r (o + 2)).toNat_lt
  have h3 := (m r (o + 3)).toNat_lt
  simp only [UInt32.toNat_ofNat']
  omega

theorem byte_load32 (m : Mem) (r : Region) (o i : Nat) (h : i < 4) : byte (load32 m r o) i = m r (o + i) := by
  unfold byte
  apply UInt8.toNat_inj.1
  rw [load32_toNat]
  have h0 := (m r o).toNat_lt
  have h1 := (m r (o + 1)).toNat_lt
  have h2 := (m r (o + 2)).toNat_lt
  have h3 := (m r (o + 3)).toNat_lt
  simp only [UInt8.toNat_ofNat']
  match i, h with
  | 0, _ => simp only [Nat.mul_zero, Nat.pow_zero, Nat.add_zero]; omega
  | 1, _ => simp only [Nat.mul_one]; omega
  | 2, _ => show _ / 2 ^ 16 % _ = _; omega
  | 3, _ => show _ / 2 ^ 24 % _ = _; omega

theorem store32_apply (m : Mem) (r : Region) (o : Nat) (w : UInt32) (r' : Region) (p : Nat) :
    store32 m r o w r' p = if r' = r ∧ o ≤ p ∧ p < o + 4 then byte w (p - o) else m r' p := rfl

theorem join_lo (lo hi : UInt32) : (join lo hi).toUInt32 = lo := by
  apply UInt32.toNat_inj.1
  unfold join
  have := lo.toNat_lt
  have := hi.toNat_lt
  simp only [UInt64.toNat_toUInt32, UInt64.toNat_ofNat']
  omega

theorem join_halves (n : UInt64) : join n.toUInt32 (n >>> 32).toUInt32 = n := by
  apply UInt64.toNat_inj.1
  unfold join
  have := n.toNat_lt
  simp only [UInt64.toNat_toUInt32, UInt64.toNat_ofNat', UInt64.toNat_shiftRight]
  rw [show (32 : UInt64).toNat % 64 = 32 from rfl, Nat.shiftRight_eq_div_pow]
  omega

/-! ## Words of the result, in any order -/

/-- `m` is `m0` apart from the words with the numbers `D`, counted from `d0`: these are the words of the message combined with words of the stream. -/
def Done (m0 : Mem) (src : Region) (so : Nat) (dst : Region) (d0 : Nat) (w : Nat → UInt32) (D : List Nat) (m : Mem) : Prop :=
  ∀ r p, m r p = if r = dst ∧ d0 ≤ p ∧ (p - d0) / 4 ∈ D then byte (w ((p - d0) / 4)) ((p - d0) % 4) ^^^ m0 src (so + (p - d0)) else m0 r p

variable {m0 m : Mem} {src dst : Region} {so d0 : Nat} {w : Nat → UInt32} {D : List Nat}

theorem done_nil : Done m0 src so dst d0 w [] m0 := by
  intro r p
  rw [if_neg]
  rintro ⟨_, _, h⟩
  cases h

theorem done_load (h : Done m0 src so dst d0 w D m) (k : Nat) (hk : k ∉ D) (hs : src = dst → so = d0) :
    load32 m src (so + 4 * k) = load32 m0 src (so + 4 * k) := by
  have key : ∀ i, i < 4 → m src (so + 4 * k + i) = m0 src (so + 4 * k + i) := by
    intro i hi
    rw [h, if_neg]
    rintro ⟨h1, _, h3⟩
    rw [← hs h1, show (so + 4 * k + i - so) / 4 = k by omega] at h3
    exact hk h3
  unfold load32
  rw [key 1 (by omega), key 2 (by omega), key 3 (by omega)]
  have := key 0 (by omega)
  rw [Nat.add_zero] at this
  rw [this]

theorem done_store (h : Done m0 src so dst d0 w D m) (k : Nat) :
    Done m0 src so dst d0 w (k :: D) (store32 m dst (d0 + 4 * k) (w k ^^^ load32 m0 src (so + 4 * k))) := by
  intro r p
  rw [store32_apply]
  by_cases hc : r = dst ∧ d0 + 4 * k ≤ p ∧ p < d0 + 4 * k + 4
  · have hq : (p - d0) / 4 = k := by omega
    have hr : p - (d0 + 4 * k) = (p - d0) % 4 := by omega
    rw [if_pos hc, if_pos ⟨hc.1, by omega, by rw [hq]; exact List.mem_cons_self ..⟩, byte_xor, hq, hr, byte_load32 _ _ _ _ (by omega)]
    congr 2
    omega
  · rw [if_neg hc, h r p]
    by_cases hd : r = dst ∧ d0 ≤ p ∧ (p - d0) / 4 ∈ D
    · rw [if_pos hd, if_pos ⟨hd.1, hd.2.1, List.mem_cons_of_mem _ hd.2.2⟩]
    · rw [if_neg hd, if_neg]
      rintro ⟨h1, h2, h3⟩
      rcases List.mem_cons.1 h3 with h3 | h3
      · exact hc ⟨h1, by omega, by omega⟩
      · exact hd ⟨h1, h2, h3⟩

/-! ## Copies -/

theorem copyBytes_apply (n : Nat) : ∀ (m : Mem) (r : Region) (o : Nat) (r' : Region) (o' : Nat), r ≠ r' → ∀ q p,
    copyBytes n m r o r' o' q p = if q = r' ∧ o' ≤ p ∧ p < o' + n then m r (o + (p - o')) else m q p := by
  induction n with
  | zero =>
    intro m r o r' o' hr q p
    rw [if_neg (by omega)]
    rfl
  | succ n ih =>
    intro m r o r' o' hr q p
    unfold copyBytes
    rw [ih _ _ _ _ _ hr]
    by_cases h : q = r' ∧ o' + 1 ≤ p ∧ p < o' + 1 + n
    · have h2 : q = r' ∧ o' ≤ p ∧ p < o' + (n + 1) := ⟨h.1, by omega, by omega⟩
      rw [if_pos h, if_pos h2]
      show (if r = r' ∧ o + 1 + (p - (o' + 1)) = o' then m r o else m r (o + 1 + (p - (o' + 1)))) = _
      rw [if_neg (fun h => hr h.1)]
      congr 1
      omega
    · rw [if_neg h]
      by_cases h' : q = r' ∧ p = o'
      · rw [if_pos h', if_pos ⟨h'.1, by omega, by omega⟩]
        congr 1
        omega
      · rw [if_neg h', if_neg]
        rintro ⟨h1, h2, h3⟩
        by_cases hp : p = o'
        · exact h' ⟨h1, hp⟩
        · exact h ⟨h1, by omega, by omega⟩

end Fastd.Crypto.SalsaXmm
