import Verif.Method.Common
import Mathlib.Tactic.Common
import Mathlib.Tactic.Linarith
import Mathlib.Tactic.Ring

/-! Helper lemmas about the common method model. -/

namespace Fastd.Method

theorem exists6 (v : Nonce) : ∃ a b c d e f : UInt8, v = #v[a, b, c, d, e, f] := by
  refine ⟨v[0], v[1], v[2], v[3], v[4], v[5], ?_⟩
  ext i hi
  match i, hi with
  | 0, _ => simp
  | 1, _ => simp
  | 2, _ => simp
  | 3, _ => simp
  | 4, _ => simp
  | 5, _ => simp

theorem u8lt (a : UInt8) : a.toNat < 256 := a.toNat_lt

theorem val6 (a b c d e f : UInt8) : Nonce.val #v[a, b, c, d, e, f] =
    ((((a.toNat * 256 + b.toNat) * 256 + c.toNat) * 256 + d.toNat) * 256 + e.toNat) * 256
      + f.toNat := by
  simp [Nonce.val, beVal]

theorem val_lt (n : Nonce) : n.val < 2 ^ 48 := by
  obtain ⟨a, b, c, d, e, f, rfl⟩ := exists6 n
  rw [val6]
  have := u8lt a; have := u8lt b; have := u8lt c; have := u8lt d; have := u8lt e
  have := u8lt f
  omega

theorem val_inj {m n : Nonce} (h : m.val = n.val) : m = n := by
  obtain ⟨a, b, c, d, e, f, rfl⟩ := exists6 m
  obtain ⟨a', b', c', d', e', f', rfl⟩ := exists6 n
  rw [val6, val6] at h
  have h1 := u8lt a; have h2 := u8lt b; have h3 := u8lt c; have h4 := u8lt d
  have h5 := u8lt e; have h6 := u8lt f
  have h1' := u8lt a'; have h2' := u8lt b'; have h3' := u8lt c'; have h4' := u8lt d'
  have h5' := u8lt e'; have h6' := u8lt f'
  have e1 : a = a' := UInt8.toNat_inj.1 (by omega)
  have e2 : b = b' := UInt8.toNat_inj.1 (by omega)
  have e3 : c = c' := UInt8.toNat_inj.1 (by omega)
  have e4 : d = d' := UInt8.toNat_inj.1 (by omega)
  have e5 : e = e' := UInt8.toNat_inj.1 (by omega)
  have e6 : f = f' := UInt8.toNat_inj.1 (by omega)
  subst e1 e2 e3 e4 e5 e6
  rfl

theorem nonceAge_eq (r n : Nonce) : nonceAge r n = ((r.val : Int) - n.val).fdiv 2 := by
  obtain ⟨a, b, c, d, e, f, rfl⟩ := exists6 r
  obtain ⟨a', b', c', d', e', f', rfl⟩ := exists6 n
  rw [val6, val6]
  simp only [nonceAge, Vector.toList_mk, List.zip_cons_cons, List.foldl_cons, List.zip_nil_left,
    List.foldl_nil]
  congr 1
  push_cast
  ring

theorem nonceAge_parity (r n : Nonce) (h : n.val % 2 = r.val % 2) :
    (r.val : Int) - n.val = 2 * nonceAge r n := by
  rw [nonceAge_eq, Int.fdiv_eq_ediv_of_nonneg _ (by omega)]
  omega

theorem first_byte (n : Nonce) : n[0].toNat = n.val / 2 ^ 40 := by
  obtain ⟨a, b, c, d, e, f, rfl⟩ := exists6 n
  rw [val6]
  have h1 := u8lt a; have h2 := u8lt b; have h3 := u8lt c; have h4 := u8lt d
  have h5 := u8lt e; have h6 := u8lt f
  simp
  omega

theorem first_two (n : Nonce) : (n[0] = 0xff ∧ n[1] = 0xff) ↔ 0xffff * 2 ^ 32 ≤ n.val := by
  obtain ⟨a, b, c, d, e, f, rfl⟩ := exists6 n
  rw [val6]
  have h1 := u8lt a; have h2 := u8lt b; have h3 := u8lt c; have h4 := u8lt d
  have h5 := u8lt e; have h6 := u8lt f
  simp only [← UInt8.toNat_inj]
  simp
  omega

theorem last_byte (n : Nonce) : n[5].toNat = n.val % 256 := by
  obtain ⟨a, b, c, d, e, f, rfl⟩ := exists6 n
  rw [val6]
  have h6 := u8lt f
  simp

theorem bit_test (x : BitVec 64) (k : Nat) (hk : k < 64) :
    (x &&& ((1 : BitVec 64) <<< k)) ≠ 0 ↔ x.getLsbD k = true := by
  constructor
  · intro h
    by_contra hx
    apply h
    apply BitVec.eq_of_getLsbD_eq
    intro i hi
    simp only [BitVec.getLsbD_and, BitVec.getLsbD_shiftLeft]
    by_cases hik : i = k
    · subst hik; simp [hx]
    · by_cases h2 : i < k
      · simp [h2]
      · have : i - k ≠ 0 := by omega
        simp [this]
  · intro hx h
    have := congrArg (fun y => BitVec.getLsbD y k) h
    simp [hk] at this
    simp [BitVec.getLsbD_eq_getElem hk, this] at hx

theorem bit_set (x : BitVec 64) (k i : Nat) (hi : i < 64) :
    (x ||| ((1 : BitVec 64) <<< k)).getLsbD i = (x.getLsbD i || decide (i = k)) := by
  simp only [BitVec.getLsbD_or, BitVec.getLsbD_shiftLeft]
  by_cases hik : i = k
  · subst hik; simp [hi]
  · by_cases h2 : i < k
    · simp [h2, hik]
    · have : i - k ≠ 0 := by omega
      simp [this, hik]

/-! ### Increment -/

/-- Little endian value. -/
def leVal : List UInt8 → Nat
  | [] => 0
  | b :: r => b.toNat + 256 * leVal r

theorem carry_val (l : List UInt8) (h : leVal l + 1 < 256 ^ l.length) :
    leVal (carry l) = leVal l + 1 := by
  induction l with
  | nil => simp [leVal] at h
  | cons b r ih =>
    have hb := u8lt b
    have e : (b + 1 : UInt8).toNat = (b.toNat + 1) % 256 := by simp [UInt8.toNat_add]
    simp only [carry]
    split
    · rename_i hne
      have : (b + 1 : UInt8).toNat ≠ 0 := fun h0 => hne (UInt8.toNat_inj.1 (by simpa using h0))
      simp only [leVal]; omega
    · rename_i hz
      have hz : b + 1 = 0 := by simpa using hz
      have hz' : (b + 1 : UInt8).toNat = 0 := by rw [hz]; rfl
      simp only [leVal]
      rw [ih]
      · omega
      · simp only [leVal, List.length_cons, pow_succ] at h
        omega

theorem incrRev_val (b : UInt8) (r : List UInt8)
    (h : leVal (b :: r) + 2 < 256 ^ (r.length + 1)) :
    leVal (incrRev (b :: r)) = leVal (b :: r) + 2 := by
  have hb := u8lt b
  have e : (b + 2 : UInt8).toNat = (b.toNat + 2) % 256 := by simp [UInt8.toNat_add]
  have key : ∀ c : UInt8, (c &&& 0xfe = 0) ↔ c.toNat < 2 := by
    intro c
    rcases c with ⟨c⟩
    revert c
    decide +kernel
  simp only [incrRev]
  split
  · rename_i hz
    have hz := (key _).1 hz
    simp only [leVal]
    rw [carry_val]
    · omega
    · simp only [leVal, pow_succ] at h
      omega
  · rename_i hz
    have hz : ¬ (b + 2 : UInt8).toNat < 2 := fun x => hz ((key _).2 x)
    simp only [leVal]; omega

theorem beVal_append (l : List UInt8) (b : UInt8) : beVal (l ++ [b]) = beVal l * 256 + b.toNat := by
  simp [beVal, List.foldl_append]

theorem beVal_reverse (l : List UInt8) : beVal l.reverse = leVal l := by
  induction l with
  | nil => rfl
  | cons b r ih => rw [List.reverse_cons, beVal_append, ih]; simp [leVal]; omega

theorem incrNonce_val (n : Nonce) (h : n.val + 2 < 2 ^ 48) : (incrNonce n).val = n.val + 2 := by
  have h1 : n.val = leVal n.toList.reverse := by
    rw [← beVal_reverse, List.reverse_reverse]; rfl
  have h2 : (incrNonce n).val = leVal (incrRev n.toList.reverse) := by
    rw [← beVal_reverse]
    simp [Nonce.val, incrNonce]
  have hlen : n.toList.reverse.length = 6 := by simp
  rw [h1] at h
  rw [h2, h1]
  generalize n.toList.reverse = l at *
  cases l with
  | nil => simp at hlen
  | cons b r =>
    apply incrRev_val
    have : r.length + 1 = 6 := by simpa using hlen
    rw [this]; omega

end Fastd.Method
