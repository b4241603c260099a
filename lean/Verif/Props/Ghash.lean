import Verif.Crypto.Ghash
import Verif.Spec.Ghash
import Mathlib.Tactic.Ring
import Mathlib.Tactic.NormNum
import Mathlib.Tactic.Positivity

/-!
# C48: the table based GHASH is the GHASH of NIST SP 800-38D
-/

namespace Fastd.Crypto.Ghash

open Fastd.Spec.Ghash (ofBytes R bit V Z mul ghash blocks gcm)

/-! ## Blocks as numbers -/

def beNat (b : List UInt8) : Nat := b.foldl (fun n x => n * 256 + x.toNat) 0

theorem foldl_be (b : List UInt8) (n : Nat) : b.foldl (fun n x => n * 256 + x.toNat) n = n * 256 ^ b.length + beNat b := by
  unfold beNat
  induction b generalizing n with
  | nil => simp
  | cons x b ih =>
    rw [List.foldl_cons, ih, List.foldl_cons, ih (0 * 256 + x.toNat), List.length_cons, pow_succ]
    ring

theorem beNat_cons (x : UInt8) (b : List UInt8) : beNat (x :: b) = x.toNat * 256 ^ b.length + beNat b := by
  rw [beNat, List.foldl_cons, foldl_be]
  simp

theorem beNat_lt (b : List UInt8) : beNat b < 256 ^ b.length := by
  induction b with
  | nil => simp [beNat]
  | cons x b ih =>
    rw [beNat_cons, List.length_cons, pow_succ]
    have := x.toNat_lt
    have h : x.toNat * 256 ^ b.length ≤ 255 * 256 ^ b.length := Nat.mul_le_mul_right _ (by omega)
    omega

theorem pow256 (n : Nat) : 256 ^ n = 2 ^ (8 * n) := by
  rw [pow_mul]; norm_num

theorem toNat_ofBytes (b : Block) (h : b.length = 16) : (ofBytes b).toNat = beNat b := by
  rw [ofBytes, BitVec.toNat_ofNat]
  apply Nat.mod_eq_of_lt
  have := beNat_lt b
  rw [h] at this
  exact this

theorem beNat_testBit (x : UInt8) (b : List UInt8) (i : Nat) :
    (beNat (x :: b)).testBit i = if i < 8 * b.length then (beNat b).testBit i else x.toNat.testBit (i - 8 * b.length) := by
  rw [beNat_cons, pow256, Nat.mul_comm]
  have h := beNat_lt b
  rw [pow256] at h
  exact Nat.testBit_two_pow_mul_add _ h _

theorem beNat_xor (a b : Block) (h : a.length = b.length) : beNat (xor a b) = beNat a ^^^ beNat b := by
  induction a generalizing b with
  | nil => cases b with
    | nil => rfl
    | cons => simp at h
  | cons x a ih => cases b with
    | nil => simp at h
    | cons y b =>
      have h' : a.length = b.length := by simpa using h
      apply Nat.eq_of_testBit_eq
      intro i
      rw [Nat.testBit_xor, show xor (x :: a) (y :: b) = (x ^^^ y) :: xor a b from rfl, beNat_testBit, beNat_testBit, beNat_testBit, ih _ h']
      have hl : (xor a b).length = a.length := by simp [xor, h']
      rw [hl, ← h']
      split
      · rw [Nat.testBit_xor]
      · rw [UInt8.toNat_xor, Nat.testBit_xor]

theorem xor_length (a b : Block) (ha : a.length = 16) (hb : b.length = 16) : (xor a b).length = 16 := by simp [xor, ha, hb]

theorem ofBytes_xor (a b : Block) (ha : a.length = 16) (hb : b.length = 16) : ofBytes (xor a b) = ofBytes a ^^^ ofBytes b := by
  apply BitVec.eq_of_toNat_eq
  rw [BitVec.toNat_xor, toNat_ofBytes _ (xor_length _ _ ha hb), toNat_ofBytes _ ha, toNat_ofBytes _ hb, beNat_xor _ _ (by omega)]

/-- Blocks are determined by their values. -/
theorem beNat_inj (a b : Block) (h : a.length = b.length) (he : beNat a = beNat b) : a = b := by
  induction a generalizing b with
  | nil => cases b with
    | nil => rfl
    | cons => simp at h
  | cons x a ih => cases b with
    | nil => simp at h
    | cons y b =>
      have h' : a.length = b.length := by simpa using h
      rw [beNat_cons, beNat_cons, h'] at he
      have h1 := beNat_lt a
      have h2 := beNat_lt b
      rw [h'] at h1
      have hd : x.toNat = y.toNat := by
        have e1 : (x.toNat * 256 ^ b.length + beNat a) / 256 ^ b.length = x.toNat := by
          rw [Nat.mul_comm, Nat.mul_add_div (by positivity), Nat.div_eq_of_lt h1, Nat.add_zero]
        have e2 : (y.toNat * 256 ^ b.length + beNat b) / 256 ^ b.length = y.toNat := by
          rw [Nat.mul_comm, Nat.mul_add_div (by positivity), Nat.div_eq_of_lt h2, Nat.add_zero]
        rw [← e1, he, e2]
      rw [hd] at he
      rw [UInt8.toNat_inj.1 hd, ih b h' (by omega)]

theorem ofBytes_inj (a b : Block) (ha : a.length = 16) (hb : b.length = 16) (he : ofBytes a = ofBytes b) : a = b := by
  apply beNat_inj a b (by omega)
  rw [← toNat_ofBytes a ha, ← toNat_ofBytes b hb, he]

/-! ## Shifts -/

/-- One step of the loop for a shift by 1 or 4, for all bytes -/
theorem step1 (x : UInt8) : (x <<< (8 - 1 : UInt8)).toNat = x.toNat % 2 * 128 ∧ (x >>> (1 : UInt8)).toNat = x.toNat / 2 := by
  have : ∀ n, n < 256 → (UInt8.ofNat n <<< (8 - 1 : UInt8)).toNat = n % 2 * 128 ∧ (UInt8.ofNat n >>> (1 : UInt8)).toNat = n / 2 := by
    decide +kernel
  simpa using this x.toNat x.toNat_lt

theorem step4 (x : UInt8) : (x <<< (8 - 4 : UInt8)).toNat = x.toNat % 16 * 16 ∧ (x >>> (4 : UInt8)).toNat = x.toNat / 16 := by
  have : ∀ n, n < 256 → (UInt8.ofNat n <<< (8 - 4 : UInt8)).toNat = n % 16 * 16 ∧ (UInt8.ofNat n >>> (4 : UInt8)).toNat = n / 16 := by
    decide +kernel
  simpa using this x.toNat x.toNat_lt

/-- What is needed of a shift by `n` bits: `2 ^ n = m`, `2 ^ (8 - n) = k`. -/
structure Shift (n : UInt8) (m k : Nat) : Prop where
  prod : m * k = 256
  left : ∀ x : UInt8, (x <<< (8 - n)).toNat = x.toNat % m * k
  right : ∀ x : UInt8, (x >>> n).toNat = x.toNat / m
  back : ∀ c < m, ((UInt8.ofNat (c * k)) >>> (8 - n)).toNat = c
  disjoint : ∀ x : UInt8, ∀ c < m, ((x >>> n) ||| UInt8.ofNat (c * k)).toNat = x.toNat / m + c * k

theorem shift1 : Shift 1 2 128 where
  prod := rfl
  left x := (step1 x).1
  right x := (step1 x).2
  back := by decide
  disjoint x := by
    have : ∀ n, n < 256 → ∀ c < 2, ((UInt8.ofNat n >>> (1 : UInt8)) ||| UInt8.ofNat (c * 128)).toNat = n / 2 + c * 128 := by
      decide +kernel
    simpa using this x.toNat x.toNat_lt

theorem shift4 : Shift 4 16 16 where
  prod := rfl
  left x := (step4 x).1
  right x := (step4 x).2
  back := by decide
  disjoint x := by
    have : ∀ n, n < 256 → ∀ c < 16, ((UInt8.ofNat n >>> (4 : UInt8)) ||| UInt8.ofNat (c * 16)).toNat = n / 16 + c * 16 := by
      decide +kernel
    simpa using this x.toNat x.toNat_lt

theorem shrLoop_eq {n : UInt8} {m k : Nat} (hs : Shift n m k) (b : Block) (c : Nat) (hc : c < m) :
    (shrLoop n (UInt8.ofNat (c * k)) b).1.length = b.length ∧
    beNat (shrLoop n (UInt8.ofNat (c * k)) b).1 = (c * 256 ^ b.length + beNat b) / m ∧
    (shrLoop n (UInt8.ofNat (c * k)) b).2 = UInt8.ofNat ((c * 256 ^ b.length + beNat b) % m * k) := by
  have hm : 0 < m := by omega
  induction b generalizing c with
  | nil =>
    rw [List.length_nil, pow_zero, Nat.mul_one, show beNat [] = 0 from rfl, Nat.add_zero, Nat.div_eq_of_lt hc, Nat.mod_eq_of_lt hc]
    exact ⟨rfl, rfl, rfl⟩
  | cons x b ih =>
    have e : x <<< (8 - n) = UInt8.ofNat (x.toNat % m * k) := by
      rw [← UInt8.toNat_inj, hs.left, UInt8.toNat_ofNat']
      refine (Nat.mod_eq_of_lt ?_).symm
      have : x.toNat % m < m := Nat.mod_lt _ hm
      have h256 := hs.prod
      calc x.toNat % m * k < m * k := Nat.mul_lt_mul_of_pos_right this (by
            rcases Nat.eq_zero_or_pos k with h | h
            · rw [h] at h256; simp at h256
            · exact h)
        _ = _ := by rw [h256]
    obtain ⟨i1, i2, i3⟩ := ih (x.toNat % m) (Nat.mod_lt _ hm)
    simp only [shrLoop, e]
    have hx := Nat.div_add_mod x.toNat m
    have key : c * 256 ^ (b.length + 1) + (x.toNat * 256 ^ b.length + beNat b) =
        m * ((x.toNat / m + c * k) * 256 ^ b.length) + (x.toNat % m * 256 ^ b.length + beNat b) := by
      rw [pow_succ, ← hs.prod]
      conv => lhs; rw [← hx]
      ring
    refine ⟨by rw [List.length_cons, List.length_cons, i1], ?_, ?_⟩
    · rw [beNat_cons, beNat_cons, i1, i2, hs.disjoint x c hc, List.length_cons, key, Nat.mul_add_div hm]
    · rw [i3, beNat_cons, List.length_cons, key, Nat.mul_add_mod]

theorem shr_length {n : UInt8} {m k : Nat} (hs : Shift n m k) (hm : 0 < m) (b : Block) : (shr b n).1.length = b.length := by
  have h := (shrLoop_eq hs b 0 hm).1
  rw [Nat.zero_mul] at h
  exact h

theorem shr_eq {n : UInt8} {m k : Nat} (hs : Shift n m k) (hm : 0 < m) (b : Block) :
    beNat (shr b n).1 = beNat b / m ∧ (shr b n).2.toNat = beNat b % m := by
  have h := shrLoop_eq hs b 0 hm
  rw [Nat.zero_mul, Nat.zero_mul, Nat.zero_add] at h
  refine ⟨h.2.1, ?_⟩
  show ((shrLoop n 0 b).2 >>> (8 - n)).toNat = _
  rw [show (0 : UInt8) = UInt8.ofNat 0 from rfl, h.2.2]
  exact hs.back _ (Nat.mod_lt _ hm)

theorem ofBytes_shr {n : UInt8} {m k : Nat} (hs : Shift n m k) (hm : 0 < m) {e : Nat} (he : m = 2 ^ e) (b : Block) (hb : b.length = 16) :
    (shr b n).1.length = 16 ∧ ofBytes (shr b n).1 = ofBytes b >>> e := by
  have hl : (shr b n).1.length = 16 := by rw [shr_length hs hm, hb]
  refine ⟨hl, BitVec.eq_of_toNat_eq ?_⟩
  rw [toNat_ofBytes _ hl, (shr_eq hs hm b).1, BitVec.toNat_ushiftRight, toNat_ofBytes _ hb, Nat.shiftRight_eq_div_pow, he]

/-! ## Multiplication by powers of x -/

def sel (b : Bool) (v : BitVec 128) : BitVec 128 := if b then v else 0

/-- One step of `V` -/
def mulX (v : BitVec 128) : BitVec 128 := (v >>> 1) ^^^ sel (v.getLsbD 0) R

theorem V_succ (y : BitVec 128) (i : Nat) : V y (i + 1) = mulX (V y i) := by
  rw [V, mulX]
  have : (V y i).getLsbD 0 = bit (V y i) 127 := rfl
  rw [this]
  cases bit (V y i) 127
  · simp [sel]
  · simp [sel]

theorem sel_xor (a b : Bool) (v : BitVec 128) : sel (a ^^ b) v = sel a v ^^^ sel b v := by
  cases a <;> cases b <;> simp [sel]

theorem sel_xor_right (a : Bool) (v w : BitVec 128) : sel a (v ^^^ w) = sel a v ^^^ sel a w := by
  cases a <;> simp [sel]

theorem xor_swap (a b c d : BitVec 128) : (a ^^^ b) ^^^ (c ^^^ d) = (a ^^^ c) ^^^ (b ^^^ d) := by
  rw [BitVec.xor_assoc, ← BitVec.xor_assoc b, BitVec.xor_comm b c, BitVec.xor_assoc, ← BitVec.xor_assoc]

theorem mulX_xor (v w : BitVec 128) : mulX (v ^^^ w) = mulX v ^^^ mulX w := by
  unfold mulX
  rw [BitVec.ushiftRight_xor_distrib, BitVec.getLsbD_xor, sel_xor, xor_swap]

theorem mulX_zero : mulX 0 = 0 := by decide

theorem mulX_sel (b : Bool) (v : BitVec 128) : mulX (sel b v) = sel b (mulX v) := by
  cases b
  · exact mulX_zero
  · rfl

/-- The sum of the four values selected by the bits of a number, the highest bit first -/
def S (f : Nat → BitVec 128) (i : Nat) : BitVec 128 :=
  sel (i.testBit 3) (f 0) ^^^ sel (i.testBit 2) (f 1) ^^^ sel (i.testBit 1) (f 2) ^^^ sel (i.testBit 0) (f 3)

theorem mulX_S (f : Nat → BitVec 128) (i : Nat) : mulX (S f i) = S (fun t => mulX (f t)) i := by
  simp only [S, mulX_xor, mulX_sel]

theorem sel_shr (b : Bool) (v : BitVec 128) (n : Nat) : sel b v >>> n = sel b (v >>> n) := by
  cases b <;> simp [sel]

theorem sel_bit (b : Bool) (v : BitVec 128) (n : Nat) (h : v.getLsbD n = false) : (sel b v).getLsbD n = false := by
  cases b <;> simp [sel, h]

/-- A shift by four bits at once -/
theorem mulX4 (v : BitVec 128) : mulX (mulX (mulX (mulX v))) = (v >>> 4) ^^^ S (fun t => R >>> t) (v.toNat % 16) := by
  have b0 : (v.toNat % 16).testBit 0 = v.getLsbD 0 := by
    rw [show 16 = 2 ^ 4 from rfl, Nat.testBit_mod_two_pow]; rfl
  have b1 : (v.toNat % 16).testBit 1 = v.getLsbD 1 := by
    rw [show 16 = 2 ^ 4 from rfl, Nat.testBit_mod_two_pow]; rfl
  have b2 : (v.toNat % 16).testBit 2 = v.getLsbD 2 := by
    rw [show 16 = 2 ^ 4 from rfl, Nat.testBit_mod_two_pow]; rfl
  have b3 : (v.toNat % 16).testBit 3 = v.getLsbD 3 := by
    rw [show 16 = 2 ^ 4 from rfl, Nat.testBit_mod_two_pow]; rfl
  have r0 : R.getLsbD 0 = false := by decide
  have r1 : (R >>> 1).getLsbD 0 = false := by decide
  have r2 : (R >>> 2).getLsbD 0 = false := by decide
  unfold S
  rw [b0, b1, b2, b3]
  simp only [mulX, BitVec.ushiftRight_xor_distrib, sel_shr, BitVec.getLsbD_xor, sel_bit _ _ _ r0, sel_bit _ _ _ r1, sel_bit _ _ _ r2,
    ← BitVec.shiftRight_add, BitVec.getLsbD_ushiftRight, Bool.xor_false, BitVec.ushiftRight_zero]
  simp only [Nat.reduceAdd, Nat.add_zero]
  generalize sel (v.getLsbD 0) _ = w0
  generalize sel (v.getLsbD 1) _ = w1
  generalize sel (v.getLsbD 2) _ = w2
  generalize sel (v.getLsbD 3) _ = w3
  generalize v >>> 4 = w
  simp only [BitVec.xor_assoc]
  congr 1
  rw [BitVec.xor_comm w0, BitVec.xor_comm w1, BitVec.xor_comm w2]
  simp only [BitVec.xor_assoc]

theorem S_congr {f g : Nat → BitVec 128} (h : ∀ t, t < 4 → f t = g t) (i : Nat) : S f i = S g i := by
  unfold S
  rw [h 0 (by decide), h 1 (by decide), h 2 (by decide), h 3 (by decide)]

/-! ## The tables -/

theorem zero_eq : ofBytes zero = 0 := by decide
theorem r_eq : ofBytes r = R := by decide

theorem hbase_eq (key : Block) (hk : key.length = 16) (i : Nat) :
    (hbase key i).length = 16 ∧ ofBytes (hbase key i) = V (ofBytes key) i := by
  induction i with
  | zero => exact ⟨hk, rfl⟩
  | succ i ih =>
    obtain ⟨i1, i2⟩ := ih
    obtain ⟨s1, s2⟩ := ofBytes_shr shift1 (by decide) (e := 1) rfl (hbase key i) i1
    have s3 := (shr_eq shift1 (by decide) (hbase key i)).2
    have hc : (shr (hbase key i) 1).2 ≠ 0 ↔ (V (ofBytes key) i).getLsbD 0 = true := by
      rw [← i2, BitVec.getLsbD, toNat_ofBytes _ i1, Nat.testBit_zero, decide_eq_true_iff, ne_eq, ← UInt8.toNat_inj, s3]
      show ¬ (_ = 0) ↔ _
      omega
    rw [V_succ, mulX, ← i2]
    simp only [hbase]
    split
    · rename_i h
      rw [i2, hc.1 h]
      refine ⟨xor_length _ _ s1 rfl, ?_⟩
      rw [ofBytes_xor _ _ s1 rfl, s2, r_eq, i2]
      rfl
    · rename_i h
      rw [hc] at h
      rw [i2, Bool.eq_false_iff.2 h]
      refine ⟨s1, ?_⟩
      rw [s2, i2]
      simp [sel]

theorem rbase_eq (i : Nat) : (rbase i).length = 16 ∧ ofBytes (rbase i) = R >>> i := by
  induction i with
  | zero => exact ⟨rfl, by rw [BitVec.ushiftRight_zero]; exact r_eq⟩
  | succ i ih =>
    obtain ⟨s1, s2⟩ := ofBytes_shr shift1 (by decide) (e := 1) rfl (rbase i) ih.1
    exact ⟨s1, by rw [rbase, s2, ih.2, BitVec.shiftRight_add]⟩

theorem combine_eq {base : Nat → Block} {f : Nat → BitVec 128} (h : ∀ i, (base i).length = 16 ∧ ofBytes (base i) = f i) (i : Nat) :
    (combine base i).length = 16 ∧ ofBytes (combine base i) = S f i := by
  have step : ∀ (acc : Block) (v : BitVec 128) (b : Bool) (j : Nat), acc.length = 16 ∧ ofBytes acc = v →
      (if b then xor acc (base j) else acc).length = 16 ∧ ofBytes (if b then xor acc (base j) else acc) = v ^^^ sel b (f j) := by
    intro acc v b j ha
    cases b with
    | false => simp [sel, ha]
    | true =>
      simp only [if_true]
      exact ⟨xor_length _ _ ha.1 (h j).1, by rw [ofBytes_xor _ _ ha.1 (h j).1, ha.2, (h j).2]; rfl⟩
  have := step _ _ (i.testBit 0) 3 (step _ _ (i.testBit 1) 2 (step _ _ (i.testBit 2) 1 (step _ _ (i.testBit 3) 0 ⟨rfl, zero_eq⟩)))
  have e : (0 : BitVec 128) ^^^ sel (i.testBit 3) (f 0) = sel (i.testBit 3) (f 0) := BitVec.zero_xor
  rw [e] at this
  exact this

theorem row_eq (key : Block) (hk : key.length = 16) (i : Nat) :
    (row key i).length = 16 ∧ ∀ j, j < 16 → ((row key i).getD j zero).length = 16 ∧
      ofBytes ((row key i).getD j zero) = S (fun t => V (ofBytes key) (4 * i + t)) j := by
  induction i with
  | zero =>
    refine ⟨by simp [row, row0], fun j hj => ?_⟩
    have e : (row key 0).getD j zero = combine (hbase key) j := by
      simp [row, row0, List.getD_eq_getElem?_getD, hj]
    rw [e]
    have := combine_eq (hbase_eq key hk) j
    simpa using this
  | succ i ih =>
    refine ⟨by simp [row, nextRow, ih.1], fun j hj => ?_⟩
    obtain ⟨i1, i2⟩ := ih.2 j hj
    have e : (row key (i + 1)).getD j zero =
        xor (shr ((row key i).getD j zero) 4).1 (rtab.getD (shr ((row key i).getD j zero) 4).2.toNat zero) := by
      have : j < (row key i).length := by rw [ih.1]; exact hj
      simp [row, nextRow, List.getD_eq_getElem?_getD, this]
    rw [e]
    obtain ⟨s1, s2⟩ := ofBytes_shr shift4 (by decide) (e := 4) rfl _ i1
    have s3 := (shr_eq shift4 (by decide) ((row key i).getD j zero)).2
    rw [← toNat_ofBytes _ i1] at s3
    have hlt : (shr ((row key i).getD j zero) 4).2.toNat < 16 := by rw [s3]; exact Nat.mod_lt _ (by decide)
    have er : rtab.getD (shr ((row key i).getD j zero) 4).2.toNat zero = combine rbase (shr ((row key i).getD j zero) 4).2.toNat := by
      generalize (shr ((row key i).getD j zero) 4).2.toNat = c at hlt
      simp [rtab, List.getD_eq_getElem?_getD, hlt]
    rw [er]
    obtain ⟨c1, c2⟩ := combine_eq rbase_eq (shr ((row key i).getD j zero) 4).2.toNat
    refine ⟨xor_length _ _ s1 c1, ?_⟩
    rw [ofBytes_xor _ _ s1 c1, s2, c2, s3, ← mulX4, i2, mulX_S, mulX_S, mulX_S, mulX_S]
    apply S_congr
    intro t _
    rw [← V_succ, ← V_succ, ← V_succ, ← V_succ]
    congr 1
    omega

/-! ## Multiplication -/

theorem beNat_byte (b : Block) (k m : Nat) (hk : k < b.length) (hm : m < 8) :
    (beNat b).testBit (8 * (b.length - 1 - k) + m) = (b.getD k 0).toNat.testBit m := by
  induction b generalizing k with
  | nil => simp at hk
  | cons x b ih =>
    rw [beNat_testBit]
    cases k with
    | zero =>
      rw [if_neg (by simp)]
      simp
    | succ k =>
      simp only [List.length_cons] at hk ⊢
      rw [if_pos (by omega)]
      have := ih k (by omega)
      rw [show b.length + 1 - 1 - (k + 1) = b.length - 1 - k by omega, this]
      rfl

theorem bit_eq (x : Block) (hx : x.length = 16) (k t : Nat) (hk : k < 16) (ht : t < 8) :
    bit (ofBytes x) (8 * k + t) = (x.getD k 0).toNat.testBit (7 - t) := by
  have := beNat_byte x k (7 - t) (by omega) (by omega)
  rw [← this, bit, BitVec.getLsbD, toNat_ofBytes _ hx, hx]
  congr 1
  omega

theorem nibbles (x : UInt8) : (∀ t, t < 4 → (x >>> 4).toNat.testBit t = x.toNat.testBit (4 + t)) ∧
    (∀ t, t < 4 → (x &&& 0xf).toNat.testBit t = x.toNat.testBit t) ∧ (x >>> 4).toNat < 16 ∧ (x &&& 0xf).toNat < 16 := by
  have : ∀ n, n < 256 → (∀ t, t < 4 → (UInt8.ofNat n >>> 4).toNat.testBit t = (UInt8.ofNat n).toNat.testBit (4 + t)) ∧
    (∀ t, t < 4 → (UInt8.ofNat n &&& 0xf).toNat.testBit t = (UInt8.ofNat n).toNat.testBit t) ∧
      (UInt8.ofNat n >>> 4).toNat < 16 ∧ (UInt8.ofNat n &&& 0xf).toNat < 16 := by
    decide +kernel
  have := this x.toNat x.toNat_lt
  rwa [UInt8.ofNat_toNat] at this

theorem Z_succ (x y : BitVec 128) (i : Nat) : Z x y (i + 1) = Z x y i ^^^ sel (bit x i) (V y i) := by
  simp only [Z, sel]
  split <;> simp

theorem mulH_eq (key : Block) (hk : key.length = 16) (shift : Bool) (x : Block) (hx : x.length = 16) :
    (mulH (init key shift) x).length = 16 ∧ ofBytes (mulH (init key shift) x) = mul (ofBytes x) (ofBytes key) := by
  have key' : ∀ n, n ≤ 16 →
      ((List.range n).foldl (fun out i => xor (xor out ((init key shift).at (2 * i) (x.getD i 0 >>> 4)))
        ((init key shift).at (2 * i + 1) (x.getD i 0 &&& 0xf))) zero).length = 16 ∧
      ofBytes ((List.range n).foldl (fun out i => xor (xor out ((init key shift).at (2 * i) (x.getD i 0 >>> 4)))
        ((init key shift).at (2 * i + 1) (x.getD i 0 &&& 0xf))) zero) = Z (ofBytes x) (ofBytes key) (8 * n) := by
    intro n hn
    induction n with
    | zero => exact ⟨rfl, zero_eq⟩
    | succ n ih =>
      obtain ⟨i1, i2⟩ := ih (by omega)
      rw [List.range_succ, List.foldl_append, List.foldl_cons, List.foldl_nil]
      generalize (List.range n).foldl _ zero = acc at i1 i2
      obtain ⟨n1, n2, n3, n4⟩ := nibbles (x.getD n 0)
      have a1 : (init key shift).at (2 * n) (x.getD n 0 >>> 4) = (row key (2 * n)).getD (x.getD n 0 >>> 4).toNat zero := by
        have : 2 * n < 32 := by omega
        simp [State.at, init, List.getD_eq_getElem?_getD, this]
      have a2 : (init key shift).at (2 * n + 1) (x.getD n 0 &&& 0xf) = (row key (2 * n + 1)).getD (x.getD n 0 &&& 0xf).toNat zero := by
        have : 2 * n + 1 < 32 := by omega
        simp [State.at, init, List.getD_eq_getElem?_getD, this]
      obtain ⟨r1, r2⟩ := (row_eq key hk (2 * n)).2 _ n3
      obtain ⟨r3, r4⟩ := (row_eq key hk (2 * n + 1)).2 _ n4
      rw [a1, a2]
      have l1 := xor_length _ _ i1 r1
      refine ⟨xor_length _ _ l1 r3, ?_⟩
      rw [ofBytes_xor _ _ l1 r3, ofBytes_xor _ _ i1 r1, i2, r2, r4]
      have hb : ∀ t, t < 8 → bit (ofBytes x) (8 * n + t) = (x.getD n 0).toNat.testBit (7 - t) := fun t ht => bit_eq x hx n t (by omega) ht
      simp only [S]
      rw [n1 3 (by decide), n1 2 (by decide), n1 1 (by decide), n1 0 (by decide), n2 3 (by decide), n2 2 (by decide), n2 1 (by decide),
        n2 0 (by decide)]
      rw [show 8 * (n + 1) = 8 * n + 0 + 1 + 1 + 1 + 1 + 1 + 1 + 1 + 1 by omega]
      simp only [Z_succ, Nat.add_assoc, Nat.reduceAdd]
      have hb0 := hb 0 (by decide)
      rw [Nat.add_zero] at hb0
      rw [hb0, hb 1 (by decide), hb 2 (by decide), hb 3 (by decide), hb 4 (by decide), hb 5 (by decide), hb 6 (by decide),
        hb 7 (by decide)]
      simp only [BitVec.xor_assoc, Nat.add_zero, Nat.reduceAdd, Nat.reduceSub, ← Nat.mul_assoc, Nat.reduceMul, Nat.mul_add, Nat.add_assoc]
  exact key' 16 (by omega)

/-! ## The hash -/

theorem inBlock_eq (inp : List UInt8) (i : Nat) (h : 16 * i + 16 ≤ inp.length) :
    inBlock inp i = .ok ((List.range 16).map fun j => inp.getD (16 * i + j) 0) := by
  rw [inBlock, if_pos h]
  congr 1
  apply List.ext_getElem
  · simp; omega
  · intro j h1 h2
    simp at h1 h2
    simp [List.getD_eq_getElem?_getD, List.getElem?_eq_getElem (show 16 * i + j < inp.length by omega)]

theorem digestLoop_eq (key : Block) (hk : key.length = 16) (shift : Bool) (inp : List UInt8) (n i : Nat) (out : Block) (ho : out.length = 16)
    (h : 16 * (i + n) ≤ inp.length) :
    ∃ out', digestLoop (init key shift) inp n i out = .ok out' ∧ out'.length = 16 ∧
      ofBytes out' = ((List.range n).map fun t => ofBytes ((List.range 16).map fun j => inp.getD (16 * (i + t) + j) 0)).foldl
        (fun y x => mul (y ^^^ x) (ofBytes key)) (ofBytes out) := by
  induction n generalizing i out with
  | zero => exact ⟨out, rfl, ho, rfl⟩
  | succ n ih =>
    rw [digestLoop, inBlock_eq _ _ (by omega)]
    simp only [bind, Except.bind]
    set blk : Block := (List.range 16).map fun j => inp.getD (16 * i + j) 0 with hblk
    have hb : blk.length = 16 := by simp [hblk]
    have hx := xor_length out blk ho hb
    obtain ⟨m1, m2⟩ := mulH_eq key hk shift (xor out blk) hx
    obtain ⟨out', e1, e2, e3⟩ := ih (i + 1) _ m1 (by omega)
    refine ⟨out', e1, e2, ?_⟩
    rw [e3, m2, ofBytes_xor _ _ ho hb, List.range_succ_eq_map (n := n), List.map_cons, List.foldl_cons, List.map_map]
    refine congrArg (List.foldl _ _) ?_
    apply List.map_congr_left
    intro t _
    simp only [Function.comp_apply, Nat.succ_eq_add_one, show i + (t + 1) = i + 1 + t by omega]

theorem htonl_be (x : UInt32) : (htonlBytes x).length = 4 ∧ beNat (htonlBytes x) = x.toNat := by
  refine ⟨rfl, ?_⟩
  simp only [htonlBytes, beNat_cons, List.length_cons, List.length_nil, show beNat [] = 0 from rfl, UInt32.toNat_toUInt8,
    UInt32.toNat_shiftRight, Nat.shiftRight_eq_div_pow, UInt32.reduceToNat]
  have := x.toNat_lt
  norm_num
  omega

theorem beNat_append (a b : List UInt8) : beNat (a ++ b) = beNat a * 256 ^ b.length + beNat b := by
  rw [beNat, List.foldl_append, foldl_be]
  rfl

theorem beNat_zeros (n : Nat) : beNat (List.replicate n 0) = 0 := by
  induction n with
  | zero => rfl
  | succ n ih => rw [List.replicate_succ, beNat_cons, ih]; simp

theorem makeSize_eq (len : Nat) (shift : Bool) (h : len < 2 ^ 29) :
    ∃ b, makeSize len shift = .ok b ∧ b.length = 16 ∧
      ofBytes b = if shift then BitVec.ofNat 64 (8 * len) ++ BitVec.ofNat 64 0 else BitVec.ofNat 64 0 ++ BitVec.ofNat 64 (8 * len) := by
  rw [makeSize, if_neg (by omega)]
  have hx : (UInt32.ofNat len <<< 3).toNat = 8 * len := by
    rw [UInt32.toNat_shiftLeft, UInt32.toNat_ofNat', Nat.mod_eq_of_lt (show len < 2 ^ 32 by omega), Nat.shiftLeft_eq]
    show len * 2 ^ 3 % 2 ^ 32 = _
    rw [Nat.mod_eq_of_lt (by omega)]
    omega
  have hb := htonl_be (UInt32.ofNat len <<< 3)
  rw [hx] at hb
  simp only
  generalize htonlBytes (UInt32.ofNat len <<< 3) = s at hb
  cases shift with
  | true =>
    refine ⟨_, rfl, by simp [hb.1], ?_⟩
    simp only [if_true]
    apply BitVec.eq_of_toNat_eq
    rw [toNat_ofBytes _ (by simp [hb.1]), beNat_append, beNat_append, beNat_zeros, beNat_zeros, hb.2, BitVec.toNat_append]
    simp [Nat.shiftLeft_eq]
    omega
  | false =>
    refine ⟨_, rfl, by simp [hb.1], ?_⟩
    simp only [Bool.false_eq_true, if_false]
    apply BitVec.eq_of_toNat_eq
    rw [toNat_ofBytes _ (by simp [hb.1]), beNat_append, beNat_zeros, hb.2, BitVec.toNat_append]
    simp
    omega

/-- **C48**: the table based implementation computes GHASH for every key and every message of less than 512 MiB, given in a buffer that is filled up
with zeros to a multiple of 16 bytes; nothing behind these is read. The message is taken as the additional authenticated data of GCM if the
size is shifted, otherwise as the ciphertext. -/
theorem C48 (key : Block) (hk : key.length = 16) (shift : Bool) (m tail : List UInt8) (hm : m.length < 2 ^ 29) :
    ∃ out, digest (init key shift) (m ++ List.replicate ((16 - m.length % 16) % 16) 0 ++ tail) m.length = .ok out ∧ out.length = 16 ∧
      ofBytes out = if shift then gcm (ofBytes key) m [] else gcm (ofBytes key) [] m := by
  set inp := m ++ List.replicate ((16 - m.length % 16) % 16) 0 ++ tail with hinp
  have hlen : 16 * ((m.length + 15) / 16) ≤ inp.length := by
    simp only [hinp, List.length_append, List.length_replicate]
    omega
  obtain ⟨out, e1, e2, e3⟩ := digestLoop_eq key hk shift inp ((m.length + 15) / 16) 0 zero rfl (by omega)
  obtain ⟨sz, s1, s2, s3⟩ := makeSize_eq m.length shift hm
  have hx := xor_length out sz e2 s2
  obtain ⟨m1, m2⟩ := mulH_eq key hk shift _ hx
  refine ⟨mulH (init key shift) (xor out sz), ?_, m1, ?_⟩
  · unfold digest
    simp only [e1, bind, Except.bind]
    rw [show (init key shift).shiftSize = shift from rfl, s1]
    rfl
  rw [m2, ofBytes_xor _ _ e2 s2, e3, s3]
  have hblocks : ((List.range ((m.length + 15) / 16)).map fun t => ofBytes ((List.range 16).map fun j => inp.getD (16 * (0 + t) + j) 0)) = blocks m := by
    unfold blocks
    apply List.map_congr_left
    intro t ht
    rw [List.mem_range] at ht
    refine congrArg ofBytes ?_
    apply List.map_congr_left
    intro j hj
    rw [List.mem_range] at hj
    rw [Nat.zero_add, hinp]
    simp only [List.getD_eq_getElem?_getD]
    by_cases hlt : 16 * t + j < m.length
    · rw [List.append_assoc, List.getElem?_append_left hlt]
    · have : 16 * t + j - m.length < (16 - m.length % 16) % 16 := by omega
      rw [List.append_assoc, List.getElem?_append_right (by omega), List.getElem?_append_left (by simpa using this),
        List.getElem?_replicate, if_pos this, List.getElem?_eq_none (by omega)]
      rfl
  rw [hblocks, zero_eq]
  cases shift <;> simp [gcm, ghash, blocks]

/-- A message of 512 MiB makes the daemon abort, -/
theorem C48_oversized (s : State) (inp : List UInt8) (len : Nat) (h : 2 ^ 29 ≤ len) : ∃ e, digest s inp len = .error e := by
  unfold digest
  simp only [makeSize, ge_iff_le, h, if_true, bind, Except.bind]
  split
  · exact ⟨_, rfl⟩
  · exact ⟨_, rfl⟩

/-- and a buffer that ends too early would be read behind its end. -/
theorem C48_short (key : Block) (shift : Bool) : digest (init key shift) [1, 2, 3] 3 = .error .memory := rfl

/-- Test case 2 of the GCM specification: H, C and GHASH(H, {}, C); and the hash with the same message as additional data -/
example :
    let h : Block := [0x66, 0xe9, 0x4b, 0xd4, 0xef, 0x8a, 0x2c, 0x3b, 0x88, 0x4c, 0xfa, 0x59, 0xca, 0x34, 0x2b, 0x2e]
    let c : Block := [0x03, 0x88, 0xda, 0xce, 0x60, 0xb6, 0xa3, 0x92, 0xf3, 0x28, 0xc2, 0xb9, 0x71, 0xb2, 0xfe, 0x78]
    digest (init h false) c 16 =
      .ok [0xf3, 0x8c, 0xbb, 0x1a, 0xd6, 0x92, 0x23, 0xdc, 0xc3, 0x45, 0x7a, 0xe5, 0xb6, 0xb0, 0xf8, 0x85] ∧
    digest (init h true) c 16 ≠ digest (init h false) c 16 := by
  decide +kernel

/-- The specification gives the value of the test case, too. -/
example : gcm 0x66e94bd4ef8a2c3b884cfa59ca342b2e [] [0x03, 0x88, 0xda, 0xce, 0x60, 0xb6, 0xa3, 0x92, 0xf3, 0x28, 0xc2, 0xb9, 0x71, 0xb2, 0xfe, 0x78] =
    0xf38cbb1ad69223dcc3457ae5b6b0f885 := by
  decide +kernel

end Fastd.Crypto.Ghash
