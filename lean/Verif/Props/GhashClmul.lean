import Verif.Crypto.GhashClmul
import Verif.Props.Ghash

/-!
# C48 for the implementation with PCLMULQDQ
-/

namespace Fastd.Crypto.GhashClmul

open Fastd.Crypto.Ghash (Block Err zero makeSize inBlock beNat beNat_cons toNat_ofBytes ofBytes_inj)
open Fastd.Crypto (htonlBytes)
open Fastd.Spec.Ghash (ofBytes R bit V Z mul ghash blocks gcm)

/-! ## Linear functions -/

def Lin {n m : Nat} (f : BitVec n → BitVec m) : Prop := ∀ a b, f (a ^^^ b) = f a ^^^ f b

variable {n m k : Nat}

theorem Lin.id : Lin (fun v : BitVec n => v) := fun _ _ => rfl

theorem Lin.comp {g : BitVec m → BitVec k} {f : BitVec n → BitVec m} (hg : Lin g) (hf : Lin f) : Lin (fun v => g (f v)) := by
  intro a b; show g (f (a ^^^ b)) = _; rw [hf, hg]

theorem xor4 (a b c d : BitVec n) : (a ^^^ b) ^^^ (c ^^^ d) = (a ^^^ c) ^^^ (b ^^^ d) := by
  rw [BitVec.xor_assoc, ← BitVec.xor_assoc b, BitVec.xor_comm b c, BitVec.xor_assoc, ← BitVec.xor_assoc]

theorem Lin.xor {f g : BitVec n → BitVec m} (hf : Lin f) (hg : Lin g) : Lin (fun v => f v ^^^ g v) := by
  intro a b; show f (a ^^^ b) ^^^ g (a ^^^ b) = _; rw [hf, hg, xor4]

theorem Lin.zero {f : BitVec n → BitVec m} (hf : Lin f) : f 0#n = 0#m := by
  have := hf 0#n 0#n
  rw [BitVec.xor_self] at this
  rw [this, BitVec.xor_self]

theorem getLsbD_one_shl (i t : Nat) : (1#n <<< i).getLsbD t = decide (t = i ∧ t < n) := by
  rw [BitVec.getLsbD_shiftLeft, BitVec.getLsbD_one]
  rcases Nat.lt_trichotomy t i with h | h | h
  · rw [decide_eq_true h, decide_eq_false (p := t = i ∧ t < n) (by omega)]; simp
  · subst h; by_cases h : t < n <;> simp [h]; omega
  · rw [decide_eq_false (p := t = i ∧ t < n) (by omega), decide_eq_false (p := t - i = 0) (by omega)]; simp

theorem lin_ext {f g : BitVec n → BitVec m} (hf : Lin f) (hg : Lin g) (h : ∀ i, i < n → f (1#n <<< i) = g (1#n <<< i)) (v : BitVec n) : f v = g v := by
  have key : ∀ t, t ≤ n → ∀ v : BitVec n, (∀ i, t ≤ i → v.getLsbD i = false) → f v = g v := by
    intro t
    induction t with
    | zero =>
      intro _ v hv
      have : v = 0#n := by
        apply BitVec.eq_of_getLsbD_eq
        intro i _
        rw [hv i (Nat.zero_le _)]
        simp
      rw [this, hf.zero, hg.zero]
    | succ t ih =>
      intro ht v hv
      cases hb : v.getLsbD t with
      | false =>
        refine ih (by omega) v fun i hi => ?_
        rcases Nat.lt_or_ge t i with h | h
        · exact hv i h
        · rw [show i = t by omega, hb]
      | true =>
        have e : v = (v ^^^ 1#n <<< t) ^^^ 1#n <<< t := by
          rw [BitVec.xor_assoc, BitVec.xor_self, BitVec.xor_zero]
        rw [e, hf, hg, h t (by omega), ih (by omega) (v ^^^ 1#n <<< t) fun i hi => ?_]
        rw [BitVec.getLsbD_xor]
        rcases Nat.lt_or_ge t i with h | h
        · rw [hv i h, getLsbD_one_shl, decide_eq_false (by omega)]; rfl
        · rw [show i = t by omega, hb, getLsbD_one_shl, decide_eq_true (by omega)]; rfl
  exact key n (Nat.le_refl _) v fun i hi => BitVec.getLsbD_of_ge _ _ hi

theorem lin_low : Lin low := fun a b => by simp only [low]; exact BitVec.extractLsb'_xor
theorem lin_high : Lin high := fun a b => by simp only [high]; exact BitVec.extractLsb'_xor
theorem lin_shl (s : Nat) : Lin (fun v : BitVec n => v <<< s) := fun a b => BitVec.shiftLeft_xor_distrib a b s
theorem lin_shr (s : Nat) : Lin (fun v : BitVec n => v >>> s) := fun a b => BitVec.ushiftRight_xor_distrib a b s
theorem Lin.append {f : BitVec n → BitVec m} {g : BitVec n → BitVec k} (hf : Lin f) (hg : Lin g) : Lin (fun v => f v ++ g v) := by
  intro a b
  show f (a ^^^ b) ++ g (a ^^^ b) = _
  rw [hf, hg, BitVec.xor_append]

theorem lin_slli_epi64 (s : Nat) : Lin (fun v => slli_epi64 v s) :=
  ((lin_shl s).comp lin_high).append ((lin_shl s).comp lin_low)
theorem lin_srli_epi64 (s : Nat) : Lin (fun v => srli_epi64 v s) :=
  ((lin_shr s).comp lin_high).append ((lin_shr s).comp lin_low)
theorem lin_slli_si128 (s : Nat) : Lin (fun v => slli_si128 v s) := lin_shl _
theorem lin_srli_si128 (s : Nat) : Lin (fun v => srli_si128 v s) := lin_shr _
theorem lin_shl' (s : Nat) : Lin (fun v => shl v s) := (lin_slli_epi64 s).xor ((lin_slli_si128 8).comp (lin_srli_epi64 (64 - s)))
theorem lin_shr' (s : Nat) : Lin (fun v => shr v s) := (lin_srli_epi64 s).xor ((lin_srli_si128 8).comp (lin_slli_epi64 (64 - s)))

/-! ## The carry-less product -/

def pick (b : Bool) (v : BitVec n) : BitVec n := if b then v else 0#n

theorem pick_xor (a b : Bool) (v : BitVec n) : pick (a ^^ b) v = pick a v ^^^ pick b v := by
  cases a <;> cases b <;> simp [pick]

theorem pick_lin (a : Bool) : Lin (pick a : BitVec n → BitVec n) := by
  intro v w
  cases a <;> simp [pick]

def clsum (a b : BitVec 64) : Nat → BitVec 128
  | 0 => 0#128
  | i + 1 => clsum a b i ^^^ pick (a.getLsbD i) (b.setWidth 128 <<< i)

theorem clmul_eq (a b : BitVec 64) : clmul a b = clsum a b 64 := by
  have key : ∀ n, (List.range n).foldl (fun acc i => if a.getLsbD i then acc ^^^ (b.setWidth 128 <<< i) else acc) 0 = clsum a b n := by
    intro n
    induction n with
    | zero => rfl
    | succ n ih =>
      rw [List.range_succ, List.foldl_append, ih]
      simp only [List.foldl_cons, List.foldl_nil, clsum]
      cases a.getLsbD n <;> simp [pick]
  exact key 64

theorem lin_clmul_left (b : BitVec 64) : Lin (fun a => clmul a b) := by
  have : ∀ n, Lin (fun a => clsum a b n) := by
    intro n
    induction n with
    | zero => intro _ _; exact (BitVec.xor_self (x := 0#128)).symm
    | succ n ih =>
      refine ih.xor fun v w => ?_
      simp only [BitVec.getLsbD_xor, pick_xor]
  intro v w
  simp only [clmul_eq]
  exact this 64 v w

theorem lin_clmul_right (a : BitVec 64) : Lin (clmul a) := by
  have : ∀ n, Lin (fun b => clsum a b n) := by
    intro n
    induction n with
    | zero => intro _ _; exact (BitVec.xor_self (x := 0#128)).symm
    | succ n ih =>
      refine ih.xor ((pick_lin _).comp fun v w => ?_)
      simp only [BitVec.setWidth_xor, BitVec.shiftLeft_xor_distrib]
  intro v w
  simp only [clmul_eq]
  exact this 64 v w

theorem clmul_zero_left (b : BitVec 64) : clmul 0#64 b = 0#128 := (lin_clmul_left b).zero
theorem clmul_zero_right (a : BitVec 64) : clmul a 0#64 = 0#128 := (lin_clmul_right a).zero

theorem clmul_basis (i j : Nat) (hi : i < 64) (hj : j < 64) : clmul (1#64 <<< i) (1#64 <<< j) = 1#128 <<< (i + j) := by
  have e : (1#64 <<< j).setWidth 128 = 1#128 <<< j := by
    apply BitVec.eq_of_getLsbD_eq
    intro t ht
    rw [BitVec.getLsbD_setWidth, getLsbD_one_shl, getLsbD_one_shl, decide_eq_true ht, Bool.true_and]
    congr 1
    exact propext (by omega)
  have key : ∀ n, clsum (1#64 <<< i) (1#64 <<< j) n = pick (decide (i < n)) (1#128 <<< (i + j)) := by
    intro n
    induction n with
    | zero => rfl
    | succ n ih =>
      have hb : (1#64 <<< i).getLsbD n = decide (n = i) := by
        rw [getLsbD_one_shl]
        congr 1
        exact propext (by omega)
      rw [clsum, ih, hb, e]
      rcases Nat.lt_trichotomy n i with h | h | h
      · rw [decide_eq_false (by omega), decide_eq_false (by omega), decide_eq_false (by omega)]; simp [pick]
      · subst h
        rw [decide_eq_false (by omega), decide_eq_true rfl, decide_eq_true (by omega), Nat.add_comm, BitVec.shiftLeft_add]
        simp [pick]
      · rw [decide_eq_true (by omega), decide_eq_false (by omega), decide_eq_true (by omega)]; simp [pick]
  rw [clmul_eq, key, decide_eq_true hi]
  rfl

theorem lin_clmulepi64_left (h : Vec) (imm : Nat) : Lin (fun v => clmulepi64 v h imm) := by
  unfold clmulepi64
  split
  · exact (lin_clmul_left _).comp lin_high
  · exact (lin_clmul_left _).comp lin_low

theorem lin_clmulepi64_right (v : Vec) (imm : Nat) : Lin (fun h => clmulepi64 v h imm) := by
  unfold clmulepi64
  split
  · split
    · exact (lin_clmul_right _).comp lin_high
    · exact (lin_clmul_right _).comp lin_low
  · split
    · exact (lin_clmul_right _).comp lin_high
    · exact (lin_clmul_right _).comp lin_low

/-! ## Products -/

theorem lin_pl_left (h : Vec) : Lin (fun v => (multiply v h).1) := by
  have z0 := lin_clmulepi64_left h 0x11
  have z2 := lin_clmulepi64_left h 0
  have z1 := ((((lin_clmulepi64_left (srli_si128 h 8 ^^^ h) 0).comp ((lin_srli_si128 8).xor .id))).xor z0).xor z2
  exact z0.xor ((lin_srli_si128 8).comp z1)

theorem lin_ph_left (h : Vec) : Lin (fun v => (multiply v h).2) := by
  have z0 := lin_clmulepi64_left h 0x11
  have z2 := lin_clmulepi64_left h 0
  have z1 := ((((lin_clmulepi64_left (srli_si128 h 8 ^^^ h) 0).comp ((lin_srli_si128 8).xor .id))).xor z0).xor z2
  exact z2.xor ((lin_slli_si128 8).comp z1)

theorem lin_pl_right (v : Vec) : Lin (fun h => (multiply v h).1) := by
  have z0 := lin_clmulepi64_right v 0x11
  have z2 := lin_clmulepi64_right v 0
  have z1 := ((((lin_clmulepi64_right (srli_si128 v 8 ^^^ v) 0).comp ((lin_srli_si128 8).xor .id))).xor z0).xor z2
  exact z0.xor ((lin_srli_si128 8).comp z1)

theorem lin_ph_right (v : Vec) : Lin (fun h => (multiply v h).2) := by
  have z0 := lin_clmulepi64_right v 0x11
  have z2 := lin_clmulepi64_right v 0
  have z1 := ((((lin_clmulepi64_right (srli_si128 v 8 ^^^ v) 0).comp ((lin_srli_si128 8).xor .id))).xor z0).xor z2
  exact z2.xor ((lin_slli_si128 8).comp z1)

/-- Linear in both arguments -/
theorem reduce_xor (a b c d : Vec) : reduce (a ^^^ b) (c ^^^ d) = reduce a c ^^^ reduce b d := by
  have hd : Lin (fun ph => shl ph 1 ^^^ (slli_epi64 (slli_si128 (shl ph 1) 8) 62 ^^^ slli_epi64 (slli_si128 (shl ph 1) 8) 57)) :=
    (lin_shl' 1).xor (((lin_slli_epi64 62).comp ((lin_slli_si128 8).comp (lin_shl' 1))).xor
      ((lin_slli_epi64 57).comp ((lin_slli_si128 8).comp (lin_shl' 1))))
  have hl : Lin (fun pl => shl pl 1) := lin_shl' 1
  have ht : Lin (fun ph => srli_si128 (srli_epi64 ph 63) 8) := (lin_srli_si128 8).comp (lin_srli_epi64 63)
  have he := (lin_shr' 1).comp hd
  have hf := (lin_shr' 2).comp hd
  have hg := (lin_shr' 7).comp hd
  unfold reduce
  simp only
  have hl := hl a b
  have ht := ht c d
  have he := he c d
  have hf := hf c d
  have hg := hg c d
  have hd := hd c d
  simp only at hl ht hd he hf hg
  rw [hl, ht, he, hf, hg, hd]
  generalize shl a 1 = x1
  generalize shl b 1 = x2
  generalize srli_si128 (srli_epi64 c 63) 8 = x3
  generalize srli_si128 (srli_epi64 d 63) 8 = x4
  generalize shl c 1 ^^^ _ = x5
  generalize shl d 1 ^^^ _ = x6
  generalize shr x5 1 = x7
  generalize shr x5 2 = x8
  generalize shr x5 7 = x9
  generalize shr x6 1 = x10
  generalize shr x6 2 = x11
  generalize shr x6 7 = x12
  ac_rfl

theorem lin_gmul_left (h : Vec) : Lin (fun v => gmul v h) := by
  intro a b
  show reduce (multiply (a ^^^ b) h).1 (multiply (a ^^^ b) h).2 = _
  have h1 := lin_pl_left h a b
  have h2 := lin_ph_left h a b
  simp only at h1 h2
  rw [h1, h2, reduce_xor]
  rfl

theorem lin_gmul_right (v : Vec) : Lin (gmul v) := by
  intro a b
  show reduce (multiply v (a ^^^ b)).1 (multiply v (a ^^^ b)).2 = _
  have h1 := lin_pl_right v a b
  have h2 := lin_ph_right v a b
  simp only at h1 h2
  rw [h1, h2, reduce_xor]
  rfl

theorem halves (i : Nat) (hi : i < 128) :
    low (1#128 <<< i) = (if i < 64 then 1#64 <<< i else 0#64) ∧ high (1#128 <<< i) = (if i < 64 then 0#64 else 1#64 <<< (i - 64)) ∧
    low (srli_si128 (1#128 <<< i) 8 ^^^ 1#128 <<< i) = 1#64 <<< (i % 64) := by
  have : ∀ i, i < 128 → low (1#128 <<< i) = (if i < 64 then 1#64 <<< i else 0#64) ∧ high (1#128 <<< i) = (if i < 64 then 0#64 else 1#64 <<< (i - 64)) ∧
    low (srli_si128 (1#128 <<< i) 8 ^^^ 1#128 <<< i) = 1#64 <<< (i % 64) := by decide +kernel
  exact this i hi

/-- The product of two powers as two vectors -/
theorem multiply_basis (i j : Nat) (hi : i < 128) (hj : j < 128) :
    multiply (1#128 <<< i) (1#128 <<< j) = if i + j < 128 then (0#128, 1#128 <<< (i + j)) else (1#128 <<< (i + j - 128), 0#128) := by
  obtain ⟨a1, a2, a3⟩ := halves i hi
  obtain ⟨b1, b2, b3⟩ := halves j hj
  have fin : ∀ k, k < 127 → srli_si128 (1#128 <<< k) 8 = (if k < 64 then 0#128 else 1#128 <<< (k - 64)) ∧
      slli_si128 (1#128 <<< k) 8 = (if k < 64 then 1#128 <<< (k + 64) else 0#128) := by decide +kernel
  have z1 : clmulepi64 (srli_si128 (1#128 <<< i) 8 ^^^ 1#128 <<< i) (srli_si128 (1#128 <<< j) 8 ^^^ 1#128 <<< j) 0 = 1#128 <<< (i % 64 + j % 64) := by
    show clmul (low _) (low _) = _
    rw [a3, b3, clmul_basis _ _ (Nat.mod_lt _ (by decide)) (Nat.mod_lt _ (by decide))]
  have zz : srli_si128 0#128 8 = 0#128 ∧ slli_si128 0#128 8 = 0#128 := by decide
  simp only [multiply, z1]
  by_cases h1 : i < 64 <;> by_cases h2 : j < 64
  · have z0 : clmulepi64 (1#128 <<< i) (1#128 <<< j) 0x11 = 0#128 := by
      show clmul (high _) (high _) = _
      rw [a2, if_pos h1, clmul_zero_left]
    have z2 : clmulepi64 (1#128 <<< i) (1#128 <<< j) 0 = 1#128 <<< (i + j) := by
      show clmul (low _) (low _) = _
      rw [a1, b1, if_pos h1, if_pos h2, clmul_basis _ _ h1 h2]
    rw [z0, z2, Nat.mod_eq_of_lt h1, Nat.mod_eq_of_lt h2, BitVec.xor_zero, BitVec.xor_self, zz.1, zz.2, if_pos (by omega), BitVec.xor_zero,
      BitVec.xor_zero]
  · have z0 : clmulepi64 (1#128 <<< i) (1#128 <<< j) 0x11 = 0#128 := by
      show clmul (high _) (high _) = _
      rw [a2, if_pos h1, clmul_zero_left]
    have z2 : clmulepi64 (1#128 <<< i) (1#128 <<< j) 0 = 0#128 := by
      show clmul (low _) (low _) = _
      rw [b1, if_neg h2, clmul_zero_right]
    obtain ⟨f1, f2⟩ := fin (i + j - 64) (by omega)
    rw [z0, z2, show i % 64 + j % 64 = i + j - 64 by omega, BitVec.xor_zero, BitVec.xor_zero, f1, f2, BitVec.zero_xor, BitVec.zero_xor]
    split
    · rw [if_pos (by omega), show i + j - 64 + 64 = i + j by omega]
    · rw [if_neg (by omega), show i + j - 64 - 64 = i + j - 128 by omega]
  · have z0 : clmulepi64 (1#128 <<< i) (1#128 <<< j) 0x11 = 0#128 := by
      show clmul (high _) (high _) = _
      rw [b2, if_pos h2, clmul_zero_right]
    have z2 : clmulepi64 (1#128 <<< i) (1#128 <<< j) 0 = 0#128 := by
      show clmul (low _) (low _) = _
      rw [a1, if_neg h1, clmul_zero_left]
    obtain ⟨f1, f2⟩ := fin (i + j - 64) (by omega)
    rw [z0, z2, show i % 64 + j % 64 = i + j - 64 by omega, BitVec.xor_zero, BitVec.xor_zero, f1, f2, BitVec.zero_xor, BitVec.zero_xor]
    split
    · rw [if_pos (by omega), show i + j - 64 + 64 = i + j by omega]
    · rw [if_neg (by omega), show i + j - 64 - 64 = i + j - 128 by omega]
  · have z0 : clmulepi64 (1#128 <<< i) (1#128 <<< j) 0x11 = 1#128 <<< (i + j - 128) := by
      show clmul (high _) (high _) = _
      rw [a2, b2, if_neg h1, if_neg h2, clmul_basis _ _ (by omega) (by omega), show i - 64 + (j - 64) = i + j - 128 by omega]
    have z2 : clmulepi64 (1#128 <<< i) (1#128 <<< j) 0 = 0#128 := by
      show clmul (low _) (low _) = _
      rw [a1, if_neg h1, clmul_zero_left]
    rw [z0, z2, show i % 64 + j % 64 = i + j - 128 by omega, BitVec.xor_self, BitVec.xor_zero, zz.1, zz.2, if_neg (by omega), BitVec.xor_zero,
      BitVec.xor_zero]

/-! ## The product of the standard -/

theorem lin_V (i : Nat) : Lin (fun y => V y i) := by
  induction i with
  | zero => exact Lin.id
  | succ i ih =>
    intro a b
    simp only [Ghash.V_succ]
    rw [show V (a ^^^ b) i = V a i ^^^ V b i from ih a b, Ghash.mulX_xor]

theorem lin_mul_right (x : Vec) : Lin (mul x) := by
  have : ∀ n, Lin (fun y => Z x y n) := by
    intro n
    induction n with
    | zero => intro _ _; exact (BitVec.xor_self (x := 0#128)).symm
    | succ n ih =>
      intro a b
      simp only [Ghash.Z_succ]
      rw [show Z x (a ^^^ b) n = Z x a n ^^^ Z x b n from ih a b, show V (a ^^^ b) n = V a n ^^^ V b n from lin_V n a b, Ghash.sel_xor_right, xor4]
  exact this 128

theorem lin_mul_left (y : Vec) : Lin (fun x => mul x y) := by
  have : ∀ n, Lin (fun x => Z x y n) := by
    intro n
    induction n with
    | zero => intro _ _; exact (BitVec.xor_self (x := 0#128)).symm
    | succ n ih =>
      intro a b
      simp only [Ghash.Z_succ]
      rw [show Z (a ^^^ b) y n = Z a y n ^^^ Z b y n from ih a b, bit, BitVec.getLsbD_xor, Ghash.sel_xor, xor4]
      rfl
  exact this 128

theorem mul_basis (i : Nat) (hi : i < 128) (y : Vec) : mul (1#128 <<< i) y = V y (127 - i) := by
  have key : ∀ n, n ≤ 128 → Z (1#128 <<< i) y n = Ghash.sel (decide (127 - i < n)) (V y (127 - i)) := by
    intro n
    induction n with
    | zero => intro _; rfl
    | succ n ih =>
      intro hn
      rw [Ghash.Z_succ, ih (by omega)]
      have hb : bit (1#128 <<< i) n = decide (n = 127 - i) := by
        rw [bit, getLsbD_one_shl]
        congr 1
        exact propext (by omega)
      rw [hb]
      rcases Nat.lt_trichotomy n (127 - i) with h | h | h
      · rw [decide_eq_false (by omega), decide_eq_false (by omega), decide_eq_false (by omega)]; simp [Ghash.sel]
      · rw [decide_eq_false (by omega), decide_eq_true h, decide_eq_true (by omega), h]; simp [Ghash.sel]
      · rw [decide_eq_true (by omega), decide_eq_false (by omega), decide_eq_true (by omega)]; simp [Ghash.sel]
  rw [mul, key 128 (Nat.le_refl _), decide_eq_true (by omega)]
  rfl

/-- The product of powers with exponents of sum `k` -/
def red (k : Nat) : Vec := if k < 128 then reduce 0#128 (1#128 <<< k) else reduce (1#128 <<< (k - 128)) 0#128

theorem gmul_basis (i j : Nat) (hi : i < 128) (hj : j < 128) : gmul (1#128 <<< i) (1#128 <<< j) = red (i + j) := by
  unfold gmul
  rw [multiply_basis i j hi hj, red]
  by_cases h : i + j < 128
  · rw [if_pos h, if_pos h]
  · rw [if_neg h, if_neg h]

theorem red_high (k : Nat) (h : k < 128) : red (127 + k) = 1#128 <<< k := by
  have : ∀ k, k < 128 → red (127 + k) = 1#128 <<< k := by decide +kernel
  exact this k h

theorem red_step (k : Nat) (h : k < 254) : Ghash.mulX (red (k + 1)) = red k := by
  have : ∀ k, k < 254 → Ghash.mulX (red (k + 1)) = red k := by decide +kernel
  exact this k h

theorem V_basis (n j k : Nat) (hj : j < 128) (h : n + k = 127 + j) : V (1#128 <<< j) n = red k := by
  induction n generalizing k with
  | zero => rw [show k = 127 + j by omega, red_high j hj]; rfl
  | succ n ih => rw [Ghash.V_succ, ih (k + 1) (by omega), red_step k (by omega)]

theorem gmul_eq (v h : Vec) : gmul v h = mul v h := by
  refine lin_ext (lin_gmul_left h) (lin_mul_left h) (fun i hi => ?_) v
  refine lin_ext (lin_gmul_right _) (lin_mul_right _) (fun j hj => ?_) h
  rw [gmul_basis i j hi hj, mul_basis i hi, V_basis (127 - i) j (i + j) hj (by omega)]

/-! ## Bytes -/

def leNat (b : Block) : Nat := b.foldr (fun x n => x.toNat + 256 * n) 0

theorem leNat_snoc (a : Block) (y : UInt8) : leNat (a ++ [y]) = leNat a + 256 ^ a.length * y.toNat := by
  induction a with
  | nil => simp [leNat]
  | cons z a iha =>
    have e : ∀ l, leNat (z :: l) = z.toNat + 256 * leNat l := fun _ => rfl
    rw [List.cons_append, e, e, iha, List.length_cons, pow_succ]
    ring

theorem leNat_reverse (b : Block) : leNat b.reverse = beNat b := by
  induction b with
  | nil => rfl
  | cons x b ih =>
    rw [List.reverse_cons, leNat_snoc, ih, List.length_reverse, beNat_cons]
    ring

theorem leNat_lt (b : Block) : leNat b < 256 ^ b.length := by
  have := Ghash.beNat_lt b.reverse
  rw [← leNat_reverse, List.reverse_reverse, List.length_reverse] at this
  exact this

theorem load_reverse (b : Block) : load b.reverse = ofBytes b := by
  show BitVec.ofNat 128 (leNat _) = BitVec.ofNat 128 (beNat b)
  rw [leNat_reverse]

theorem leNat_byte (b : Block) (k : Nat) : leNat b / 256 ^ k % 256 = (b.getD k 0).toNat := by
  induction b generalizing k with
  | nil => simp [leNat]
  | cons x b ih =>
    have e : leNat (x :: b) = x.toNat + 256 * leNat b := rfl
    have hx := x.toNat_lt
    cases k with
    | zero => rw [e]; simp
    | succ k =>
      rw [pow_succ, Nat.mul_comm, ← Nat.div_div_eq_div_mul, e, show (x.toNat + 256 * leNat b) / 256 = leNat b by omega, ih]
      simp

theorem byte_toNat (v : Vec) (k : Nat) : (byte v k).toNat = v.toNat / 256 ^ k % 256 := by
  rw [byte, BitVec.extractLsb'_toNat, Nat.shiftRight_eq_div_pow, UInt8.toNat_ofNat', Ghash.pow256]
  simp

theorem byte_load (b : Block) (hb : b.length = 16) (k : Nat) : byte (load b) k = b.getD k 0 := by
  have h := leNat_lt b
  rw [hb] at h
  rw [← UInt8.toNat_inj, ← leNat_byte, byte_toNat]
  show (BitVec.ofNat 128 (leNat b)).toNat / _ % _ = _
  rw [BitVec.toNat_ofNat, Nat.mod_eq_of_lt (show leNat b < 2 ^ 128 from h)]

theorem byteswap_load (b : Block) (hb : b.length = 16) : byteswap (load b) = ofBytes b := by
  rw [← load_reverse]
  unfold byteswap shuffle_epi8
  refine congrArg load ?_
  have e : byteswapShuffle = (List.range 16).map fun i => UInt8.ofNat (15 - i) := by decide
  rw [e, List.map_map]
  apply List.ext_getElem
  · simp [hb]
  · intro i h1 h2
    simp only [List.length_map, List.length_range] at h1
    simp only [List.getElem_map, List.getElem_range, Function.comp_apply, List.getElem_reverse]
    have hi : ∀ i, i < 16 → ¬ (UInt8.ofNat (15 - i) ≥ 128) ∧ (UInt8.ofNat (15 - i)).toNat % 16 = 15 - i := by decide
    rw [if_neg (hi i h1).1, (hi i h1).2, byte_load b hb, List.getD_eq_getElem?_getD, List.getElem?_eq_getElem (by omega)]
    simp only [Option.getD_some]
    congr 1
    omega

theorem load_store (v : Vec) : load (store v) = v := by
  have key : ∀ n, leNat ((List.range n).map (byte v)) = v.toNat % 256 ^ n := by
    intro n
    induction n with
    | zero => simp [leNat, Nat.mod_one]
    | succ n ih =>
      rw [List.range_succ, List.map_append, List.map_cons, List.map_nil, leNat_snoc, ih, byte_toNat, List.length_map, List.length_range, pow_succ, Nat.mod_mul]
  apply BitVec.eq_of_toNat_eq
  show (BitVec.ofNat 128 (leNat ((List.range 16).map (byte v)))).toNat = _
  rw [key, BitVec.toNat_ofNat]
  have := v.isLt
  rw [Nat.mod_eq_of_lt (show v.toNat < 256 ^ 16 by norm_num at this ⊢; exact this), Nat.mod_eq_of_lt this]

theorem store_length (v : Vec) : (store v).length = 16 := by simp [store]

theorem byteswap_eq (v : Vec) : byteswap v = load (store v).reverse := by
  conv => lhs; rw [← load_store v]
  rw [byteswap_load _ (store_length v), load_reverse]

theorem store_byteswap (v : Vec) : ofBytes (store (byteswap v)) = v := by
  rw [← byteswap_load _ (store_length _), load_store, byteswap_eq v, byteswap_load _ (by simp [store_length]), ← load_reverse, List.reverse_reverse,
    load_store]

/-! ## The hash -/

theorem digestLoop_eq (key : Block) (hk : key.length = 16) (shift : Bool) (inp : List UInt8) (n i : Nat) (out : Block) (ho : out.length = 16) :
    digestLoop (init key shift) inp n i (ofBytes out) = (Ghash.digestLoop (Ghash.init key shift) inp n i out).map ofBytes ∧
      ∀ o, Ghash.digestLoop (Ghash.init key shift) inp n i out = .ok o → o.length = 16 := by
  induction n generalizing i out with
  | zero => exact ⟨rfl, fun o h => by cases h; exact ho⟩
  | succ n ih =>
    rw [digestLoop, Ghash.digestLoop]
    cases hb : inBlock inp i with
    | error e => exact ⟨rfl, fun o h => by cases h⟩
    | ok b =>
      have hl : b.length = 16 := by
        unfold inBlock at hb
        split at hb
        · cases hb; simp; omega
        · cases hb
      simp only [bind, Except.bind]
      have hx := Ghash.xor_length out b ho hl
      obtain ⟨m1, m2⟩ := Ghash.mulH_eq key hk shift (Ghash.xor out b) hx
      obtain ⟨i1, i2⟩ := ih (i + 1) _ m1
      refine ⟨?_, i2⟩
      rw [← i1, m2, Ghash.ofBytes_xor _ _ ho hl, byteswap_load _ hl]
      show digestLoop _ _ _ _ (gmul _ (byteswap (load key))) = _
      rw [gmul_eq, byteswap_load _ hk]

/-- C48 for the second implementation: for every key and all inputs, both implementations give the same result (including failures). -/
theorem C48_pclmulqdq (key : Block) (hk : key.length = 16) (shift : Bool) (inp : List UInt8) (length : Nat) :
    digest (init key shift) inp length = Ghash.digest (Ghash.init key shift) inp length := by
  obtain ⟨d1, d2⟩ := digestLoop_eq key hk shift inp ((length + 15) / 16) 0 zero rfl
  unfold digest Ghash.digest
  rw [Ghash.zero_eq] at d1
  simp only [d1, makeSizeVec, show (init key shift).shiftSize = shift from rfl, show (Ghash.init key shift).shiftSize = shift from rfl,
    show (init key shift).H = byteswap (load key) from rfl]
  cases hd : Ghash.digestLoop (Ghash.init key shift) inp ((length + 15) / 16) 0 zero with
  | error e => rfl
  | ok o =>
    have ho := d2 o hd
    simp only [Except.map, bind, Except.bind]
    cases hs : makeSize length shift with
    | error e => rfl
    | ok sz =>
      have hsz : sz.length = 16 := by
        unfold makeSize at hs
        split at hs
        · cases hs
        · cases hs; split <;> simp [htonlBytes]
      have hx := Ghash.xor_length o sz ho hsz
      obtain ⟨m1, m2⟩ := Ghash.mulH_eq key hk shift _ hx
      simp only [pure, Except.pure]
      refine congrArg Except.ok ?_
      apply ofBytes_inj _ _ (store_length _) m1
      rw [store_byteswap, m2, gmul_eq, byteswap_load _ hsz, byteswap_load _ hk, Ghash.ofBytes_xor _ _ ho hsz]

/-- The test case of Props/Ghash -/
example :
    let h : Block := [0x66, 0xe9, 0x4b, 0xd4, 0xef, 0x8a, 0x2c, 0x3b, 0x88, 0x4c, 0xfa, 0x59, 0xca, 0x34, 0x2b, 0x2e]
    let c : Block := [0x03, 0x88, 0xda, 0xce, 0x60, 0xb6, 0xa3, 0x92, 0xf3, 0x28, 0xc2, 0xb9, 0x71, 0xb2, 0xfe, 0x78]
    digest (init h false) c 16 =
      .ok [0xf3, 0x8c, 0xbb, 0x1a, 0xd6, 0x92, 0x23, 0xdc, 0xc3, 0x45, 0x7a, 0xe5, 0xb6, 0xb0, 0xf8, 0x85] ∧
    gmul 0x66e94bd4ef8a2c3b884cfa59ca342b2e 0x80000000000000000000000000000000 = 0x66e94bd4ef8a2c3b884cfa59ca342b2e := by
  decide +kernel

end Fastd.Crypto.GhashClmul
