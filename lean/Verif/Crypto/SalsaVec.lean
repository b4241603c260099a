import Verif.Crypto.SalsaXmm
import Verif.Spec.Salsa20

/-!
# Vector code of the Salsa20 implementation: rounds

Lemmas: the loops compute double rounds, for all operations on lanes; with the operations of the processor, these are the ones of the specification.
-/

namespace Fastd.Crypto.SalsaXmm

open Spec.Salsa20 (Words)

variable {W : Type}

/-- 16 words -/
structure X16 (W : Type) where
  (x0 x1 x2 x3 x4 x5 x6 x7 x8 x9 x10 x11 x12 x13 x14 x15 : W)

def stepO (O : Ops W) (k : Nat) (d t : W) : W := O.xor (O.xor d (O.shl k t)) (O.shr (32 - k) t)

def qrO (O : Ops W) (a b c d : W) : W × W × W × W :=
  let b := stepO O 7 b (O.add d a)
  let c := stepO O 9 c (O.add a b)
  let d := stepO O 13 d (O.add b c)
  let a := stepO O 18 a (O.add c d)
  (a, b, c, d)

def colO (O : Ops W) (y : X16 W) : X16 W :=
  let (x0, x4, x8, x12) := qrO O y.x0 y.x4 y.x8 y.x12
  let (x5, x9, x13, x1) := qrO O y.x5 y.x9 y.x13 y.x1
  let (x10, x14, x2, x6) := qrO O y.x10 y.x14 y.x2 y.x6
  let (x15, x3, x7, x11) := qrO O y.x15 y.x3 y.x7 y.x11
  ⟨x0, x1, x2, x3, x4, x5, x6, x7, x8, x9, x10, x11, x12, x13, x14, x15⟩

def rowO (O : Ops W) (y : X16 W) : X16 W :=
  let (x0, x1, x2, x3) := qrO O y.x0 y.x1 y.x2 y.x3
  let (x5, x6, x7, x4) := qrO O y.x5 y.x6 y.x7 y.x4
  let (x10, x11, x8, x9) := qrO O y.x10 y.x11 y.x8 y.x9
  let (x15, x12, x13, x14) := qrO O y.x15 y.x12 y.x13 y.x14
  ⟨x0, x1, x2, x3, x4, x5, x6, x7, x8, x9, x10, x11, x12, x13, x14, x15⟩

def drO (O : Ops W) (y : X16 W) : X16 W := rowO O (colO O y)

/-- Where the words of block `l` are in `mainloop1` -/
def lane (s : VSt W) (l : Nat) : X16 W :=
  ⟨s.x 12 l, s.x 7 l, s.x 10 l, s.x 4 l, s.x 14 l, s.x 0 l, s.x 5 l, s.x 8 l, s.x 15 l, s.x 11 l, s.x 1 l, s.x 6 l, s.x 13 l, s.x 9 l, s.x 3 l, s.x 2 l⟩

/-- Where the words of the block are in `mainloop2` -/
def diag (s : VSt W) : X16 W :=
  ⟨s.x 0 0, s.x 1 1, s.x 2 2, s.x 3 3, s.x 3 0, s.x 0 1, s.x 1 2, s.x 2 3, s.x 2 0, s.x 3 1, s.x 0 2, s.x 1 3, s.x 1 0, s.x 2 1, s.x 3 2, s.x 0 3⟩

def mainloop2 : List VI := mainloop2a ++ mainloop2b

set_option maxRecDepth 100000 in
theorem lane_mainloop1_0 (O : Ops W) (s : VSt W) : lane (vexecs O s mainloop1) 0 = drO O (lane s 0) := rfl
set_option maxRecDepth 100000 in
theorem lane_mainloop1_1 (O : Ops W) (s : VSt W) : lane (vexecs O s mainloop1) 1 = drO O (lane s 1) := rfl
set_option maxRecDepth 100000 in
theorem lane_mainloop1_2 (O : Ops W) (s : VSt W) : lane (vexecs O s mainloop1) 2 = drO O (lane s 2) := rfl
set_option maxRecDepth 100000 in
theorem lane_mainloop1_3 (O : Ops W) (s : VSt W) : lane (vexecs O s mainloop1) 3 = drO O (lane s 3) := rfl

theorem lane_mainloop1 (O : Ops W) (s : VSt W) (l : Nat) (h : l < 4) : lane (vexecs O s mainloop1) l = drO O (lane s l) := by
  match l, h with
  | 0, _ => exact lane_mainloop1_0 O s
  | 1, _ => exact lane_mainloop1_1 O s
  | 2, _ => exact lane_mainloop1_2 O s
  | 3, _ => exact lane_mainloop1_3 O s

theorem setX_self (s : VSt W) (d : Nat) : s.setX d (s.x d) = s := by
  cases s with
  | mk x f =>
    simp only [VSt.setX, VSt.mk.injEq, and_true]
    funext r
    cases h : Nat.beq r d with
    | false => rfl
    | true => rw [Nat.eq_of_beq_eq_true h]; rfl

def half1 : List VI := mainloop2.take 62
def half2 : List VI := mainloop2.drop 62

set_option maxRecDepth 100000 in
theorem diag_half1' (O : Ops W) (s : VSt W) : diag (vexecs O (s.setX 4 (s.x 1)) half1) = drO O (diag s) := rfl
set_option maxRecDepth 100000 in
theorem diag_half2' (O : Ops W) (s : VSt W) : diag (vexecs O (s.setX 4 (s.x 1)) half2) = drO O (diag s) := rfl
set_option maxRecDepth 100000 in
theorem half1_4 (O : Ops W) (s : VSt W) : (vexecs O s half1).x 4 = (vexecs O s half1).x 1 := rfl
set_option maxRecDepth 100000 in
theorem half2_4 (O : Ops W) (s : VSt W) : (vexecs O s half2).x 4 = (vexecs O s half2).x 1 := rfl

theorem diag_half1 (O : Ops W) (s : VSt W) (h : s.x 4 = s.x 1) : diag (vexecs O s half1) = drO O (diag s) := by
  have := diag_half1' O s
  rwa [← h, setX_self] at this

theorem diag_half2 (O : Ops W) (s : VSt W) (h : s.x 4 = s.x 1) : diag (vexecs O s half2) = drO O (diag s) := by
  have := diag_half2' O s
  rwa [← h, setX_self] at this

theorem vexecs_append (O : Ops W) (s : VSt W) (l l' : List VI) : vexecs O s (l ++ l') = vexecs O (vexecs O s l) l' := List.foldl_append ..

theorem mainloop2_eq : mainloop2 = half1 ++ half2 := (List.take_append_drop 62 mainloop2).symm

theorem diag_mainloop2 (O : Ops W) (s : VSt W) (h : s.x 4 = s.x 1) : diag (vexecs O s mainloop2) = drO O (drO O (diag s)) := by
  rw [mainloop2_eq, vexecs_append, diag_half2 O _ (half1_4 O s), diag_half1 O s h]

theorem mainloop2_4 (O : Ops W) (s : VSt W) : (vexecs O s mainloop2).x 4 = (vexecs O s mainloop2).x 1 := by
  rw [mainloop2_eq, vexecs_append]
  exact half2_4 O _

/-! ## Words of the frame that do not change -/

/-- The words an instruction writes -/
def VI.writes : VI → List Nat
  | movdqaSt _ o => [o, o + 1, o + 2, o + 3]
  | _ => []

theorem exec_frame (O : Ops W) (s : VSt W) (i : VI) (j : Nat) (h : j ∉ i.writes) : (i.exec O s).f j = s.f j := by
  cases i <;> try rfl
  case movdqaSt a o =>
    simp only [VI.writes, List.mem_cons, List.not_mem_nil, or_false, not_or] at h
    simp only [VI.exec, VSt.setF]
    cases h1 : Nat.ble o j with
    | false => rfl
    | true =>
      cases h2 : Nat.blt j (o + 4) with
      | false => rfl
      | true =>
        exfalso
        have h1 := Nat.le_of_ble_eq_true h1
        have h2 : j + 1 ≤ o + 4 := Nat.le_of_ble_eq_true h2
        omega

theorem vexecs_frame (O : Ops W) (l : List VI) : ∀ (s : VSt W) (j : Nat), (∀ i ∈ l, j ∉ i.writes) → (vexecs O s l).f j = s.f j := by
  induction l with
  | nil => intro s j _; rfl
  | cons i l ih =>
    intro s j h
    show (vexecs O (i.exec O s) l).f j = s.f j
    rw [ih _ _ fun k hk => h k (List.mem_cons_of_mem _ hk), exec_frame O s i j (h i (List.mem_cons_self ..))]

/-- A list of instructions leaves the words below 80 and above 87 alone -/
theorem mainloop1_frame (O : Ops W) (s : VSt W) (j : Nat) (h : j < 80 ∨ 88 ≤ j) : (vexecs O s mainloop1).f j = s.f j := by
  apply vexecs_frame
  have key : ∀ i ∈ mainloop1, ∀ k ∈ i.writes, 80 ≤ k ∧ k < 88 := by decide +kernel
  intro i hi hj
  have := key i hi j hj
  omega

theorem mainloop2_frame (O : Ops W) (s : VSt W) : (vexecs O s mainloop2).f = s.f := by
  funext j
  apply vexecs_frame
  have key : ∀ i ∈ mainloop2, i.writes = [] := by decide +kernel
  intro i hi hj
  rw [key i hi] at hj
  cases hj

/-! ## The operations of the processor -/

theorem shl_xor_shr (t : UInt32) (k : Nat) (h : 0 < k ∧ k < 32) :
    (t <<< UInt32.ofNat k) ^^^ (t >>> UInt32.ofNat (32 - k)) = Spec.Salsa20.rotl t (UInt32.ofNat k) := by
  unfold Spec.Salsa20.rotl
  have hk : (UInt32.ofNat k).toNat = k := by simp; omega
  have hk' : (32 - UInt32.ofNat k : UInt32) = UInt32.ofNat (32 - k) := by
    apply UInt32.toNat_inj.1
    rw [UInt32.toNat_sub_of_le _ _ (by rw [UInt32.le_iff_toNat_le, hk]; show k ≤ 32; omega), hk]
    simp
    omega
  rw [hk']
  have h2 : (UInt32.ofNat (32 - k)).toNat = 32 - k := by simp; omega
  apply UInt32.toBitVec_inj.1
  apply BitVec.eq_of_getLsbD_eq
  intro i hi
  have e1 : (UInt32.ofNat k).toBitVec % 32 = BitVec.ofNat 32 k := by
    apply BitVec.eq_of_toNat_eq
    rw [BitVec.toNat_umod]
    show (UInt32.ofNat k).toNat % 32 = _
    rw [hk, BitVec.toNat_ofNat]
    omega
  have e2 : (UInt32.ofNat (32 - k)).toBitVec % 32 = BitVec.ofNat 32 (32 - k) := by
    apply BitVec.eq_of_toNat_eq
    rw [BitVec.toNat_umod]
    show (UInt32.ofNat (32 - k)).toNat % 32 = _
    rw [h2, BitVec.toNat_ofNat]
    omega
  simp only [UInt32.toBitVec_xor, UInt32.toBitVec_or, UInt32.toBitVec_shiftLeft, UInt32.toBitVec_shiftRight, BitVec.getLsbD_xor, BitVec.getLsbD_or, e1, e2]
  simp only [BitVec.shiftLeft_eq', BitVec.ushiftRight_eq', BitVec.getLsbD_shiftLeft, BitVec.getLsbD_ushiftRight, BitVec.toNat_ofNat]
  rw [Nat.mod_eq_of_lt (by omega : k < 2 ^ 32), Nat.mod_eq_of_lt (by omega : 32 - k < 2 ^ 32)]
  by_cases hik : i < k
  · simp [hik]
  · have : t.toBitVec.getLsbD (32 - k + i) = false := BitVec.getLsbD_of_ge _ _ (by omega)
    simp [this]

theorem stepO_u32 (k : Nat) (h : 0 < k ∧ k < 32) (d t : UInt32) : stepO u32 k d t = d ^^^ Spec.Salsa20.rotl t (UInt32.ofNat k) := by
  show (d ^^^ (t <<< UInt32.ofNat k)) ^^^ (t >>> UInt32.ofNat (32 - k)) = _
  rw [UInt32.xor_assoc, shl_xor_shr t k h]

/-- The same words -/
def X16.words (x : X16 UInt32) : Words :=
  ⟨x.x0, x.x1, x.x2, x.x3, x.x4, x.x5, x.x6, x.x7, x.x8, x.x9, x.x10, x.x11, x.x12, x.x13, x.x14, x.x15⟩

theorem qrO_u32 (a b c d : UInt32) : qrO u32 a b c d = Spec.Salsa20.quarterround a b c d := by
  unfold qrO Spec.Salsa20.quarterround
  simp only [stepO_u32 7 (by decide), stepO_u32 9 (by decide), stepO_u32 13 (by decide), stepO_u32 18 (by decide)]
  have e : ∀ a b : UInt32, u32.add a b = b + a := fun a b => UInt32.add_comm a b
  simp only [e]
  rfl

theorem drO_u32 (x : X16 UInt32) : (drO u32 x).words = Spec.Salsa20.doubleround x.words := by
  unfold drO rowO colO Spec.Salsa20.doubleround Spec.Salsa20.rowround Spec.Salsa20.columnround
  simp only [qrO_u32]
  rfl

end Fastd.Crypto.SalsaXmm
