import Verif.Crypto.SalsaX86
import Verif.Crypto.SalsaOut

/-!
# Rounds and writing the result in the 32-bit Salsa20 implementation

Lemmas: the loops compute double rounds; `out4` and the first part of `out1` consist of similar groups of instructions (`Verif.Crypto.SalsaOut`).
-/

namespace Fastd.Crypto.SalsaX86

open SalsaXmm (VI VSt Ops u32 vexecs Region Mem Layout load32 store32 X16 stepO qrO rowO colO drO drO_u32 diag Done done_nil done_load done_store Chunk Four shuffle vexecs_append vexecs_frame
  AllWords allKs vcodes)

/-! ## Rounds -/

section
variable {W : Type}

/-! Double rounds, with the two halves of rotated words combined in the other order than in `Verif.Crypto.SalsaVec` -/

def stepR (O : Ops W) (k : Nat) (d t : W) : W := O.xor (O.xor d (O.shr (32 - k) t)) (O.shl k t)

def qrR (O : Ops W) (a b c d : W) : W × W × W × W :=
  let b := stepR O 7 b (O.add d a)
  let c := stepR O 9 c (O.add a b)
  let d := stepR O 13 d (O.add b c)
  let a := stepR O 18 a (O.add c d)
  (a, b, c, d)

def colR (O : Ops W) (y : X16 W) : X16 W :=
  let (x0, x4, x8, x12) := qrR O y.x0 y.x4 y.x8 y.x12
  let (x5, x9, x13, x1) := qrR O y.x5 y.x9 y.x13 y.x1
  let (x10, x14, x2, x6) := qrR O y.x10 y.x14 y.x2 y.x6
  let (x15, x3, x7, x11) := qrR O y.x15 y.x3 y.x7 y.x11
  ⟨x0, x1, x2, x3, x4, x5, x6, x7, x8, x9, x10, x11, x12, x13, x14, x15⟩

def rowR (O : Ops W) (y : X16 W) : X16 W :=
  let (x0, x1, x2, x3) := qrR O y.x0 y.x1 y.x2 y.x3
  let (x5, x6, x7, x4) := qrR O y.x5 y.x6 y.x7 y.x4
  let (x10, x11, x8, x9) := qrR O y.x10 y.x11 y.x8 y.x9
  let (x15, x12, x13, x14) := qrR O y.x15 y.x12 y.x13 y.x14
  ⟨x0, x1, x2, x3, x4, x5, x6, x7, x8, x9, x10, x11, x12, x13, x14, x15⟩

def drR (O : Ops W) (y : X16 W) : X16 W := rowR O (colR O y)

/-- Where the words of block `l` are in `mainloop1` -/
def lane (s : VSt W) (l : Nat) : X16 W :=
  ⟨s.x 0 l, s.f (116 + l), s.f (128 + l), s.f (104 + l), s.x 3 l, s.f (88 + l), s.f (108 + l), s.f (120 + l), s.x 1 l, s.f (132 + l), s.f (92 + l), s.f (112 + l), s.x 2 l,
    s.f (124 + l), s.f (100 + l), s.f (96 + l)⟩

set_option maxRecDepth 100000 in
theorem lane_mainloop1_0 (O : Ops W) (s : VSt W) : lane (vexecs O s mainloop1) 0 = drR O (lane s 0) := rfl
set_option maxRecDepth 100000 in
theorem lane_mainloop1_1 (O : Ops W) (s : VSt W) : lane (vexecs O s mainloop1) 1 = drR O (lane s 1) := rfl
set_option maxRecDepth 100000 in
theorem lane_mainloop1_2 (O : Ops W) (s : VSt W) : lane (vexecs O s mainloop1) 2 = drR O (lane s 2) := rfl
set_option maxRecDepth 100000 in
theorem lane_mainloop1_3 (O : Ops W) (s : VSt W) : lane (vexecs O s mainloop1) 3 = drR O (lane s 3) := rfl

theorem lane_mainloop1 (O : Ops W) (s : VSt W) (l : Nat) (h : l < 4) : lane (vexecs O s mainloop1) l = drR O (lane s l) := by
  match l, h with
  | 0, _ => exact lane_mainloop1_0 O s
  | 1, _ => exact lane_mainloop1_1 O s
  | 2, _ => exact lane_mainloop1_2 O s
  | 3, _ => exact lane_mainloop1_3 O s

/-- At the end of the loop, the words that are in registers are in the frame as well. -/
def Spilled (s : VSt W) : Prop := ∀ l, l < 4 → s.f (136 + l) = s.x 0 l ∧ s.f (140 + l) = s.x 3 l ∧ s.f (152 + l) = s.x 1 l ∧ s.f (144 + l) = s.x 2 l

set_option maxRecDepth 100000 in
theorem mainloop1_spilled (O : Ops W) (s : VSt W) : Spilled (vexecs O s mainloop1) := by
  intro l hl
  match l, hl with
  | 0, _ => exact ⟨rfl, rfl, rfl, rfl⟩
  | 1, _ => exact ⟨rfl, rfl, rfl, rfl⟩
  | 2, _ => exact ⟨rfl, rfl, rfl, rfl⟩
  | 3, _ => exact ⟨rfl, rfl, rfl, rfl⟩

/-- The loop leaves the words below 88 alone. -/
theorem mainloop1_frame (O : Ops W) (s : VSt W) (j : Nat) (h : j < 88) : (vexecs O s mainloop1).f j = s.f j := by
  apply vexecs_frame
  have key : ∀ i ∈ mainloop1, ∀ k ∈ i.writes, 88 ≤ k := by decide +kernel
  intro i hi hj
  have := key i hi j hj
  omega

def mainloop2 : List VI := mainloop2a ++ mainloop2b

/-- The loop for single blocks is that of the 64-bit implementation. -/
theorem mainloop2_same : mainloop2 = SalsaXmm.mainloop2 := by decide +kernel

end

theorem stepR_u32 (k : Nat) (d t : UInt32) : stepR u32 k d t = stepO u32 k d t := by
  show (d ^^^ (t >>> UInt32.ofNat (32 - k))) ^^^ (t <<< UInt32.ofNat k) = (d ^^^ (t <<< UInt32.ofNat k)) ^^^ (t >>> UInt32.ofNat (32 - k))
  rw [UInt32.xor_assoc, UInt32.xor_assoc, UInt32.xor_comm (t >>> UInt32.ofNat (32 - k))]

theorem qrR_u32 (a b c d : UInt32) : qrR u32 a b c d = qrO u32 a b c d := by
  unfold qrR qrO
  simp only [stepR_u32]

theorem drR_u32 (x : X16 UInt32) : (drR u32 x).words = Spec.Salsa20.doubleround x.words := by
  rw [← drO_u32]
  unfold drR drO rowR rowO colR colO
  simp only [qrR_u32]

end Fastd.Crypto.SalsaX86
