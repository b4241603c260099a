import Verif.Crypto.SalsaX86Chunk

/-!
# Runs of the 32-bit Salsa20 implementation

Lemmas: what each block of the program does, and the two loops that do the rounds.
-/

namespace Fastd.Crypto.SalsaX86

open SalsaXmm (VI VSt u32 vexecs Region Mem Layout Cond layout diag vexecs_append vexecs_frame diag_mainloop2 mainloop2_4 drO_u32)
open Spec.Salsa20 (Words expand hash doublerounds doubleround word stream byte)

/-! ## Steps -/

/-- Running from one block goes on with another one. -/
def Reach (L : Layout) (R : UInt32) (l : Label) (s : St) (l' : Label) (s' : St) : Prop :=
  ∃ k, ∀ n, run L (prog R) (k + n) l s = run L (prog R) n l' s'

variable {L : Layout} {R : UInt32} {l l' l'' : Label} {s s' s'' : St}

theorem Reach.refl : Reach L R l s l s := ⟨0, fun n => by rw [Nat.zero_add]⟩

theorem Reach.trans (h : Reach L R l s l' s') (h' : Reach L R l' s' l'' s'') : Reach L R l s l'' s'' := by
  obtain ⟨k, h⟩ := h
  obtain ⟨k', h'⟩ := h'
  exact ⟨k + k', fun n => by rw [Nat.add_assoc, h, h']⟩

theorem reach_jmp (he : (prog R l).2 = .jmp l') (hs : s' = execs L s (prog R l).1) (hok : s'.ok = true) : Reach L R l s l' s' := by
  refine ⟨1, fun n => ?_⟩
  rw [Nat.add_comm, run, ← hs]
  simp only [hok, he]
  rfl

theorem reach_jcc (c : Cond) (yes no : Label) (a b : UInt32) (he : (prog R l).2 = .jcc c yes no) (hs : s' = execs L s (prog R l).1)
    (hok : s'.ok = true) (hf : s'.flags = .cmp a b) (hl : l' = if holds a b c then yes else no) : Reach L R l s l' s' := by
  refine ⟨1, fun n => ?_⟩
  rw [Nat.add_comm, run, ← hs]
  simp only [hok, he, hf, hl]
  rfl

/-! ## Words in the frame -/

/-- The words of the next block -/
def fdiag (f : Nat → UInt32) : Words :=
  ⟨f 16, f 13, f 22, f 11, f 8, f 17, f 14, f 23, f 20, f 9, f 18, f 15, f 12, f 21, f 10, f 19⟩

/-- The words that are there four times -/
def Bcast (f : Nat → UInt32) : Prop :=
  ∀ l, l < 4 → f (36 + l) = f 16 ∧ f (52 + l) = f 13 ∧ f (64 + l) = f 22 ∧ f (76 + l) = f 11 ∧ f (68 + l) = f 8 ∧ f (24 + l) = f 17 ∧ f (40 + l) = f 14 ∧
    f (56 + l) = f 23 ∧ f (28 + l) = f 18 ∧ f (44 + l) = f 15 ∧ f (48 + l) = f 12 ∧ f (60 + l) = f 21 ∧ f (72 + l) = f 10 ∧ f (32 + l) = f 19

theorem broadcast_diag (v : VSt UInt32) : fdiag (vexecs u32 v broadcast).f = fdiag v.f := rfl

theorem broadcast_bcast (v : VSt UInt32) : Bcast (vexecs u32 v broadcast).f := by
  intro l hl
  match l, hl with
  | 0, _ => exact ⟨rfl, rfl, rfl, rfl, rfl, rfl, rfl, rfl, rfl, rfl, rfl, rfl, rfl, rfl⟩
  | 1, _ => exact ⟨rfl, rfl, rfl, rfl, rfl, rfl, rfl, rfl, rfl, rfl, rfl, rfl, rfl, rfl⟩
  | 2, _ => exact ⟨rfl, rfl, rfl, rfl, rfl, rfl, rfl, rfl, rfl, rfl, rfl, rfl, rfl, rfl⟩
  | 3, _ => exact ⟨rfl, rfl, rfl, rfl, rfl, rfl, rfl, rfl, rfl, rfl, rfl, rfl, rfl, rfl⟩

/-- The words of block `l` of four in the frame -/
def flane (f : Nat → UInt32) (l : Nat) : Words :=
  ⟨f (36 + l), f (52 + l), f (64 + l), f (76 + l), f (68 + l), f (24 + l), f (40 + l), f (56 + l), f (80 + l), f (84 + l), f (28 + l), f (44 + l), f (48 + l),
    f (60 + l), f (72 + l), f (32 + l)⟩

set_option maxRecDepth 100000 in
theorem load4_lane (v : VSt UInt32) (l : Nat) (hl : l < 4) : (lane (vexecs u32 v load4) l).words = flane v.f l := by
  match l, hl with
  | 0, _ => rfl
  | 1, _ => rfl
  | 2, _ => rfl
  | 3, _ => rfl

theorem load4_frame (v : VSt UInt32) (j : Nat) (h : j < 88) : (vexecs u32 v load4).f j = v.f j := by
  apply vexecs_frame
  have key : ∀ i ∈ load4, ∀ k ∈ i.writes, 88 ≤ k := by decide +kernel
  intro i hi hj
  have := key i hi j hj
  omega

/-! ## First block -/

/-- The registers of the caller in the frame -/
def Saved (regs : Nat → UInt32) (f : Nat → Val) : Prop :=
  f 0 = .num (regs eax) ∧ f 1 = .num (regs ebx) ∧ f 2 = .num (regs esi) ∧ f 3 = .num (regs edi) ∧ f 4 = .num (regs ebp)

theorem saved_congr {regs : Nat → UInt32} {f f' : Nat → Val} (h : ∀ j, j < 5 → f j = f' j) (hs : Saved regs f') : Saved regs f := by
  unfold Saved
  rw [h 0 (by omega), h 1 (by omega), h 2 (by omega), h 3 (by omega), h 4 (by omega)]
  exact hs

theorem entry_exec (L : Layout) (dst : Region) (lo hi : UInt32) (regs : Nat → UInt32) (v : VSt UInt32) (slot : Nat → Val) (mem : Mem) (s : St)
    (hs : s = execs L (initial dst lo hi regs v slot mem) (save ++ entry)) :
    s.ok = true ∧ s.flags = .cmp lo 0 ∧ s.mem = mem ∧ s.gpr edi = .ptr dst 0 ∧ s.gpr esi = .ptr .input 0 ∧ s.gpr edx = .num lo ∧
    s.gpr ebx = .ptr .nonce 0 ∧ s.gpr ebp = .ptr .key 0 ∧ Saved regs s.slot := by
  subst hs
  exact ⟨rfl, rfl, rfl, rfl, rfl, rfl, rfl, rfl, rfl, rfl, rfl, rfl, rfl⟩

theorem restore_exec (L : Layout) (s : St) (regs : Nat → UInt32) (h : Saved regs s.slot) :
    (execs L s restore).ok = s.ok ∧ (execs L s restore).mem = s.mem ∧ ∀ r ∈ [eax, ebx, esi, edi, ebp], (execs L s restore).gpr r = .num (regs r) := by
  obtain ⟨h0, h1, h2, h3, h4⟩ := h
  refine ⟨rfl, rfl, ?_⟩
  intro r hr
  simp only [List.mem_cons, List.not_mem_nil, or_false] at hr
  rcases hr with rfl | rfl | rfl | rfl | rfl
  · exact h0
  · exact h1
  · exact h2
  · exact h3
  · exact h4

theorem setup_exec (dst : Region) (len : Nat) (s : St) (n : UInt32) (hd : s.gpr edx = .num n) (hk : s.gpr ebp = .ptr .key 0) (hn : s.gpr ebx = .ptr .nonce 0)
    (s' : St) (hs' : s' = execs (layout dst len) s setup) :
    s'.ok = s.ok ∧ s'.mem = s.mem ∧ s'.flags = .cmp n 256 ∧ s'.gpr eax = .num n ∧ s'.gpr esi = s.gpr esi ∧ s'.gpr edi = s.gpr edi ∧
    fdiag s'.v.f = expand (s.mem .key) (s.mem .nonce) 0 ∧ s'.slot 5 = s.gpr edi ∧ ∀ j, j < 5 → s'.slot j = s.slot j := by
  unfold edx at hd
  unfold ebp at hk
  unfold ebx at hn
  subst hs'
  simp [execs, setup, Instr.exec, St.setR, VSt.setW, hd, hk, hn, fdiag, expand, layout, eax, ecx, edx, ebx, esi, edi, ebp]
  refine ⟨⟨rfl, rfl, rfl, rfl, rfl, rfl, rfl, rfl, rfl, rfl⟩, ?_⟩
  intro j hj
  have a1 : j ≠ 5 := by omega
  have a2 : j ≠ 6 := by omega
  simp [a1, a2]

/-! ## Numbers of blocks -/

theorem ofNat_succ (b : Nat) : UInt32.ofNat b + UInt32.ofNat 1 = UInt32.ofNat (b + 1) := by
  apply UInt32.toNat_inj.1
  simp

theorem no_carry (b : Nat) (h : b + 1 < 2 ^ 32) : decide (2 ^ 32 ≤ (UInt32.ofNat b).toNat + 1) = false := by
  rw [decide_eq_false_iff_not]
  simp only [UInt32.toNat_ofNat']
  omega

set_option linter.unusedSimpArgs false in
theorem counters_exec (L : Layout) (s : St) (R : UInt32) (b : Nat) (hb : b + 4 < 2 ^ 32) (h4 : s.v.f 20 = UInt32.ofNat b) (h9 : s.v.f 9 = 0)
    (s' : St) (hs' : s' = execs L s (counters R)) :
    s'.ok = s.ok ∧ s'.mem = s.mem ∧ s'.gpr eax = .num R ∧ s'.gpr esi = s.gpr esi ∧
    (∀ l, l < 4 → s'.v.f (80 + l) = UInt32.ofNat (b + l) ∧ s'.v.f (84 + l) = 0) ∧
    s'.v.f 20 = UInt32.ofNat (b + 4) ∧ s'.v.f 9 = 0 ∧ s'.slot 6 = s.gpr eax ∧ (∀ j, j ≠ 6 → s'.slot j = s.slot j) ∧
    (∀ j, j < 80 → j ≠ 20 → j ≠ 9 → s'.v.f j = s.v.f j) := by
  have b1 := ofNat_succ b
  have b2 := ofNat_succ (b + 1)
  have b3 := ofNat_succ (b + 2)
  have b4 := ofNat_succ (b + 3)
  have c1 := no_carry b (by omega)
  have c2 := no_carry (b + 1) (by omega)
  have c3 := no_carry (b + 2) (by omega)
  have c4 := no_carry (b + 3) (by omega)
  have z : ((0 : UInt32) + 0 + if false = true then 1 else 0) = 0 := by decide
  simp only [execs, counters, List.foldl_cons, List.foldl_nil, Instr.exec, St.setR, VSt.setW, eax, ecx, edx, ebx, esi, edi, ebp, h4, h9, b1, b2, b3, b4,
    c1, c2, c3, c4, z, reduceIte, Nat.reduceEqDiff, Nat.reduceAdd] at hs'
  subst hs'
  refine ⟨rfl, rfl, rfl, rfl, ?_, rfl, rfl, rfl, ?_, ?_⟩
  · intro l hl
    match l, hl with
    | 0, _ => exact ⟨rfl, rfl⟩
    | 1, _ => exact ⟨rfl, rfl⟩
    | 2, _ => exact ⟨rfl, rfl⟩
    | 3, _ => exact ⟨rfl, rfl⟩
  · intro j hj
    exact if_neg hj
  · intro j hj n4 n9
    have a1 : j ≠ 80 := by omega
    have a2 : j ≠ 81 := by omega
    have a3 : j ≠ 82 := by omega
    have a4 : j ≠ 83 := by omega
    have a5 : j ≠ 84 := by omega
    have a6 : j ≠ 85 := by omega
    have a7 : j ≠ 86 := by omega
    have a8 : j ≠ 87 := by omega
    simp [n4, n9, a1, a2, a3, a4, a5, a6, a7, a8]

/-! ## Rounds -/

/-- Vector instructions, then a subtraction -/
theorem v_subI (L : Layout) (s : St) (l : List VI) (n : UInt32) (d : Nat) (m : UInt32) (h : s.gpr d = .num m) :
    execs L s (l.map .v ++ [.subI n d]) = { s with v := vexecs u32 s.v l, gpr := fun r => if r = d then .num (m - n) else s.gpr r, flags := .cmp m n } := by
  rw [execs_append, execs_v]
  simp only [execs, List.foldl_cons, List.foldl_nil, Instr.exec, h]
  rfl

theorem sub_small (n k : Nat) (h : k + n < 2 ^ 32) : UInt32.ofNat (k + n) - UInt32.ofNat k = UInt32.ofNat n := by
  apply UInt32.toNat_inj.1
  rw [UInt32.toNat_sub_of_le]
  · simp only [UInt32.toNat_ofNat']
    omega
  · rw [UInt32.le_iff_toNat_le]
    simp only [UInt32.toNat_ofNat']
    omega

theorem lt_ofNat (a b : Nat) (ha : a < 2 ^ 32) (hb : b < 2 ^ 32) : (UInt32.ofNat a < UInt32.ofNat b) ↔ a < b := by
  rw [UInt32.lt_iff_toNat_lt]
  simp only [UInt32.toNat_ofNat']
  omega

theorem le_ofNat (a b : Nat) (ha : a < 2 ^ 32) (hb : b < 2 ^ 32) : (UInt32.ofNat a ≤ UInt32.ofNat b) ↔ a ≤ b := by
  rw [UInt32.le_iff_toNat_le]
  simp only [UInt32.toNat_ofNat']
  omega

/-- The instructions of `mainloop1` -/
theorem mainloop1_exec (L : Layout) (s : St) (m : UInt32) (h : s.gpr eax = .num m) (s1 : St) (hs1 : s1 = execs L s (mainloop1.map .v ++ [.subI 2 eax])) :
    s1.v = vexecs u32 s.v mainloop1 ∧ s1.ok = s.ok ∧ s1.mem = s.mem ∧ s1.slot = s.slot ∧ s1.gpr eax = .num (m - 2) ∧ (∀ r, r ≠ eax → s1.gpr r = s.gpr r) ∧
    s1.flags = .cmp m 2 := by
  rw [v_subI L s mainloop1 2 eax m h] at hs1
  generalize vexecs u32 s.v mainloop1 = v at hs1
  subst hs1
  exact ⟨rfl, rfl, rfl, rfl, rfl, fun r hr => if_neg hr, rfl⟩

/-- The rounds for four blocks -/
theorem loop1 (n : Nat) : ∀ (s : St), n < 1000 → s.ok = true → s.gpr eax = .num (UInt32.ofNat (2 + 2 * n)) →
    ∃ s', Reach L R .mainloop1 s .out4 s' ∧ s'.ok = true ∧ s'.mem = s.mem ∧ s'.slot = s.slot ∧ (∀ r, r ≠ eax → s'.gpr r = s.gpr r) ∧
      (∀ j, j < 88 → s'.v.f j = s.v.f j) ∧ Spilled s'.v ∧ ∀ l, l < 4 → (lane s'.v l).words = doublerounds (n + 1) (lane s.v l).words := by
  have ep : (prog R .mainloop1).1 = mainloop1.map .v ++ [.subI 2 eax] := rfl
  induction n with
  | zero =>
    intro s _ hok hd
    obtain ⟨e1, e2, e3, e4, e5, e6, e7⟩ := mainloop1_exec L s _ hd _ rfl
    have hr := reach_jcc (L := L) (R := R) (l := .mainloop1) (l' := .out4) .ja .mainloop1 .out4 _ _ rfl (by rw [ep]) (e2.trans hok) e7 rfl
    generalize execs L s (mainloop1.map .v ++ [.subI 2 eax]) = s1 at *
    refine ⟨s1, hr, e2.trans hok, e3, e4, e6, ?_, ?_, ?_⟩
    · intro j hj
      rw [e1, mainloop1_frame u32 s.v j hj]
    · rw [e1]
      exact mainloop1_spilled u32 s.v
    · intro l hl
      rw [e1, lane_mainloop1 u32 s.v l hl, drR_u32]
      rfl
  | succ n ih =>
    intro s hn hok hd
    obtain ⟨e1, e2, e3, e4, e5, e6, e7⟩ := mainloop1_exec L s _ hd _ rfl
    have hr := reach_jcc (L := L) (R := R) (l := .mainloop1) (l' := .mainloop1) .ja .mainloop1 .out4 _ _ rfl (by rw [ep]) (e2.trans hok) e7 (by
      rw [if_pos]
      show decide (UInt32.ofNat 2 < UInt32.ofNat (2 + 2 * (n + 1))) = true
      rw [decide_eq_true_eq, lt_ofNat _ _ (by omega) (by omega)]
      omega)
    generalize execs L s (mainloop1.map .v ++ [.subI 2 eax]) = s1 at *
    obtain ⟨s', h1, h2, h3, hsl, h4, h5, hsp, h6⟩ := ih s1 (by omega) (e2.trans hok) (by
      rw [e5]
      show Val.num (UInt32.ofNat (2 + 2 * (n + 1)) - UInt32.ofNat 2) = _
      rw [sub_small _ _ (by omega), show 2 * (n + 1) = 2 + 2 * n by omega])
    refine ⟨s', hr.trans h1, h2, h3.trans e3, hsl.trans e4, ?_, ?_, hsp, ?_⟩
    · intro r hr
      rw [h4 r hr, e6 r hr]
    · intro j hj
      rw [h5 j hj, e1, mainloop1_frame u32 s.v j hj]
    · intro l hl
      rw [h6 l hl, e1, lane_mainloop1 u32 s.v l hl, drR_u32]
      rfl

/-- The instructions of `mainloop2` -/
theorem mainloop2_exec (L : Layout) (s : St) (m : UInt32) (h : s.gpr eax = .num m) :
    execs L s (mainloop2a.map .v ++ [.subI 4 eax] ++ mainloop2b.map .v) =
      { s with v := vexecs u32 s.v SalsaXmm.mainloop2, gpr := fun r => if r = eax then .num (m - 4) else s.gpr r, flags := .cmp m 4 } := by
  rw [execs_append, v_subI L s mainloop2a 4 eax m h, execs_v, ← mainloop2_same]
  show _ = { s with v := vexecs u32 s.v (mainloop2a ++ mainloop2b), gpr := _, flags := _ }
  rw [vexecs_append]

/-- The rounds for one block -/
theorem loop2 (n : Nat) : ∀ (s : St), n < 1000 → s.ok = true → s.gpr eax = .num (UInt32.ofNat (4 + 4 * n)) → s.v.x 4 = s.v.x 1 →
    ∃ s', Reach L R .mainloop2 s .out1 s' ∧ s'.ok = true ∧ s'.mem = s.mem ∧ s'.slot = s.slot ∧ (∀ r, r ≠ eax → s'.gpr r = s.gpr r) ∧
      s'.v.f = s.v.f ∧ (diag s'.v).words = doublerounds (2 * (n + 1)) (diag s.v).words := by
  induction n with
  | zero =>
    intro s _ hok hd h4
    have he := mainloop2_exec L s _ hd
    refine ⟨_, reach_jcc .ja .mainloop2 .out1 4 4 rfl he.symm hok rfl rfl, hok, rfl, rfl, ?_, ?_, ?_⟩
    · intro r hr
      exact if_neg hr
    · exact SalsaXmm.mainloop2_frame u32 s.v
    · show (diag (vexecs u32 s.v SalsaXmm.mainloop2)).words = _
      rw [diag_mainloop2 u32 s.v h4, drO_u32, drO_u32]
      rfl
  | succ n ih =>
    intro s hn hok hd h4
    have he := mainloop2_exec L s _ hd
    have hr := reach_jcc (L := L) (R := R) (l := .mainloop2) .ja .mainloop2 .out1 (UInt32.ofNat (4 + 4 * (n + 1))) 4 rfl he.symm hok rfl rfl
    rw [if_pos (by
      show decide (UInt32.ofNat 4 < UInt32.ofNat (4 + 4 * (n + 1))) = true
      rw [decide_eq_true_eq, lt_ofNat _ _ (by omega) (by omega)]
      omega)] at hr
    obtain ⟨s', h1, h2, h3, hsl, h5, h6, h7⟩ := ih (s := { s with
      v := vexecs u32 s.v SalsaXmm.mainloop2, gpr := fun r => if r = eax then .num (UInt32.ofNat (4 + 4 * (n + 1)) - 4) else s.gpr r,
      flags := .cmp (UInt32.ofNat (4 + 4 * (n + 1))) 4 }) (by omega) hok (by
        show Val.num (UInt32.ofNat (4 + 4 * (n + 1)) - UInt32.ofNat 4) = _
        rw [sub_small _ _ (by omega), show 4 * (n + 1) = 4 + 4 * n by omega]) (mainloop2_4 u32 s.v)
    refine ⟨s', hr.trans h1, h2, h3, hsl, ?_, ?_, ?_⟩
    · intro r hr
      rw [h5 r hr]
      exact if_neg hr
    · rw [h6]
      exact SalsaXmm.mainloop2_frame u32 s.v
    · rw [h7]
      show doublerounds (2 * (n + 1)) (diag (vexecs u32 s.v SalsaXmm.mainloop2)).words = _
      rw [diag_mainloop2 u32 s.v h4, drO_u32, drO_u32]
      rfl

end Fastd.Crypto.SalsaX86
