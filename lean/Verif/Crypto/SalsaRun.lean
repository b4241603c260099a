import Verif.Crypto.SalsaOut

/-!
# Runs of the Salsa20 implementation

Lemmas: what each block of the program does, and the two loops that do the rounds.
-/

namespace Fastd.Crypto.SalsaXmm

open Spec.Salsa20 (Words expand hash doublerounds doubleround word stream byte)

/-! ## Steps -/

/-- Running from one block goes on with another one. -/
def Reach (L : Layout) (R : UInt64) (l : Label) (s : St) (l' : Label) (s' : St) : Prop :=
  ∃ k, ∀ n, run L (prog R) (k + n) l s = run L (prog R) n l' s'

variable {L : Layout} {R : UInt64} {l l' l'' : Label} {s s' s'' : St}

theorem Reach.refl : Reach L R l s l s := ⟨0, fun n => by rw [Nat.zero_add]⟩

theorem Reach.trans (h : Reach L R l s l' s') (h' : Reach L R l' s' l'' s'') : Reach L R l s l'' s'' := by
  obtain ⟨k, h⟩ := h
  obtain ⟨k', h'⟩ := h'
  exact ⟨k + k', fun n => by rw [Nat.add_assoc, h, h']⟩

theorem reach_jmp (he : (prog R l).2 = .jmp l') (hs : s' = execs L s (prog R l).1) (hok : s'.ok = true) : Reach L R l s l' s' := by
  refine ⟨1, fun n => ?_⟩
  rw [Nat.add_comm, run, ← hs]
  simp only [hok, he]
  rfl

theorem reach_jcc (c : Cond) (yes no : Label) (f : UInt64 × UInt64) (he : (prog R l).2 = .jcc c yes no) (hs : s' = execs L s (prog R l).1)
    (hok : s'.ok = true) (hf : s'.flags = some f) (hl : l' = if c.holds f then yes else no) : Reach L R l s l' s' := by
  refine ⟨1, fun n => ?_⟩
  rw [Nat.add_comm, run, ← hs]
  simp only [hok, he, hf, hl]
  rfl

/-! ## Words in the frame -/

/-- The words of the next block -/
def fdiag (f : Nat → UInt32) : Words := ⟨f 12, f 1, f 6, f 11, f 8, f 13, f 2, f 7, f 4, f 9, f 14, f 3, f 0, f 5, f 10, f 15⟩

/-- The words that are there four times -/
def Bcast (f : Nat → UInt32) : Prop :=
  ∀ l, l < 4 → f (28 + l) = f 12 ∧ f (44 + l) = f 1 ∧ f (56 + l) = f 6 ∧ f (68 + l) = f 11 ∧ f (60 + l) = f 8 ∧ f (16 + l) = f 13 ∧ f (32 + l) = f 2 ∧
    f (48 + l) = f 7 ∧ f (20 + l) = f 14 ∧ f (36 + l) = f 3 ∧ f (40 + l) = f 0 ∧ f (52 + l) = f 5 ∧ f (64 + l) = f 10 ∧ f (24 + l) = f 15

theorem broadcast_diag (v : VSt UInt32) : fdiag (vexecs u32 v broadcast).f = fdiag v.f := rfl

theorem broadcast_bcast (v : VSt UInt32) : Bcast (vexecs u32 v broadcast).f := by
  intro l hl
  match l, hl with
  | 0, _ => exact ⟨rfl, rfl, rfl, rfl, rfl, rfl, rfl, rfl, rfl, rfl, rfl, rfl, rfl, rfl⟩
  | 1, _ => exact ⟨rfl, rfl, rfl, rfl, rfl, rfl, rfl, rfl, rfl, rfl, rfl, rfl, rfl, rfl⟩
  | 2, _ => exact ⟨rfl, rfl, rfl, rfl, rfl, rfl, rfl, rfl, rfl, rfl, rfl, rfl, rfl, rfl⟩
  | 3, _ => exact ⟨rfl, rfl, rfl, rfl, rfl, rfl, rfl, rfl, rfl, rfl, rfl, rfl, rfl, rfl⟩

/-- The words of block `l` of four in the frame -/
def flane (f : Nat → UInt32) (l : Nat) : Words :=
  ⟨f (28 + l), f (44 + l), f (56 + l), f (68 + l), f (60 + l), f (16 + l), f (32 + l), f (48 + l), f (72 + l), f (76 + l), f (20 + l), f (36 + l), f (40 + l),
    f (52 + l), f (64 + l), f (24 + l)⟩

theorem load4_lane (v : VSt UInt32) (l : Nat) : (lane (vexecs u32 v load4) l).words = flane v.f l := rfl

theorem broadcast_frame (v : VSt UInt32) (j : Nat) (h : 88 ≤ j) : (vexecs u32 v broadcast).f j = v.f j := by
  apply vexecs_frame
  have key : ∀ i ∈ broadcast, ∀ k ∈ i.writes, k < 88 := by decide +kernel
  intro i hi hj
  have := key i hi j hj
  omega

theorem load4_frame (v : VSt UInt32) : (vexecs u32 v load4).f = v.f := rfl

/-! ## First block -/

/-- The registers of the caller in the frame -/
def Saved (regs : Nat → UInt64) (f : Nat → UInt32) : Prop :=
  join (f 88) (f 89) = regs r11 ∧ join (f 90) (f 91) = regs r12 ∧ join (f 92) (f 93) = regs r13 ∧ join (f 94) (f 95) = regs r14 ∧
  join (f 96) (f 97) = regs r15 ∧ join (f 98) (f 99) = regs rbx ∧ join (f 100) (f 101) = regs rbp

theorem saved_congr {regs : Nat → UInt64} {f f' : Nat → UInt32} (h : ∀ j, 88 ≤ j ∧ j < 102 → f j = f' j) (hs : Saved regs f') : Saved regs f := by
  unfold Saved
  rw [h 88 (by omega), h 89 (by omega), h 90 (by omega), h 91 (by omega), h 92 (by omega), h 93 (by omega), h 94 (by omega), h 95 (by omega),
    h 96 (by omega), h 97 (by omega), h 98 (by omega), h 99 (by omega), h 100 (by omega), h 101 (by omega)]
  exact hs

theorem entry_exec (L : Layout) (dst : Region) (len : UInt64) (regs : Nat → UInt64) (v : VSt UInt32) (mem : Mem) (s : St)
    (hs : s = execs L (initial dst len regs v mem) (save ++ entry)) :
    s.ok = true ∧ s.flags = some (len, 0) ∧ s.mem = mem ∧ s.gpr rdi = .ptr dst 0 ∧ s.gpr rsi = .ptr .input 0 ∧ s.gpr r9 = .num len ∧
    s.gpr rdx = .ptr .nonce 0 ∧ s.gpr r10 = .ptr .key 0 ∧ Saved regs s.v.f := by
  subst hs
  refine ⟨rfl, rfl, rfl, rfl, rfl, rfl, rfl, rfl, ?_⟩
  exact ⟨join_halves _, join_halves _, join_halves _, join_halves _, join_halves _, join_halves _, join_halves _⟩

theorem restore_exec (L : Layout) (s : St) (regs : Nat → UInt64) (h : Saved regs s.v.f) :
    (execs L s restore).ok = s.ok ∧ (execs L s restore).mem = s.mem ∧ ∀ r, r11 ≤ r → r ≤ rbp → (execs L s restore).gpr r = .num (regs r) := by
  obtain ⟨h0, h1, h2, h3, h4, h5, h6⟩ := h
  refine ⟨rfl, rfl, ?_⟩
  intro r ha hb
  have hr : r = 8 ∨ r = 9 ∨ r = 10 ∨ r = 11 ∨ r = 12 ∨ r = 13 ∨ r = 14 := by
    unfold r11 at ha
    unfold rbp at hb
    omega
  rcases hr with rfl | rfl | rfl | rfl | rfl | rfl | rfl
  · exact congrArg Val.num h0
  · exact congrArg Val.num h1
  · exact congrArg Val.num h2
  · exact congrArg Val.num h3
  · exact congrArg Val.num h4
  · exact congrArg Val.num h5
  · exact congrArg Val.num h6

theorem setR_self (s : St) (d : Nat) (x : Val) (h : s.gpr d = x) : s.setR d x = s := by
  cases s with
  | mk g v m f o =>
    simp only [St.setR, St.mk.injEq, and_true]
    funext r
    by_cases hr : r = d
    · subst hr
      rw [if_pos rfl]
      exact h.symm
    · rw [if_neg hr]

theorem setup_exec (dst : Region) (len : Nat) (s : St) (n : UInt64) (h9 : s.gpr r9 = .num n) (hk : s.gpr r10 = .ptr .key 0) (hn : s.gpr rdx = .ptr .nonce 0)
    (s' : St) (hs' : s' = execs (layout dst len) s setup) :
    s'.ok = s.ok ∧ s'.mem = s.mem ∧ s'.flags = some (n, 256) ∧ s'.gpr r9 = .num n ∧ s'.gpr rsi = s.gpr rsi ∧ s'.gpr rdi = s.gpr rdi ∧
    fdiag s'.v.f = expand (s.mem .key) (s.mem .nonce) 0 ∧ ∀ j, 88 ≤ j → s'.v.f j = s.v.f j := by
  unfold r9 at h9
  unfold r10 at hk
  unfold rdx at hn
  subst hs'
  simp [execs, setup, Instr.exec, St.setR, VSt.setW, h9, hk, hn, fdiag, expand, layout, rax, rcx, rdx, rsi, rdi, r8, r9, r10, r11]
  refine ⟨⟨rfl, rfl, rfl, rfl, rfl, rfl, rfl, rfl, rfl, rfl⟩, ?_⟩
  intro j hj
  have key : ∀ k, k < 88 → j ≠ k := fun k hk => by omega
  simp [key 0 (by decide), key 1 (by decide), key 2 (by decide), key 3 (by decide), key 4 (by decide), key 5 (by decide), key 6 (by decide),
    key 7 (by decide), key 8 (by decide), key 9 (by decide), key 10 (by decide), key 11 (by decide), key 12 (by decide), key 13 (by decide),
    key 14 (by decide), key 15 (by decide)]

/-! ## Numbers of blocks -/

theorem ofNat_succ (b : Nat) : UInt64.ofNat b + 1 = UInt64.ofNat (b + 1) := by
  apply UInt64.toNat_inj.1
  simp

theorem ofNat_hi (b : Nat) (h : b < 2 ^ 64) : UInt64.ofNat b >>> 32 = UInt64.ofNat (b / 2 ^ 32) := by
  apply UInt64.toNat_inj.1
  simp only [UInt64.toNat_shiftRight, UInt64.toNat_ofNat']
  rw [show (32 : UInt64).toNat % 64 = 32 from rfl, Nat.shiftRight_eq_div_pow]
  omega

theorem ofNat_lo (b : Nat) : (UInt64.ofNat b).toUInt32 = UInt32.ofNat b := by
  apply UInt32.toNat_inj.1
  simp only [UInt64.toNat_toUInt32, UInt64.toNat_ofNat', UInt32.toNat_ofNat']
  omega

theorem ofNat_widen (b : Nat) (h : b < 2 ^ 32) : (UInt32.ofNat b).toUInt64 = UInt64.ofNat b := by
  apply UInt64.toNat_inj.1
  simp only [UInt32.toNat_toUInt64, UInt64.toNat_ofNat', UInt32.toNat_ofNat']
  omega

/-- One addition -/
theorem hi_zero (b : Nat) (h : b < 2 ^ 32) : UInt64.ofNat b >>> 32 = 0 := by
  rw [ofNat_hi b (by omega), Nat.div_eq_of_lt h]
  rfl

/-- Adding one to a number whose halves are apart -/
def bump (x y : UInt64) : UInt64 := x + UInt64.ofNat 1 + y <<< 32

theorem bump_eq (b : Nat) : bump (UInt64.ofNat b) 0 = UInt64.ofNat (b + 1) := by
  unfold bump
  rw [show (0 : UInt64) <<< 32 = 0 by decide, UInt64.add_zero]
  exact ofNat_succ b

set_option linter.unusedSimpArgs false in
theorem counters_exec (L : Layout) (s : St) (R n : UInt64) (b : Nat) (hb : b + 4 ≤ 2 ^ 32) (h4 : s.v.f 4 = UInt32.ofNat b) (h9 : s.v.f 9 = 0)
    (hr : s.gpr r9 = .num n) (s' : St) (hs' : s' = execs L s (counters R)) :
    s'.ok = s.ok ∧ s'.mem = s.mem ∧ s'.gpr rdx = .num R ∧ s'.gpr rsi = s.gpr rsi ∧ s'.gpr rdi = s.gpr rdi ∧
    (∀ l, l < 4 → s'.v.f (72 + l) = UInt32.ofNat (b + l) ∧ s'.v.f (76 + l) = 0) ∧
    s'.v.f 4 = UInt32.ofNat (b + 4) ∧ s'.v.f 9 = UInt32.ofNat ((b + 4) / 2 ^ 32) ∧ join (s'.v.f 102) (s'.v.f 103) = n ∧
    (∀ j, j < 72 ∨ 88 ≤ j ∧ j < 102 → j ≠ 4 → j ≠ 9 → s'.v.f j = s.v.f j) := by
  have e0 : (s.v.f 4).toUInt64 = UInt64.ofNat b := by rw [h4]; exact ofNat_widen b (by omega)
  have e9 : (s.v.f 9).toUInt64 = 0 := by rw [h9]; rfl
  have z : (0 : UInt64) <<< 32 = 0 := by decide
  have b1 := ofNat_succ b
  have b2 := ofNat_succ (b + 1)
  have b3 := ofNat_succ (b + 2)
  have b4 := ofNat_succ (b + 3)
  have e1 := hi_zero (b + 1) (by omega)
  have e2 := hi_zero (b + 2) (by omega)
  have e3 := hi_zero (b + 3) (by omega)
  have e4 := ofNat_hi (b + 4) (by omega)
  have o1 : UInt64.ofNat 1 = 1 := rfl
  unfold r9 at hr
  simp only [execs, counters, List.foldl_cons, List.foldl_nil, Instr.exec, St.setR, VSt.setW, rax, rcx, rdx, rsi, rdi, r8, r9, r10, r11, hr, e0, e9, z, b1, b2, b3, b4,
    e1, e2, e3, e4, UInt64.add_zero, o1, ite_true, ite_false, reduceIte, Nat.reduceEqDiff, Nat.reduceAdd] at hs'
  subst hs'
  refine ⟨rfl, rfl, rfl, rfl, rfl, ?_, ?_, ?_, ?_, ?_⟩
  · intro l hl
    match l, hl with
    | 0, _ => exact ⟨by simp [ofNat_lo], by simp⟩
    | 1, _ => exact ⟨by simp [ofNat_lo], by simp⟩
    | 2, _ => exact ⟨by show (UInt64.ofNat (b + 2)).toUInt32 = _; exact ofNat_lo _, by simp⟩
    | 3, _ => exact ⟨by show (UInt64.ofNat (b + 3)).toUInt32 = _; exact ofNat_lo _, by simp⟩
  · show (UInt64.ofNat (b + 4)).toUInt32 = _
    exact ofNat_lo _
  · show (UInt64.ofNat ((b + 4) / 2 ^ 32)).toUInt32 = _
    exact ofNat_lo _
  · simp [join_halves]
  · intro j hj n4 n9
    have a1 : j ≠ 72 := by omega
    have a2 : j ≠ 73 := by omega
    have a3 : j ≠ 74 := by omega
    have a4 : j ≠ 75 := by omega
    have a5 : j ≠ 76 := by omega
    have a6 : j ≠ 77 := by omega
    have a7 : j ≠ 78 := by omega
    have a8 : j ≠ 79 := by omega
    have a9 : j ≠ 102 := by omega
    have a10 : j ≠ 103 := by omega
    simp [n4, n9, a1, a2, a3, a4, a5, a6, a7, a8, a9, a10]

/-! ## Rounds -/

theorem doublerounds_succ (n : Nat) (x : Words) : doublerounds (n + 1) x = doubleround (doublerounds n x) := by
  induction n generalizing x with
  | zero => rfl
  | succ n ih =>
    show doublerounds (n + 1) (doubleround x) = _
    rw [ih]
    rfl

/-- Vector instructions, then a subtraction -/
theorem v_subI (L : Layout) (s : St) (l : List VI) (n : UInt64) (d : Nat) (m : UInt64) (h : s.gpr d = .num m) :
    execs L s (l.map .v ++ [.subI n d]) = { s with v := vexecs u32 s.v l, gpr := fun r => if r = d then .num (m - n) else s.gpr r, flags := some (m, n) } := by
  rw [execs_append, execs_v]
  simp only [execs, List.foldl_cons, List.foldl_nil, Instr.exec, h]
  rfl

theorem sub_small (n k : Nat) (h : k + n < 2 ^ 64) : UInt64.ofNat (k + n) - UInt64.ofNat k = UInt64.ofNat n := by
  apply UInt64.toNat_inj.1
  rw [UInt64.toNat_sub_of_le]
  · simp only [UInt64.toNat_ofNat']
    omega
  · rw [UInt64.le_iff_toNat_le]
    simp only [UInt64.toNat_ofNat']
    omega

theorem lt_ofNat (a b : Nat) (ha : a < 2 ^ 64) (hb : b < 2 ^ 64) : (UInt64.ofNat a < UInt64.ofNat b) ↔ a < b := by
  rw [UInt64.lt_iff_toNat_lt]
  simp only [UInt64.toNat_ofNat']
  omega

theorem le_ofNat (a b : Nat) (ha : a < 2 ^ 64) (hb : b < 2 ^ 64) : (UInt64.ofNat a ≤ UInt64.ofNat b) ↔ a ≤ b := by
  rw [UInt64.le_iff_toNat_le]
  simp only [UInt64.toNat_ofNat']
  omega

/-- The rounds for four blocks -/
theorem loop1 (n : Nat) : ∀ (s : St), n < 1000 → s.ok = true → s.gpr rdx = .num (UInt64.ofNat (2 + 2 * n)) →
    ∃ s', Reach L R .mainloop1 s .out4 s' ∧ s'.ok = true ∧ s'.mem = s.mem ∧ (∀ r, r ≠ rdx → s'.gpr r = s.gpr r) ∧
      (∀ j, j < 80 ∨ 88 ≤ j → s'.v.f j = s.v.f j) ∧ ∀ l, l < 4 → (lane s'.v l).words = doublerounds (n + 1) (lane s.v l).words := by
  induction n with
  | zero =>
    intro s _ hok hd
    have he := v_subI L s mainloop1 2 rdx _ hd
    refine ⟨_, reach_jcc .ja .mainloop1 .out4 (2, 2) rfl he.symm hok rfl rfl, hok, rfl, ?_, ?_, ?_⟩
    · intro r hr
      exact if_neg hr
    · intro j hj
      exact mainloop1_frame u32 s.v j hj
    · intro l hl
      show (lane (vexecs u32 s.v mainloop1) l).words = _
      rw [lane_mainloop1 u32 s.v l hl, drO_u32]
      rfl
  | succ n ih =>
    intro s hn hok hd
    have he := v_subI L s mainloop1 2 rdx _ hd
    have hr := reach_jcc (L := L) (R := R) (l := .mainloop1) .ja .mainloop1 .out4 (UInt64.ofNat (2 + 2 * (n + 1)), 2) rfl he.symm hok rfl rfl
    rw [if_pos (by
      show decide (UInt64.ofNat 2 < UInt64.ofNat (2 + 2 * (n + 1))) = true
      rw [decide_eq_true_eq, lt_ofNat _ _ (by omega) (by omega)]
      omega)] at hr
    obtain ⟨s', h1, h2, h3, h4, h5, h6⟩ := ih (s := { s with
      v := vexecs u32 s.v mainloop1, gpr := fun r => if r = rdx then .num (UInt64.ofNat (2 + 2 * (n + 1)) - 2) else s.gpr r,
      flags := some (UInt64.ofNat (2 + 2 * (n + 1)), 2) }) (by omega) hok (by
        show Val.num (UInt64.ofNat (2 + 2 * (n + 1)) - UInt64.ofNat 2) = _
        rw [sub_small _ _ (by omega), show 2 * (n + 1) = 2 + 2 * n by omega])
    refine ⟨s', hr.trans h1, h2, h3, ?_, ?_, ?_⟩
    · intro r hr
      rw [h4 r hr]
      exact if_neg hr
    · intro j hj
      rw [h5 j hj]
      exact mainloop1_frame u32 s.v j hj
    · intro l hl
      rw [h6 l hl]
      show doublerounds (n + 1) (lane (vexecs u32 s.v mainloop1) l).words = _
      rw [lane_mainloop1 u32 s.v l hl, drO_u32]
      rfl

/-- The instructions of `mainloop2` -/
theorem mainloop2_exec (L : Layout) (s : St) (m : UInt64) (h : s.gpr rcx = .num m) :
    execs L s (mainloop2a.map .v ++ [.subI 4 rcx] ++ mainloop2b.map .v) =
      { s with v := vexecs u32 s.v mainloop2, gpr := fun r => if r = rcx then .num (m - 4) else s.gpr r, flags := some (m, 4) } := by
  rw [execs_append, v_subI L s mainloop2a 4 rcx m h, execs_v]
  show _ = { s with v := vexecs u32 s.v (mainloop2a ++ mainloop2b), gpr := _, flags := _ }
  rw [vexecs_append]

/-- The rounds for one block -/
theorem loop2 (n : Nat) : ∀ (s : St), n < 1000 → s.ok = true → s.gpr rcx = .num (UInt64.ofNat (4 + 4 * n)) → s.v.x 4 = s.v.x 1 →
    ∃ s', Reach L R .mainloop2 s .out1 s' ∧ s'.ok = true ∧ s'.mem = s.mem ∧ (∀ r, r ≠ rcx → s'.gpr r = s.gpr r) ∧
      s'.v.f = s.v.f ∧ (diag s'.v).words = doublerounds (2 * (n + 1)) (diag s.v).words := by
  induction n with
  | zero =>
    intro s _ hok hd h4
    have he := mainloop2_exec L s _ hd
    refine ⟨_, reach_jcc .ja .mainloop2 .out1 (4, 4) rfl he.symm hok rfl rfl, hok, rfl, ?_, ?_, ?_⟩
    · intro r hr
      exact if_neg hr
    · exact mainloop2_frame u32 s.v
    · show (diag (vexecs u32 s.v mainloop2)).words = _
      rw [diag_mainloop2 u32 s.v h4, drO_u32, drO_u32]
      rfl
  | succ n ih =>
    intro s hn hok hd h4
    have he := mainloop2_exec L s _ hd
    have hr := reach_jcc (L := L) (R := R) (l := .mainloop2) .ja .mainloop2 .out1 (UInt64.ofNat (4 + 4 * (n + 1)), 4) rfl he.symm hok rfl rfl
    rw [if_pos (by
      show decide (UInt64.ofNat 4 < UInt64.ofNat (4 + 4 * (n + 1))) = true
      rw [decide_eq_true_eq, lt_ofNat _ _ (by omega) (by omega)]
      omega)] at hr
    obtain ⟨s', h1, h2, h3, h5, h6, h7⟩ := ih (s := { s with
      v := vexecs u32 s.v mainloop2, gpr := fun r => if r = rcx then .num (UInt64.ofNat (4 + 4 * (n + 1)) - 4) else s.gpr r,
      flags := some (UInt64.ofNat (4 + 4 * (n + 1)), 4) }) (by omega) hok (by
        show Val.num (UInt64.ofNat (4 + 4 * (n + 1)) - UInt64.ofNat 4) = _
        rw [sub_small _ _ (by omega), show 4 * (n + 1) = 4 + 4 * n by omega]) (mainloop2_4 u32 s.v)
    refine ⟨s', hr.trans h1, h2, h3, ?_, ?_, ?_⟩
    · intro r hr
      rw [h5 r hr]
      exact if_neg hr
    · rw [h6]
      exact mainloop2_frame u32 s.v
    · rw [h7]
      show doublerounds (2 * (n + 1)) (diag (vexecs u32 s.v mainloop2)).words = _
      rw [diag_mainloop2 u32 s.v h4, drO_u32, drO_u32]
      rfl

end Fastd.Crypto.SalsaXmm
