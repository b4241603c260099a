import Verif.Crypto.SalsaX86Run
import Verif.Crypto.SalsaMain

/-!
# The 32-bit Salsa20 implementation as a whole

Lemmas: the invariants of the loops over the blocks of the message.
-/

namespace Fastd.Crypto.SalsaX86

open SalsaXmm (VSt u32 vexecs Region Mem Layout Cond layout diag Chunk Four Done copyBytes copyBytes_apply stream_eq mem_step lt16 Place place_tmp place_size place_writable)
open Spec.Salsa20 (Words expand hash doublerounds doubleround word stream byte)

variable {R : UInt32} {regs : Nat → UInt32} {dst : Region} {len : Nat} {m0 : Mem} {dr : Nat}

/-! ## Words of the result -/

/-- Where words of four blocks are -/
def p4 (v : VSt UInt32) (l i : Nat) : UInt32 :=
  v.f ([136, 116, 128, 104, 140, 88, 108, 120, 152, 132, 92, 112, 144, 124, 100, 96].getD i 0 + l) +
  v.f ([36, 52, 64, 76, 68, 24, 40, 56, 80, 84, 28, 44, 48, 60, 72, 32].getD i 0 + l)

theorem p4_eq (v : VSt UInt32) (hv : Spilled v) (l i : Nat) (hl : l < 4) (hi : i < 16) : p4 v l i = ((flane v.f l).add (lane v l).words).toList.getD i 0 := by
  obtain ⟨a0, a4, a8, a12⟩ := hv l hl
  revert i
  apply lt16
  · show v.f (136 + l) + v.f (36 + l) = v.f (36 + l) + v.x 0 l
    rw [a0, UInt32.add_comm]
  · exact UInt32.add_comm _ _
  · exact UInt32.add_comm _ _
  · exact UInt32.add_comm _ _
  · show v.f (140 + l) + v.f (68 + l) = v.f (68 + l) + v.x 3 l
    rw [a4, UInt32.add_comm]
  · exact UInt32.add_comm _ _
  · exact UInt32.add_comm _ _
  · exact UInt32.add_comm _ _
  · show v.f (152 + l) + v.f (80 + l) = v.f (80 + l) + v.x 1 l
    rw [a8, UInt32.add_comm]
  · exact UInt32.add_comm _ _
  · exact UInt32.add_comm _ _
  · exact UInt32.add_comm _ _
  · show v.f (144 + l) + v.f (48 + l) = v.f (48 + l) + v.x 2 l
    rw [a12, UInt32.add_comm]
  · exact UInt32.add_comm _ _
  · exact UInt32.add_comm _ _
  · exact UInt32.add_comm _ _

theorem w1_eq (v : VSt UInt32) (i : Nat) (hi : i < 16) : w1 v i = ((fdiag v.f).add (diag v).words).toList.getD i 0 := by
  revert i
  apply lt16 <;> exact UInt32.add_comm _ _

/-! ## Invariant -/

/-- `b` blocks have been done, `rem` bytes are left. -/
structure Inv (regs : Nat → UInt32) (dst : Region) (len : Nat) (m0 : Mem) (dr : Nat) (b rem : Nat) (s : St) : Prop where
  ok : s.ok = true
  eax : s.gpr eax = .num (UInt32.ofNat rem)
  esi : s.gpr esi = .ptr .input (64 * b)
  edi : s.gpr edi = .ptr dst (64 * b)
  left : 64 * b + rem = len
  frame : fdiag s.v.f = expand (m0 .key) (m0 .nonce) b
  saved : Saved regs s.slot
  mem : ∀ r p, r ≠ .tmp → s.mem r p = if r = dst ∧ p < 64 * b then m0 .input p ^^^ stream dr (m0 .key) (m0 .nonce) p else m0 r p

theorem tail4_exec (L : Layout) (s : St) (rem : Nat) (hrem : 256 ≤ rem) (hr : rem < 2 ^ 32) (h9 : s.slot 6 = .num (UInt32.ofNat rem)) (src : Region) (so : Nat)
    (hs : s.gpr esi = .ptr src so) (d0 : Nat) (hd : s.gpr edi = .ptr dst d0) (s' : St) (hs' : s' = execs L s tail4) :
    s'.ok = s.ok ∧ s'.mem = s.mem ∧ s'.v = s.v ∧ s'.gpr eax = .num (UInt32.ofNat (rem - 256)) ∧ s'.gpr esi = .ptr src (so + 256) ∧
    s'.gpr edi = .ptr dst (d0 + 256) ∧ s'.flags = .cmp (UInt32.ofNat (rem - 256)) 256 ∧ s'.slot 5 = .ptr dst (d0 + 256) ∧ ∀ j, j < 5 → s'.slot j = s.slot j := by
  have e : UInt32.ofNat rem - 256 = UInt32.ofNat (rem - 256) := by
    have := sub_small (rem - 256) 256 (by omega)
    rwa [show 256 + (rem - 256) = rem by omega] at this
  unfold esi at hs
  unfold edi at hd
  simp only [execs, tail4, List.foldl_cons, List.foldl_nil, Instr.exec, St.setR, esi, edi, eax, hs, hd, h9, e, reduceIte, Nat.reduceEqDiff] at hs'
  subst hs'
  refine ⟨rfl, rfl, rfl, rfl, rfl, rfl, rfl, rfl, ?_⟩
  intro j hj
  exact if_neg (by omega)

theorem fdiag_congr (f f' : Nat → UInt32) (h : ∀ j, j < 24 → f j = f' j) : fdiag f = fdiag f' := by
  unfold fdiag
  simp only [h 16 (by omega), h 13 (by omega), h 22 (by omega), h 11 (by omega), h 8 (by omega), h 17 (by omega), h 14 (by omega),
    h 23 (by omega), h 20 (by omega), h 9 (by omega), h 18 (by omega), h 15 (by omega), h 12 (by omega), h 21 (by omega), h 10 (by omega), h 19 (by omega)]

theorem bcast_congr (f f' : Nat → UInt32) (h : ∀ j, j < 80 → j ≠ 20 → j ≠ 9 → f j = f' j) (hb : Bcast f') : Bcast f := by
  intro l hl
  have := hb l hl
  have h' : ∀ j, 24 ≤ j ∧ j < 80 → f j = f' j := fun j hj => h j (by omega) (by omega) (by omega)
  rw [h' (36 + l) (by omega), h' (52 + l) (by omega), h' (64 + l) (by omega), h' (76 + l) (by omega), h' (68 + l) (by omega),
    h' (24 + l) (by omega), h' (40 + l) (by omega), h' (56 + l) (by omega), h' (28 + l) (by omega), h' (44 + l) (by omega), h' (48 + l) (by omega),
    h' (60 + l) (by omega), h' (72 + l) (by omega), h' (32 + l) (by omega), h 16 (by omega) (by omega) (by omega), h 13 (by omega) (by omega) (by omega),
    h 22 (by omega) (by omega) (by omega), h 11 (by omega) (by omega) (by omega), h 8 (by omega) (by omega) (by omega), h 17 (by omega) (by omega) (by omega),
    h 14 (by omega) (by omega) (by omega), h 23 (by omega) (by omega) (by omega), h 18 (by omega) (by omega) (by omega), h 15 (by omega) (by omega) (by omega),
    h 12 (by omega) (by omega) (by omega), h 21 (by omega) (by omega) (by omega), h 10 (by omega) (by omega) (by omega), h 19 (by omega) (by omega) (by omega)]
  exact this

/-- Four blocks -/
theorem step4 (n : Nat) (hn : n < 100) (hp : Place dst) (hlen : len < 2 ^ 32) (b rem : Nat) (s : St) (h : Inv regs dst len m0 (2 * (n + 1)) b rem s) (hb : Bcast s.v.f)
    (h5 : s.slot 5 = .ptr dst (64 * b)) (hrem : 256 ≤ rem) :
    ∃ s', Reach (layout dst len) (UInt32.ofNat (4 + 4 * n)) .atLeast256 s (if 256 ≤ rem - 256 then .atLeast256 else .rest) s' ∧
      Inv regs dst len m0 (2 * (n + 1)) (b + 4) (rem - 256) s' ∧ Bcast s'.v.f ∧ s'.slot 5 = .ptr dst (64 * (b + 4)) := by
  obtain ⟨hok, h9, hsi, hdi, hl, hf, hsv, hm⟩ := h
  have hf' := hf
  simp only [fdiag, expand, Words.mk.injEq] at hf'
  obtain ⟨f0, f1, f2, f3, f4, f5, f6, f7, f8, f9, f10, f11, f12, f13, f14, f15⟩ := hf'
  have hz : ∀ c, c < 2 ^ 32 → UInt32.ofNat (c / 2 ^ 32) = 0 := fun c hc => by rw [Nat.div_eq_of_lt hc]; rfl
  obtain ⟨c1, c2, c3, c4, c6, c7, c8, c9, c9', c10⟩ := counters_exec (layout dst len) s (UInt32.ofNat (4 + 4 * n)) b (by omega) f8
    (by rw [f9, hz b (by omega)]) _ rfl
  generalize hs1 : execs (layout dst len) s (counters (UInt32.ofNat (4 + 4 * n))) = s1 at c1 c2 c3 c4 c6 c7 c8 c9 c9' c10
  -- the frame for four blocks, and for the next one
  have hb1 : Bcast s1.v.f := bcast_congr _ _ c10 hb
  have hd1 : fdiag s1.v.f = expand (m0 .key) (m0 .nonce) (b + 4) := by
    simp only [fdiag, expand, Words.mk.injEq]
    rw [c10 16 (by omega) (by omega) (by omega),
      c10 13 (by omega) (by omega) (by omega), c10 22 (by omega) (by omega) (by omega), c10 11 (by omega) (by omega) (by omega),
      c10 8 (by omega) (by omega) (by omega), c10 17 (by omega) (by omega) (by omega), c10 14 (by omega) (by omega) (by omega),
      c10 23 (by omega) (by omega) (by omega), c10 18 (by omega) (by omega) (by omega), c10 15 (by omega) (by omega) (by omega),
      c10 12 (by omega) (by omega) (by omega), c10 21 (by omega) (by omega) (by omega), c10 10 (by omega) (by omega) (by omega),
      c10 19 (by omega) (by omega) (by omega)]
    exact ⟨f0, f1, f2, f3, f4, f5, f6, f7, c7, c8.trans (hz (b + 4) (by omega)).symm, f10, f11, f12, f13, f14, f15⟩
  have hl1 : ∀ l, l < 4 → flane s1.v.f l = expand (m0 .key) (m0 .nonce) (b + l) := by
    intro l hl
    obtain ⟨b0, b1, b2, b3, b4, b5, b6, b7, b10, b11, b12, b13, b14, b15⟩ := hb1 l hl
    simp only [fdiag, expand, Words.mk.injEq] at hd1
    obtain ⟨g0, g1, g2, g3, g4, g5, g6, g7, _, _, g10, g11, g12, g13, g14, g15⟩ := hd1
    simp only [flane, expand, Words.mk.injEq]
    refine ⟨b0.trans g0, b1.trans g1, b2.trans g2, b3.trans g3, b4.trans g4, b5.trans g5, b6.trans g6, b7.trans g7, (c6 l hl).1, ?_, b10.trans g10,
      b11.trans g11, b12.trans g12, b13.trans g13, b14.trans g14, b15.trans g15⟩
    rw [(c6 l hl).2, hz _ (by omega)]
  -- words of the four blocks
  have r1 : Reach (layout dst len) (UInt32.ofNat (4 + 4 * n)) .atLeast256 s .mainloop1 { s1 with v := vexecs u32 s1.v load4 } := by
    have e : (prog (UInt32.ofNat (4 + 4 * n)) .atLeast256).1 = counters (UInt32.ofNat (4 + 4 * n)) ++ load4.map .v := rfl
    refine reach_jmp rfl ?_ (c1.trans hok)
    rw [e, execs_append, hs1, execs_v]
  have hv1 : (∀ l, l < 4 → (lane (vexecs u32 s1.v load4) l).words = flane s1.v.f l) ∧ ∀ j, j < 88 → (vexecs u32 s1.v load4).f j = s1.v.f j :=
    ⟨load4_lane s1.v, load4_frame s1.v⟩
  generalize vexecs u32 s1.v load4 = v1 at r1 hv1
  -- the rounds
  obtain ⟨s2, r2, k1, k2, ksl, k3, k4, ksp, k5⟩ := loop1 (L := layout dst len) (R := UInt32.ofNat (4 + 4 * n)) (2 * n + 1) { s1 with v := v1 } (by omega) (c1.trans hok)
    (by rw [show 2 + 2 * (2 * n + 1) = 4 + 4 * n by omega]; exact c3)
  have k4' : ∀ j, j < 88 → s2.v.f j = s1.v.f j := fun j hj => (k4 j hj).trans (hv1.2 j hj)
  have hl2 : ∀ l, l < 4 → flane s2.v.f l = expand (m0 .key) (m0 .nonce) (b + l) := by
    intro l hl
    rw [← hl1 l hl]
    unfold flane
    rw [k4' _ (by omega), k4' _ (by omega), k4' _ (by omega), k4' _ (by omega), k4' _ (by omega), k4' _ (by omega), k4' _ (by omega), k4' _ (by omega),
      k4' _ (by omega), k4' _ (by omega), k4' _ (by omega), k4' _ (by omega), k4' _ (by omega), k4' _ (by omega), k4' _ (by omega), k4' _ (by omega)]
  have hw : ∀ k, k < 64 → w4 s2.v k = (hash (2 * (n + 1)) (expand (m0 .key) (m0 .nonce) (b + k / 16))).toList.getD (k % 16) 0 := by
    intro k hk
    show p4 s2.v (k / 16) (k % 16) = _
    have hk5 := k5 (k / 16) (by omega)
    rw [p4_eq _ ksp _ _ (by omega) (by omega), hl2 _ (by omega), hk5]
    show ((expand _ _ _).add (doublerounds _ (lane v1 (k / 16)).words)).toList.getD _ _ = _
    rw [hv1.1 _ (by omega), hl1 _ (by omega)]
    rfl
  -- the result
  have hsi2 : s2.gpr esi = .ptr .input (64 * b) := by rw [k3 _ (by decide)]; exact c4.trans hsi
  generalize hsd : execs (layout dst len) s2 [.ldSlot 5 edi] = s2'
  have hd2 : s2'.ok = true ∧ s2'.mem = s1.mem ∧ s2'.v = s2.v ∧ s2'.gpr edi = .ptr dst (64 * b) ∧ s2'.gpr esi = .ptr .input (64 * b) ∧ s2'.slot = s1.slot := by
    subst hsd
    refine ⟨k1, k2, rfl, ?_, hsi2, ksl⟩
    show s2.slot 5 = _
    rw [ksl]
    exact (c9' 5 (by decide)).trans h5
  obtain ⟨d1, d2, d3, d4, d5, d6⟩ := hd2
  have ha := chunks4_exec (layout dst len) s2' .input (64 * b) dst (64 * b) d5 d4 (by show _ ≤ len; omega) (by rw [place_size hp]; omega)
    (place_writable dst len) (fun _ => rfl)
  have e3 : execs (layout dst len) s2 out4 = execs (layout dst len) (execs (layout dst len) s2' (chunks4.flatMap (code g))) tail4 := by
    rw [out4_eq, execs_append, execs_append, hsd]
  generalize execs (layout dst len) s2' (chunks4.flatMap (code g)) = s3 at ha e3
  have hf3 : s3.v.f = s2.v.f := by rw [ha.v, ← d3]; exact vcodes4_frame _
  obtain ⟨t1, t2, t3, t4, t5, t6, t7, t8, t9⟩ := tail4_exec (dst := dst) (layout dst len) s3 rem hrem (by omega) (by
      rw [ha.slot, d6, c9]; exact h9) .input (64 * b) (by rw [ha.gpr _ (by unfold Four.Mem g; decide)]; exact d5) (64 * b)
    (by rw [ha.gpr _ (by unfold Four.Mem g; decide)]; exact d4) _ rfl
  rw [← e3] at t1 t2 t3 t4 t5 t6 t7 t8 t9
  have eo : (prog (UInt32.ofNat (4 + 4 * n)) .out4).1 = out4 := rfl
  have r3 := reach_jcc (L := layout dst len) (R := UInt32.ofNat (4 + 4 * n)) (l := .out4) (s := s2) (s' := execs (layout dst len) s2 out4) .jae
    .atLeast256 .rest _ _ rfl (by rw [eo]) ((t1.trans ha.ok).trans d1) t7 rfl
  have hcond : (if holds (UInt32.ofNat (rem - 256)) 256 .jae then Label.atLeast256 else .rest) = if 256 ≤ rem - 256 then .atLeast256 else .rest := by
    show (if decide (UInt32.ofNat 256 ≤ UInt32.ofNat (rem - 256)) = true then Label.atLeast256 else .rest) = _
    simp only [decide_eq_true_eq, le_ofNat 256 (rem - 256) (by omega) (by omega)]
  rw [hcond] at r3
  have hf4 : ∀ j, j < 88 → (execs (layout dst len) s2 out4).v.f j = s1.v.f j := by
    intro j hj
    rw [t3, hf3, k4' j hj]
  generalize execs (layout dst len) s2 out4 = s4 at t1 t2 t3 t4 t5 t6 t7 t8 t9 r3 hf4
  have hm' := ha.mem
  rw [d2, d3] at hm'
  refine ⟨s4, (r1.trans r2).trans r3, ⟨(t1.trans ha.ok).trans d1, t4, t5, t6, by omega, ?_, ?_, ?_⟩, ?_, t8⟩
  · rw [← hd1]
    exact fdiag_congr _ _ fun j hj => hf4 j (by omega)
  · refine saved_congr (fun j hj => ?_) hsv
    rw [t9 j hj, ha.slot, d6]
    exact c9' j (by omega)
  · intro r p hr
    rw [t2]
    exact mem_step b 4 s1.mem s3.mem (w4 s2.v) _ ks4 (by rw [c2]; exact hm) hm' hw r p hr
  · exact bcast_congr _ _ (fun j hj _ _ => hf4 j (by omega)) hb1

/-! ## Single blocks -/

theorem single_exec (L : Layout) (s : St) (R : UInt32) (s' : St) (hs' : s' = execs L s (single R)) :
    s'.ok = s.ok ∧ s'.mem = s.mem ∧ s'.gpr eax = .num R ∧ (∀ r, r ≠ eax → s'.gpr r = s.gpr r) ∧ s'.v.f = s.v.f ∧
    s'.slot 6 = s.gpr eax ∧ (∀ j, j ≠ 6 → s'.slot j = s.slot j) ∧ s'.v.x 4 = s'.v.x 1 ∧ (diag s'.v).words = fdiag s.v.f := by
  simp only [execs, single, List.foldl_cons, List.foldl_nil, Instr.exec, St.setR, eax] at hs'
  subst hs'
  refine ⟨rfl, rfl, rfl, ?_, rfl, rfl, ?_, rfl, rfl⟩
  · intro r hr
    exact if_neg hr
  · intro j hj
    exact if_neg hj

theorem tail1_exec (L : Layout) (s : St) (b : Nat) (hb : b + 1 < 2 ^ 32) (n : UInt32) (h9 : s.slot 6 = .num n) (f4 : s.v.f 20 = UInt32.ofNat b)
    (f9 : s.v.f 9 = 0) (s' : St) (hs' : s' = execs L s tail1) :
    s'.ok = s.ok ∧ s'.mem = s.mem ∧ s'.gpr eax = .num n ∧ s'.gpr esi = s.gpr esi ∧ s'.gpr edi = s.gpr edi ∧ s'.slot = s.slot ∧
    s'.flags = .cmp n 64 ∧ s'.v.f 20 = UInt32.ofNat (b + 1) ∧ s'.v.f 9 = 0 ∧ ∀ j, j ≠ 20 → j ≠ 9 → s'.v.f j = s.v.f j := by
  have b1 := ofNat_succ b
  have c1 := no_carry b hb
  have z : ((0 : UInt32) + 0 + if false = true then 1 else 0) = 0 := by decide
  simp only [execs, tail1, List.foldl_cons, List.foldl_nil, Instr.exec, St.setR, VSt.setW, eax, ecx, edx, h9, f4, f9, b1, c1, z,
    reduceIte, Nat.reduceEqDiff, Nat.reduceAdd] at hs'
  subst hs'
  refine ⟨rfl, rfl, rfl, rfl, rfl, rfl, rfl, rfl, rfl, ?_⟩
  intro j n4 n9
  simp [n4, n9]

/-- One block, at `src` -/
theorem block1 (L : Layout) (n : Nat) (hn : n < 100) (K N : Nat → UInt8) (b rem : Nat) (hb : b + 1 < 2 ^ 32) (hrem : rem < 2 ^ 32) (src : Region) (so : Nat) (d : Region) (d0 : Nat)
    (s : St) (hok : s.ok = true) (h9 : s.gpr eax = .num (UInt32.ofNat rem)) (hsi : s.gpr esi = .ptr src so) (hdi : s.gpr edi = .ptr d d0)
    (hf : fdiag s.v.f = expand K N b) (bs : so + 64 ≤ L.size src) (bd : d0 + 64 ≤ L.size d) (hw : L.writable d = true) (ha : src = d → so = d0) :
    ∃ s' w D, Reach L (UInt32.ofNat (4 + 4 * n)) .nocopy s (if 64 < rem then .next else .last) s' ∧ s'.ok = true ∧ s'.gpr eax = .num (UInt32.ofNat rem) ∧
      s'.gpr esi = .ptr src so ∧ s'.gpr edi = .ptr d d0 ∧ (∀ j, j ≠ 6 → s'.slot j = s.slot j) ∧ s'.flags = .cmp (UInt32.ofNat rem) 64 ∧
      fdiag s'.v.f = expand K N (b + 1) ∧ Done s.mem src so d d0 w D s'.mem ∧ (∀ k, k ∈ D ↔ k < 16) ∧
      ∀ k, k < 16 → w k = (hash (2 * (n + 1)) (expand K N b)).toList.getD k 0 := by
  have hz : ∀ c, c < 2 ^ 32 → UInt32.ofNat (c / 2 ^ 32) = 0 := fun c hc => by rw [Nat.div_eq_of_lt hc]; rfl
  have ec : (prog (UInt32.ofNat (4 + 4 * n)) .nocopy).1 = single (UInt32.ofNat (4 + 4 * n)) := rfl
  obtain ⟨c1, c2, c3, c4, c5, c6, c6', c7, c8⟩ := single_exec L s (UInt32.ofNat (4 + 4 * n)) _ rfl
  have r1 : Reach L (UInt32.ofNat (4 + 4 * n)) .nocopy s .mainloop2 (execs L s (single (UInt32.ofNat (4 + 4 * n)))) :=
    reach_jmp rfl (by rw [ec]) (c1.trans hok)
  generalize execs L s (single (UInt32.ofNat (4 + 4 * n))) = s1 at c1 c2 c3 c4 c5 c6 c6' c7 c8 r1
  obtain ⟨s2, r2, k1, k2, ksl, k3, k4, k5⟩ := loop2 (L := L) (R := UInt32.ofNat (4 + 4 * n)) n s1 (by omega) (c1.trans hok) c3 c7
  have hsi2 : s2.gpr esi = .ptr src so := by rw [k3 _ (by decide), c4 _ (by decide)]; exact hsi
  have hdi2 : s2.gpr edi = .ptr d d0 := by rw [k3 _ (by decide), c4 _ (by decide)]; exact hdi
  have hf2 : fdiag s2.v.f = expand K N b := by rw [← hf, k4, c5]
  have hx := hf2
  simp only [fdiag, expand, Words.mk.injEq] at hx
  obtain ⟨f0, f1, f2, f3, f4, f5, f6, f7, f8, f9, f10, f11, f12, f13, f14, f15⟩ := hx
  have ha := chunks1_exec L s2 src so d d0 hsi2 hdi2 bs bd hw ha
  have e3 : execs L s2 out1 = execs L (execs L s2 (chunks1.flatMap (code g))) tail1 := by
    rw [out1_eq, execs_append]
  generalize execs L s2 (chunks1.flatMap (code g)) = s3 at ha e3
  have hf3 : s3.v.f = s2.v.f := by rw [ha.v]; exact vcodes1_frame _
  obtain ⟨t1, t2, t3, t4, t5, t6, t7, t8, t9, t10⟩ := tail1_exec L s3 b hb (UInt32.ofNat rem) (by rw [ha.slot, ksl, c6]; exact h9) (by rw [hf3]; exact f8)
    (by rw [hf3, f9, hz b (by omega)]) _ rfl
  rw [← e3] at t1 t2 t3 t4 t5 t6 t7 t8 t9 t10
  have eo : (prog (UInt32.ofNat (4 + 4 * n)) .out1).1 = out1 := rfl
  have r3 := reach_jcc (L := L) (R := UInt32.ofNat (4 + 4 * n)) (l := .out1) (s := s2) (s' := execs L s2 out1) .ja
    .next .last _ _ rfl (by rw [eo]) ((t1.trans ha.ok).trans k1) t7 rfl
  have hcond : (if holds (UInt32.ofNat rem) 64 .ja then Label.next else .last) = if 64 < rem then .next else .last := by
    show (if decide (UInt32.ofNat 64 < UInt32.ofNat rem) = true then Label.next else .last) = _
    simp only [decide_eq_true_eq, lt_ofNat 64 rem (by omega) (by omega)]
  rw [hcond] at r3
  generalize execs L s2 out1 = s4 at t1 t2 t3 t4 t5 t6 t7 t8 t9 t10 r3
  have hm' := ha.mem
  rw [k2, c2, ← t2] at hm'
  refine ⟨s4, w1 s2.v, _, (r1.trans r2).trans r3, (t1.trans ha.ok).trans k1, t3, ?_, ?_, ?_, t7, ?_, hm', ks1, ?_⟩
  · rw [t4, ha.gpr _ (by unfold Four.Mem g; decide)]; exact hsi2
  · rw [t5, ha.gpr _ (by unfold Four.Mem g; decide)]; exact hdi2
  · intro j hj
    rw [t6, ha.slot, ksl]
    exact c6' j hj
  · simp only [fdiag, expand, Words.mk.injEq]
    rw [t10 16 (by omega) (by omega), t10 13 (by omega) (by omega), t10 22 (by omega) (by omega), t10 11 (by omega) (by omega), t10 8 (by omega) (by omega),
      t10 17 (by omega) (by omega), t10 14 (by omega) (by omega), t10 23 (by omega) (by omega), t10 18 (by omega) (by omega), t10 15 (by omega) (by omega),
      t10 12 (by omega) (by omega), t10 21 (by omega) (by omega), t10 10 (by omega) (by omega), t10 19 (by omega) (by omega), hf3]
    exact ⟨f0, f1, f2, f3, f4, f5, f6, f7, t8, t9.trans (hz (b + 1) hb).symm, f10, f11, f12, f13, f14, f15⟩
  · intro k hk
    rw [w1_eq _ _ hk, hf2, k5, c8, hf]
    rfl

/-- What the function has to do -/
def Result (regs : Nat → UInt32) (dst : Region) (len : Nat) (m0 : Mem) (dr : Nat) (s : St) : Prop :=
  s.ok = true ∧ Saved regs s.slot ∧ ∀ r p, r ≠ .tmp → s.mem r p = if r = dst ∧ p < len then m0 .input p ^^^ stream dr (m0 .key) (m0 .nonce) p else m0 r p

theorem reach_cmp (c : Cond) (yes no : Label) (n : Nat) (a : Nat) (l l' : Label) (L : Layout) (s : St) (x : UInt32) (hx : x = UInt32.ofNat a)
    (h1 : (prog R l).1 = [.cmpI x eax]) (he : (prog R l).2 = .jcc c yes no) (hok : s.ok = true) (h9 : s.gpr eax = .num (UInt32.ofNat n))
    (hl : l' = if holds (UInt32.ofNat n) (UInt32.ofNat a) c then yes else no) : Reach L R l s l' { s with flags := .cmp (UInt32.ofNat n) (UInt32.ofNat a) } := by
  refine reach_jcc c yes no _ _ he ?_ hok rfl hl
  rw [h1]
  simp only [execs, List.foldl_cons, List.foldl_nil, Instr.exec, h9, hx]

/-- The last part of a block -/
theorem lastPart (n : Nat) (hn : n < 100) (hp : Place dst) (hlen : len < 2 ^ 32) (b rem : Nat) (s : St) (h : Inv regs dst len m0 (2 * (n + 1)) b rem s) (h0 : 0 < rem)
    (hrem : rem < 64) :
    ∃ s', Reach (layout dst len) (UInt32.ofNat (4 + 4 * n)) .copyIn s .done s' ∧ Result regs dst len m0 (2 * (n + 1)) s' := by
  obtain ⟨hok, h9, hsi, hdi, hl, hf, hsv, hm⟩ := h
  have hr : (UInt32.ofNat rem).toNat = rem := by simp only [UInt32.toNat_ofNat']; omega
  -- to the temporary memory
  generalize hs1 : execs (layout dst len) s copyIn = s1
  have hc1 : s1.ok = true ∧ s1.slot 5 = .ptr dst (64 * b) ∧ s1.gpr edi = .ptr .tmp 0 ∧ s1.gpr esi = .ptr .tmp 0 ∧ s1.gpr eax = .num (UInt32.ofNat rem) ∧
      s1.v = s.v ∧ s1.mem = copyBytes rem s.mem .input (64 * b) .tmp 0 ∧ ∀ j, j ≠ 5 → s1.slot j = s.slot j := by
    unfold eax at h9
    unfold esi at hsi
    unfold edi at hdi
    have hbnd : 64 * b + rem ≤ (layout dst len).size .input ∧ 0 + rem ≤ (layout dst len).size .tmp ∧ (layout dst len).writable .tmp = true :=
      ⟨by show _ ≤ len; omega, by show _ ≤ 64; omega, by simp [layout]⟩
    simp only [execs, copyIn, List.foldl_cons, List.foldl_nil, Instr.exec, St.setR, edx, edi, esi, ecx, eax, h9, hsi, hdi, hr, reduceIte, Nat.reduceEqDiff,
      if_pos hbnd] at hs1
    subst hs1
    exact ⟨hok, rfl, rfl, rfl, h9, rfl, rfl, fun j hj => if_neg hj⟩
  obtain ⟨q1, q2, q3, q4, q5, q6, q7, q8⟩ := hc1
  have ei : (prog (UInt32.ofNat (4 + 4 * n)) .copyIn).1 = copyIn := rfl
  have r1 : Reach (layout dst len) (UInt32.ofNat (4 + 4 * n)) .copyIn s .nocopy s1 := reach_jmp rfl (by rw [ei, hs1]) q1
  obtain ⟨s2, w, D, r2, k1, k2, k3, k4, k5, k6, k7, k8, k9, k10⟩ := block1 (layout dst len) n hn (m0 .key) (m0 .nonce) b rem (by omega) (by omega) .tmp 0 .tmp 0 s1 q1 q5 q4 q3
    (by rw [q6]; exact hf) (by show _ ≤ 64; omega) (by show _ ≤ 64; omega) (by simp [layout]) (fun _ => rfl)
  rw [if_neg (by omega)] at r2
  have r3 : Reach (layout dst len) (UInt32.ofNat (4 + 4 * n)) .last s2 .copyOut s2 := by
    refine reach_jcc .jae .done .copyOut (UInt32.ofNat rem) 64 rfl rfl k1 k6 ?_
    rw [if_neg]
    show ¬ decide (UInt32.ofNat 64 ≤ UInt32.ofNat rem) = true
    rw [decide_eq_true_eq, le_ofNat _ _ (by omega) (by omega)]
    omega
  generalize hs3 : execs (layout dst len) s2 copyOut = s3
  have hc3 : s3.ok = true ∧ s3.mem = copyBytes rem s2.mem .tmp 0 dst (64 * b) ∧ s3.slot = s2.slot := by
    have k5' := (k5 5 (by decide)).trans q2
    unfold eax at k2
    unfold esi at k3
    unfold edi at k4
    have hbnd : 0 + rem ≤ (layout dst len).size .tmp ∧ 64 * b + rem ≤ (layout dst len).size dst ∧ (layout dst len).writable dst = true :=
      ⟨by show _ ≤ 64; omega, by rw [place_size hp]; omega, place_writable dst len⟩
    simp only [execs, copyOut, List.foldl_cons, List.foldl_nil, Instr.exec, St.setR, edi, esi, ecx, eax, k2, k3, k4, k5', hr, reduceIte, Nat.reduceEqDiff,
      if_pos hbnd] at hs3
    subst hs3
    exact ⟨k1, rfl, rfl⟩
  have eo : (prog (UInt32.ofNat (4 + 4 * n)) .copyOut).1 = copyOut := rfl
  have r4 : Reach (layout dst len) (UInt32.ofNat (4 + 4 * n)) .copyOut s2 .done s3 := reach_jmp rfl (by rw [eo, hs3]) hc3.1
  refine ⟨s3, ((r1.trans r2).trans r3).trans r4, hc3.1, ?_, ?_⟩
  · rw [hc3.2.2]
    exact saved_congr (fun j hj => (k5 j (by omega)).trans (q8 j (by omega))) hsv
  intro r p hrt
  have htmp := place_tmp hp
  have hm2 : ∀ r p, r ≠ .tmp → s2.mem r p = s.mem r p := by
    intro r p hrt
    rw [k8 r p, if_neg (fun h => hrt h.1), q7, copyBytes_apply _ _ _ _ _ _ (by decide), if_neg (fun h => hrt h.1)]
  rw [hc3.2.1, copyBytes_apply _ _ _ _ _ _ (Ne.symm htmp)]
  by_cases hc : r = dst ∧ 64 * b ≤ p ∧ p < 64 * b + rem
  · have hcc : r = dst ∧ p < len := ⟨hc.1, by omega⟩
    rw [if_pos hc, if_pos hcc, Nat.zero_add, k8 .tmp (p - 64 * b)]
    have hin : Region.tmp = Region.tmp ∧ 0 ≤ p - 64 * b ∧ (p - 64 * b - 0) / 4 ∈ D := ⟨rfl, by omega, (k9 _).2 (by omega)⟩
    rw [if_pos hin, k10 _ (by omega), q7, copyBytes_apply _ _ _ _ _ _ (by decide)]
    have hin2 : Region.tmp = Region.tmp ∧ 0 ≤ 0 + (p - 64 * b - 0) ∧ 0 + (p - 64 * b - 0) < 0 + rem := ⟨rfl, by omega, by omega⟩
    rw [if_pos hin2, show 64 * b + (0 + (p - 64 * b - 0) - 0) = p by omega, hm .input p (by decide)]
    have hn' : ¬ (Region.input = dst ∧ p < 64 * b) := fun h => by omega
    have hst := stream_eq (dr := 2 * (n + 1)) (m0 .key) (m0 .nonce) b (p - 64 * b)
    rw [show 64 * b + (p - 64 * b) = p by omega, show b + (p - 64 * b) / 4 / 16 = b by omega, show (p - 64 * b) / 4 % 16 = (p - 64 * b) / 4 by omega] at hst
    rw [if_neg hn', UInt8.xor_comm, hst, Nat.sub_zero]
  · rw [if_neg hc, hm2 r p hrt, hm r p hrt]
    by_cases hd : r = dst ∧ p < 64 * b
    · rw [if_pos hd, if_pos ⟨hd.1, by omega⟩]
    · rw [if_neg hd, if_neg]
      rintro ⟨h1, h2⟩
      by_cases hlt : p < 64 * b
      · exact hd ⟨h1, hlt⟩
      · exact hc ⟨h1, by omega, by omega⟩

/-- The blocks one by one -/
theorem singles (n : Nat) (hn : n < 100) (hp : Place dst) (hlen : len < 2 ^ 32) (rem : Nat) : ∀ (b : Nat) (s : St),
    Inv regs dst len m0 (2 * (n + 1)) b rem s → 0 < rem →
    ∃ s', Reach (layout dst len) (UInt32.ofNat (4 + 4 * n)) .between1and255 s .done s' ∧ Result regs dst len m0 (2 * (n + 1)) s' := by
  induction rem using Nat.strongRecOn with
  | ind rem ih =>
    intro b s h h0
    have hl := h.left
    by_cases hlt : rem < 64
    · have r0 := reach_cmp (R := UInt32.ofNat (4 + 4 * n)) .jae .nocopy .copyIn rem 64 .between1and255 .copyIn (layout dst len) s 64 rfl rfl rfl h.ok h.eax (by
        rw [if_neg]
        show ¬ decide (UInt32.ofNat 64 ≤ UInt32.ofNat rem) = true
        rw [decide_eq_true_eq, le_ofNat _ _ (by omega) (by omega)]
        omega)
      obtain ⟨s', h1, h2⟩ := lastPart n hn hp hlen b rem { s with flags := .cmp (UInt32.ofNat rem) (UInt32.ofNat 64) }
        ⟨h.ok, h.eax, h.esi, h.edi, h.left, h.frame, h.saved, h.mem⟩ h0 hlt
      exact ⟨s', r0.trans h1, h2⟩
    · have r0 := reach_cmp (R := UInt32.ofNat (4 + 4 * n)) .jae .nocopy .copyIn rem 64 .between1and255 .nocopy (layout dst len) s 64 rfl rfl rfl h.ok h.eax (by
        rw [if_pos]
        show decide (UInt32.ofNat 64 ≤ UInt32.ofNat rem) = true
        rw [decide_eq_true_eq, le_ofNat _ _ (by omega) (by omega)]
        omega)
      obtain ⟨s2, w, D, r2, k1, k2, k3, k4, k5, k6, k7, k8, k9, k10⟩ := block1 (layout dst len) n hn (m0 .key) (m0 .nonce) b rem (by omega) (by omega) .input (64 * b) dst (64 * b)
        { s with flags := .cmp (UInt32.ofNat rem) (UInt32.ofNat 64) } h.ok h.eax h.esi h.edi h.frame (by show _ ≤ len; omega) (by rw [place_size hp]; omega)
        (place_writable dst len) (fun _ => rfl)
      have ksv : Saved regs s2.slot := saved_congr (fun j hj => k5 j (by omega)) h.saved
      have hm2 : ∀ r p, r ≠ .tmp → s2.mem r p = if r = dst ∧ p < 64 * (b + 1) then m0 .input p ^^^ stream (2 * (n + 1)) (m0 .key) (m0 .nonce) p else m0 r p :=
        fun r p hr => mem_step b 1 s.mem s2.mem w D (by simpa using k9) h.mem k8 (by
          intro k hk
          rw [k10 k (by omega), show k / 16 = 0 by omega, show k % 16 = k by omega]
          rfl) r p hr
      by_cases hgt : 64 < rem
      · rw [if_pos hgt] at r2
        generalize hs3 : execs (layout dst len) s2 [.subI 64 eax, .addI 64 edi, .addI 64 esi] = s3
        have hc3 : s3.ok = true ∧ s3.gpr eax = .num (UInt32.ofNat (rem - 64)) ∧ s3.gpr esi = .ptr .input (64 * (b + 1)) ∧
            s3.gpr edi = .ptr dst (64 * (b + 1)) ∧ s3.v = s2.v ∧ s3.mem = s2.mem ∧ s3.slot = s2.slot := by
          have e : UInt32.ofNat rem - 64 = UInt32.ofNat (rem - 64) := by
            have := sub_small (rem - 64) 64 (by omega)
            rwa [show 64 + (rem - 64) = rem by omega] at this
          unfold eax at k2
          unfold esi at k3
          unfold edi at k4
          simp only [execs, List.foldl_cons, List.foldl_nil, Instr.exec, St.setR, edi, esi, eax, k2, k3, k4, e, reduceIte, Nat.reduceEqDiff] at hs3
          subst hs3
          exact ⟨k1, rfl, rfl, rfl, rfl, rfl, rfl⟩
        obtain ⟨q1, q2, q3, q4, q5, q6, q7⟩ := hc3
        have en : (prog (UInt32.ofNat (4 + 4 * n)) .next).1 = [.subI 64 eax, .addI 64 edi, .addI 64 esi] := rfl
        have r3 : Reach (layout dst len) (UInt32.ofNat (4 + 4 * n)) .next s2 .between1and255 s3 := reach_jmp rfl (by rw [en, hs3]) q1
        obtain ⟨s', h1, h2⟩ := ih (rem - 64) (by omega) (b + 1) s3 ⟨q1, q2, q3, q4, by omega, by rw [q5]; exact k7, by rw [q7]; exact ksv, by rw [q6]; exact hm2⟩ (by omega)
        exact ⟨s', ((r0.trans r2).trans r3).trans h1, h2⟩
      · rw [if_neg hgt] at r2
        have r3 : Reach (layout dst len) (UInt32.ofNat (4 + 4 * n)) .last s2 .done s2 := by
          refine reach_jcc .jae .done .copyOut (UInt32.ofNat rem) 64 rfl rfl k1 k6 ?_
          rw [if_pos]
          show decide (UInt32.ofNat 64 ≤ UInt32.ofNat rem) = true
          rw [decide_eq_true_eq, le_ofNat _ _ (by omega) (by omega)]
          omega
        refine ⟨s2, (r0.trans r2).trans r3, k1, ksv, ?_⟩
        intro r p hr
        rw [hm2 r p hr, show 64 * (b + 1) = len by omega]

/-- Four blocks at a time -/
theorem fours (n : Nat) (hn : n < 100) (hp : Place dst) (hlen : len < 2 ^ 32) (rem : Nat) : ∀ (b : Nat) (s : St),
    Inv regs dst len m0 (2 * (n + 1)) b rem s → Bcast s.v.f → s.slot 5 = .ptr dst (64 * b) → 256 ≤ rem →
    ∃ s', Reach (layout dst len) (UInt32.ofNat (4 + 4 * n)) .atLeast256 s .done s' ∧ Result regs dst len m0 (2 * (n + 1)) s' := by
  induction rem using Nat.strongRecOn with
  | ind rem ih =>
    intro b s h hb h5 h0
    obtain ⟨s1, r1, h1, hb1, h51⟩ := step4 n hn hp hlen b rem s h hb h5 h0
    have hl := h1.left
    by_cases hge : 256 ≤ rem - 256
    · rw [if_pos hge] at r1
      obtain ⟨s', h2, h3⟩ := ih (rem - 256) (by omega) (b + 4) s1 h1 hb1 h51 hge
      exact ⟨s', r1.trans h2, h3⟩
    · rw [if_neg hge] at r1
      by_cases hz : rem - 256 = 0
      · have r2 := reach_cmp (R := UInt32.ofNat (4 + 4 * n)) .jbe .done .between1and255 (rem - 256) 0 .rest .done (layout dst len) s1 0 rfl rfl rfl h1.ok h1.eax (by
          rw [if_pos]
          show decide (UInt32.ofNat (rem - 256) ≤ UInt32.ofNat 0) = true
          rw [decide_eq_true_eq, le_ofNat _ _ (by omega) (by omega)]
          omega)
        refine ⟨_, r1.trans r2, h1.ok, h1.saved, ?_⟩
        intro r p hr
        rw [← show 64 * (b + 4) = len by omega]
        exact h1.mem r p hr
      · have r2 := reach_cmp (R := UInt32.ofNat (4 + 4 * n)) .jbe .done .between1and255 (rem - 256) 0 .rest .between1and255 (layout dst len) s1 0 rfl rfl rfl h1.ok h1.eax (by
          rw [if_neg]
          show ¬ decide (UInt32.ofNat (rem - 256) ≤ UInt32.ofNat 0) = true
          rw [decide_eq_true_eq, le_ofNat _ _ (by omega) (by omega)]
          omega)
        obtain ⟨s', h2, h3⟩ := singles n hn hp hlen (rem - 256) (b + 4) { s1 with flags := .cmp (UInt32.ofNat (rem - 256)) (UInt32.ofNat 0) }
          ⟨h1.ok, h1.eax, h1.esi, h1.edi, h1.left, h1.frame, h1.saved, h1.mem⟩ (by omega)
        exact ⟨s', (r1.trans r2).trans h2, h3⟩

/-- The function -/
theorem whole (n : Nat) (hn : n < 100) (hp : Place dst) (hlen : len < 2 ^ 32) (hi : UInt32) (v : VSt UInt32) (slot : Nat → Val) :
    ∃ s', Reach (layout dst len) (UInt32.ofNat (4 + 4 * n)) .entry (initial dst (UInt32.ofNat len) hi regs v slot m0) .done s' ∧ Result regs dst len m0 (2 * (n + 1)) s' := by
  obtain ⟨o1, f1, m1, e2, e3, e4, e5, e6, sv1⟩ := entry_exec (layout dst len) dst (UInt32.ofNat len) hi regs v slot m0 _ rfl
  have en : (prog (UInt32.ofNat (4 + 4 * n)) .entry).1 = save ++ entry := rfl
  generalize hs1 : execs (layout dst len) (initial dst (UInt32.ofNat len) hi regs v slot m0) (save ++ entry) = s1 at o1 f1 m1 e2 e3 e4 e5 e6 sv1
  have r1 := reach_jcc (L := layout dst len) (R := UInt32.ofNat (4 + 4 * n)) (l := .entry) (s := initial dst (UInt32.ofNat len) hi regs v slot m0) (s' := s1) .jbe .done .start _ _ rfl
    (by rw [en, hs1]) o1 f1 rfl
  by_cases hz : len = 0
  · rw [if_pos (by rw [hz]; rfl)] at r1
    refine ⟨s1, r1, o1, sv1, ?_⟩
    intro r p _
    rw [m1, if_neg]
    rintro ⟨_, h⟩
    omega
  · rw [if_neg (by
      show ¬ decide (UInt32.ofNat len ≤ UInt32.ofNat 0) = true
      rw [decide_eq_true_eq, le_ofNat _ _ (by omega) (by omega)]
      omega)] at r1
    have es : (prog (UInt32.ofNat (4 + 4 * n)) .start).1 = setup := rfl
    obtain ⟨q1, q2, q3, q4, q5, q6, q7, q8, q9⟩ := setup_exec dst len s1 _ e4 e6 e5 _ rfl
    have r2 := reach_jcc (L := layout dst len) (R := UInt32.ofNat (4 + 4 * n)) (l := .start) (s := s1) .jb .between1and255 .broadcast _ _ rfl
      (by rw [es]) (q1.trans o1) q3 rfl
    generalize execs (layout dst len) s1 setup = s2 at q1 q2 q3 q4 q5 q6 q7 q8 q9 r2
    have hinv : Inv regs dst len m0 (2 * (n + 1)) 0 len s2 := by
      refine ⟨q1.trans o1, q4, by rw [q5, e3], by rw [q6, e2], by omega, by rw [q7, m1], saved_congr q9 sv1, ?_⟩
      intro r p _
      rw [q2, m1, if_neg]
      rintro ⟨_, h⟩
      omega
    by_cases hlt : len < 256
    · rw [if_pos (by
        show decide (UInt32.ofNat len < UInt32.ofNat 256) = true
        rw [decide_eq_true_eq, lt_ofNat _ _ (by omega) (by omega)]
        omega)] at r2
      obtain ⟨s', h1, h2⟩ := singles n hn hp hlen len 0 s2 hinv (by omega)
      exact ⟨s', (r1.trans r2).trans h1, h2⟩
    · rw [if_neg (by
        show ¬ decide (UInt32.ofNat len < UInt32.ofNat 256) = true
        rw [decide_eq_true_eq, lt_ofNat _ _ (by omega) (by omega)]
        omega)] at r2
      have eb : (prog (UInt32.ofNat (4 + 4 * n)) .broadcast).1 = broadcast.map .v := rfl
      have r3 : Reach (layout dst len) (UInt32.ofNat (4 + 4 * n)) .broadcast s2 .atLeast256 { s2 with v := vexecs u32 s2.v broadcast } :=
        reach_jmp rfl (by rw [eb, execs_v]) hinv.ok
      obtain ⟨s', h1, h2⟩ := fours n hn hp hlen len 0 { s2 with v := vexecs u32 s2.v broadcast }
        ⟨hinv.ok, hinv.eax, hinv.esi, hinv.edi, hinv.left, by rw [← hinv.frame]; exact broadcast_diag _, hinv.saved, hinv.mem⟩ (broadcast_bcast _)
        (by show s2.slot 5 = _; rw [q8, e2]) (by omega)
      exact ⟨s', ((r1.trans r2).trans r3).trans h1, h2⟩

end Fastd.Crypto.SalsaX86
