import Verif.Crypto.SalsaRun

/-!
# The Salsa20 implementation as a whole

Lemmas: the invariants of the loops over the blocks of the message.
-/

namespace Fastd.Crypto.SalsaXmm

open Spec.Salsa20 (Words expand hash doublerounds doubleround word stream byte)

variable {R : UInt64} {regs : Nat → UInt64} {dst : Region} {len : Nat} {m0 : Mem} {dr : Nat}

/-! ## Words of the result -/

theorem lt16 (P : Nat → Prop) (h0 : P 0) (h1 : P 1) (h2 : P 2) (h3 : P 3) (h4 : P 4) (h5 : P 5) (h6 : P 6) (h7 : P 7) (h8 : P 8) (h9 : P 9) (h10 : P 10)
    (h11 : P 11) (h12 : P 12) (h13 : P 13) (h14 : P 14) (h15 : P 15) : ∀ i, i < 16 → P i := by
  intro i hi
  have h : i = 0 ∨ i = 1 ∨ i = 2 ∨ i = 3 ∨ i = 4 ∨ i = 5 ∨ i = 6 ∨ i = 7 ∨ i = 8 ∨ i = 9 ∨ i = 10 ∨ i = 11 ∨ i = 12 ∨ i = 13 ∨ i = 14 ∨ i = 15 := by omega
  rcases h with rfl | rfl | rfl | rfl | rfl | rfl | rfl | rfl | rfl | rfl | rfl | rfl | rfl | rfl | rfl | rfl <;> assumption

/-- Where words of four blocks are -/
def p4 (v : VSt UInt32) (l i : Nat) : UInt32 :=
  v.x ([12, 7, 10, 4, 14, 0, 5, 8, 15, 11, 1, 6, 13, 9, 3, 2].getD i 0) l + v.f ([28, 44, 56, 68, 60, 16, 32, 48, 72, 76, 20, 36, 40, 52, 64, 24].getD i 0 + l)

theorem p4_eq (v : VSt UInt32) (l i : Nat) (hi : i < 16) : p4 v l i = ((flane v.f l).add (lane v l).words).toList.getD i 0 := by
  revert i
  apply lt16 <;> exact UInt32.add_comm _ _

theorem w1_eq (v : VSt UInt32) (i : Nat) (hi : i < 16) : w1 v i = ((fdiag v.f).add (diag v).words).toList.getD i 0 := by
  revert i
  apply lt16 <;> exact UInt32.add_comm _ _

/-- A byte of the result -/
theorem stream_eq (K N : Nat → UInt8) (b q : Nat) :
    stream dr K N (64 * b + q) = byte ((hash dr (expand K N (b + q / 4 / 16))).toList.getD (q / 4 % 16) 0) (q % 4) := by
  unfold stream
  rw [show (64 * b + q) / 64 = b + q / 4 / 16 by omega, show (64 * b + q) % 64 / 4 = q / 4 % 16 by omega, show (64 * b + q) % 4 = q % 4 by omega]

/-! ## Invariant -/

/-- `b` blocks have been done, `rem` bytes are left. -/
structure Inv (regs : Nat → UInt64) (dst : Region) (len : Nat) (m0 : Mem) (dr b rem : Nat) (s : St) : Prop where
  ok : s.ok = true
  r9 : s.gpr r9 = .num (UInt64.ofNat rem)
  rsi : s.gpr rsi = .ptr .input (64 * b)
  rdi : s.gpr rdi = .ptr dst (64 * b)
  left : 64 * b + rem = len
  frame : fdiag s.v.f = expand (m0 .key) (m0 .nonce) b
  saved : Saved regs s.v.f
  mem : ∀ r p, r ≠ .tmp → s.mem r p = if r = dst ∧ p < 64 * b then m0 .input p ^^^ stream dr (m0 .key) (m0 .nonce) p else m0 r p

/-- Memory for messages -/
def Place (dst : Region) : Prop := dst = .input ∨ dst = .output

theorem place_tmp (h : Place dst) : dst ≠ .tmp := by
  rcases h with h | h <;> subst h <;> decide

theorem place_size (h : Place dst) : (layout dst len).size dst = len := by
  rcases h with h | h <;> subst h <;> rfl

theorem place_writable (dst : Region) (len : Nat) : (layout dst len).writable dst = true := by simp [layout]

theorem tail4_exec (L : Layout) (s : St) (rem : Nat) (hrem : 256 ≤ rem) (hr : rem < 2 ^ 64) (h9 : join (s.v.f 102) (s.v.f 103) = UInt64.ofNat rem) (src : Region) (so : Nat)
    (hs : s.gpr rsi = .ptr src so) (d0 : Nat) (hd : s.gpr rdi = .ptr dst d0) (s' : St) (hs' : s' = execs L s tail4) :
    s'.ok = s.ok ∧ s'.mem = s.mem ∧ s'.v = s.v ∧ s'.gpr r9 = .num (UInt64.ofNat (rem - 256)) ∧ s'.gpr rsi = .ptr src (so + 256) ∧
    s'.gpr rdi = .ptr dst (d0 + 256) ∧ s'.flags = some (UInt64.ofNat (rem - 256), 256) := by
  have e : UInt64.ofNat rem - 256 = UInt64.ofNat (rem - 256) := by
    have := sub_small (rem - 256) 256 (by omega)
    rwa [show 256 + (rem - 256) = rem by omega] at this
  unfold rsi at hs
  unfold rdi at hd
  simp only [execs, tail4, List.foldl_cons, List.foldl_nil, Instr.exec, St.setR, rsi, rdi, r9, hs, hd, h9, e, reduceIte, Nat.reduceEqDiff, Nat.reduceAdd] at hs'
  subst hs'
  exact ⟨rfl, rfl, rfl, rfl, rfl, rfl, rfl⟩

/-- The memory, after some more blocks -/
theorem mem_step (b c : Nat) (m m' : Mem) (w : Nat → UInt32) (D : List Nat) (hD : ∀ k, k ∈ D ↔ k < 16 * c)
    (hm : ∀ r p, r ≠ .tmp → m r p = if r = dst ∧ p < 64 * b then m0 .input p ^^^ stream dr (m0 .key) (m0 .nonce) p else m0 r p)
    (hd : Done m .input (64 * b) dst (64 * b) w D m')
    (hw : ∀ k, k < 16 * c → w k = (hash dr (expand (m0 .key) (m0 .nonce) (b + k / 16))).toList.getD (k % 16) 0) (r : Region) (p : Nat) (hr : r ≠ .tmp) :
    m' r p = if r = dst ∧ p < 64 * (b + c) then m0 .input p ^^^ stream dr (m0 .key) (m0 .nonce) p else m0 r p := by
  rw [hd r p]
  by_cases hc : r = dst ∧ 64 * b ≤ p ∧ (p - 64 * b) / 4 ∈ D
  · have hk := (hD _).1 hc.2.2
    have hcc : r = dst ∧ p < 64 * (b + c) := ⟨hc.1, by omega⟩
    rw [if_pos hc, if_pos hcc, hw _ hk, show 64 * b + (p - 64 * b) = p by omega, hm .input p (by decide)]
    have hn' : ¬ (Region.input = dst ∧ p < 64 * b) := fun h => by omega
    rw [if_neg hn', UInt8.xor_comm]
    congr 1
    have := stream_eq (dr := dr) (m0 .key) (m0 .nonce) b (p - 64 * b)
    rw [show 64 * b + (p - 64 * b) = p by omega] at this
    exact this.symm
  · rw [if_neg hc, hm r p hr]
    by_cases hd : r = dst ∧ p < 64 * b
    · rw [if_pos hd, if_pos ⟨hd.1, by omega⟩]
    · rw [if_neg hd, if_neg]
      rintro ⟨h1, h2⟩
      by_cases hlt : p < 64 * b
      · exact hd ⟨h1, hlt⟩
      · exact hc ⟨h1, by omega, (hD _).2 (by omega)⟩

theorem fdiag_congr (f f' : Nat → UInt32) (h : ∀ j, j < 80 → f j = f' j) : fdiag f = fdiag f' := by
  unfold fdiag
  simp only [h 12 (by omega), h 1 (by omega), h 6 (by omega), h 11 (by omega), h 8 (by omega), h 13 (by omega), h 2 (by omega),
    h 7 (by omega), h 4 (by omega), h 9 (by omega), h 14 (by omega), h 3 (by omega), h 0 (by omega), h 5 (by omega), h 10 (by omega), h 15 (by omega)]

theorem bcast_congr (f f' : Nat → UInt32) (h : ∀ j, j < 72 ∨ 88 ≤ j ∧ j < 102 → j ≠ 4 → j ≠ 9 → f j = f' j) (hb : Bcast f') : Bcast f := by
  intro l hl
  have := hb l hl
  have h' : ∀ j, 10 ≤ j ∧ j < 72 → f j = f' j := fun j hj => h j (by omega) (by omega) (by omega)
  rw [h' (28 + l) (by omega), h' (44 + l) (by omega), h' (56 + l) (by omega), h' (68 + l) (by omega), h' (60 + l) (by omega),
    h' (16 + l) (by omega), h' (32 + l) (by omega), h' (48 + l) (by omega), h' (20 + l) (by omega), h' (36 + l) (by omega), h' (40 + l) (by omega),
    h' (52 + l) (by omega), h' (64 + l) (by omega), h' (24 + l) (by omega), h' 12 (by omega), h 1 (by omega) (by omega) (by omega),
    h 6 (by omega) (by omega) (by omega), h' 11 (by omega), h 8 (by omega) (by omega) (by omega), h' 13 (by omega), h 2 (by omega) (by omega) (by omega),
    h 7 (by omega) (by omega) (by omega), h' 14 (by omega), h 3 (by omega) (by omega) (by omega), h 0 (by omega) (by omega) (by omega),
    h 5 (by omega) (by omega) (by omega), h' 10 (by omega), h' 15 (by omega)]
  exact this

/-- Four blocks -/
theorem step4 (n : Nat) (hn : n < 100) (hp : Place dst) (hlen : len ≤ 2 ^ 38) (b rem : Nat) (s : St) (h : Inv regs dst len m0 (2 * (n + 1)) b rem s) (hb : Bcast s.v.f)
    (hrem : 256 ≤ rem) :
    ∃ s', Reach (layout dst len) (UInt64.ofNat (4 + 4 * n)) .atLeast256 s (if 256 ≤ rem - 256 then .atLeast256 else .rest) s' ∧
      Inv regs dst len m0 (2 * (n + 1)) (b + 4) (rem - 256) s' ∧ Bcast s'.v.f := by
  obtain ⟨hok, h9, hsi, hdi, hl, hf, hsv, hm⟩ := h
  have hf' := hf
  simp only [fdiag, expand, Words.mk.injEq] at hf'
  obtain ⟨f0, f1, f2, f3, f4, f5, f6, f7, f8, f9, f10, f11, f12, f13, f14, f15⟩ := hf'
  obtain ⟨c1, c2, c3, c4, c5, c6, c7, c8, c9, c10⟩ := counters_exec (layout dst len) s (UInt64.ofNat (4 + 4 * n)) _ b (by omega) f8
    (by rw [f9, Nat.div_eq_of_lt (by omega)]; rfl) h9 _ rfl
  generalize hs1 : execs (layout dst len) s (counters (UInt64.ofNat (4 + 4 * n))) = s1 at c1 c2 c3 c4 c5 c6 c7 c8 c9 c10
  -- the frame for four blocks, and for the next one
  have hb1 : Bcast s1.v.f := bcast_congr _ _ c10 hb
  have hd1 : fdiag s1.v.f = expand (m0 .key) (m0 .nonce) (b + 4) := by
    simp only [fdiag, expand, Words.mk.injEq]
    rw [c10 12 (by omega) (by omega) (by omega),
      c10 1 (by omega) (by omega) (by omega), c10 6 (by omega) (by omega) (by omega), c10 11 (by omega) (by omega) (by omega),
      c10 8 (by omega) (by omega) (by omega), c10 13 (by omega) (by omega) (by omega), c10 2 (by omega) (by omega) (by omega),
      c10 7 (by omega) (by omega) (by omega), c10 14 (by omega) (by omega) (by omega), c10 3 (by omega) (by omega) (by omega),
      c10 0 (by omega) (by omega) (by omega), c10 5 (by omega) (by omega) (by omega), c10 10 (by omega) (by omega) (by omega),
      c10 15 (by omega) (by omega) (by omega)]
    exact ⟨f0, f1, f2, f3, f4, f5, f6, f7, c7, c8, f10, f11, f12, f13, f14, f15⟩
  have hl1 : ∀ l, l < 4 → flane s1.v.f l = expand (m0 .key) (m0 .nonce) (b + l) := by
    intro l hl
    obtain ⟨b0, b1, b2, b3, b4, b5, b6, b7, b10, b11, b12, b13, b14, b15⟩ := hb1 l hl
    simp only [fdiag, expand, Words.mk.injEq] at hd1
    obtain ⟨g0, g1, g2, g3, g4, g5, g6, g7, _, _, g10, g11, g12, g13, g14, g15⟩ := hd1
    simp only [flane, expand, Words.mk.injEq]
    refine ⟨b0.trans g0, b1.trans g1, b2.trans g2, b3.trans g3, b4.trans g4, b5.trans g5, b6.trans g6, b7.trans g7, (c6 l hl).1, ?_, b10.trans g10,
      b11.trans g11, b12.trans g12, b13.trans g13, b14.trans g14, b15.trans g15⟩
    rw [(c6 l hl).2, Nat.div_eq_of_lt (by omega)]
    rfl
  -- words of the four blocks
  have r1 : Reach (layout dst len) (UInt64.ofNat (4 + 4 * n)) .atLeast256 s .mainloop1 { s1 with v := vexecs u32 s1.v load4 } := by
    have e : (prog (UInt64.ofNat (4 + 4 * n)) .atLeast256).1 = counters (UInt64.ofNat (4 + 4 * n)) ++ load4.map .v := rfl
    refine reach_jmp rfl ?_ (c1.trans hok)
    rw [e, execs_append, hs1, execs_v]
  -- the rounds
  obtain ⟨s2, r2, k1, k2, k3, k4, k5⟩ := loop1 (L := layout dst len) (R := UInt64.ofNat (4 + 4 * n)) (2 * n + 1) { s1 with v := vexecs u32 s1.v load4 } (by omega) (c1.trans hok)
    (by rw [show 2 + 2 * (2 * n + 1) = 4 + 4 * n by omega]; exact c3)
  have hl2 : ∀ l, l < 4 → flane s2.v.f l = expand (m0 .key) (m0 .nonce) (b + l) := by
    intro l hl
    rw [← hl1 l hl]
    unfold flane
    rw [k4 _ (by omega), k4 _ (by omega), k4 _ (by omega), k4 _ (by omega), k4 _ (by omega), k4 _ (by omega), k4 _ (by omega), k4 _ (by omega),
      k4 _ (by omega), k4 _ (by omega), k4 _ (by omega), k4 _ (by omega), k4 _ (by omega), k4 _ (by omega), k4 _ (by omega), k4 _ (by omega)]
    rfl
  have hw : ∀ k, k < 64 → w4 s2.v k = (hash (2 * (n + 1)) (expand (m0 .key) (m0 .nonce) (b + k / 16))).toList.getD (k % 16) 0 := by
    intro k hk
    show p4 s2.v (k / 16) (k % 16) = _
    rw [p4_eq _ _ _ (by omega), hl2 _ (by omega), k5 _ (by omega), load4_lane, hl1 _ (by omega)]
    rfl
  -- the result
  have hsi2 : s2.gpr rsi = .ptr .input (64 * b) := by rw [k3 _ (by decide)]; exact c4.trans hsi
  have hdi2 : s2.gpr rdi = .ptr dst (64 * b) := by rw [k3 _ (by decide)]; exact c5.trans hdi
  have ha := chunks4_exec (layout dst len) s2 .input (64 * b) dst (64 * b) hsi2 hdi2 (by show _ ≤ len; omega) (by rw [place_size hp]; omega)
    (place_writable dst len) (fun _ => rfl)
  have e3 : execs (layout dst len) s2 out4 = execs (layout dst len) (execs (layout dst len) s2 (chunks4.flatMap (Chunk.code g4))) tail4 := by
    rw [out4_eq, execs_append]
  generalize execs (layout dst len) s2 (chunks4.flatMap (Chunk.code g4)) = s3 at ha e3
  have hf3 : s3.v.f = s2.v.f := by rw [ha.v]; exact vcodes4_frame _
  obtain ⟨t1, t2, t3, t4, t5, t6, t7⟩ := tail4_exec (dst := dst) (layout dst len) s3 rem hrem (by omega) (by
      rw [hf3, k4 102 (by omega), k4 103 (by omega)]; exact c9) .input (64 * b) (by rw [ha.gpr _ (by unfold Four.Mem g4; decide)]; exact hsi2) (64 * b)
    (by rw [ha.gpr _ (by unfold Four.Mem g4; decide)]; exact hdi2) _ rfl
  rw [← e3] at t1 t2 t3 t4 t5 t6 t7
  have eo : (prog (UInt64.ofNat (4 + 4 * n)) .out4).1 = out4 := rfl
  have r3 := reach_jcc (L := layout dst len) (R := UInt64.ofNat (4 + 4 * n)) (l := .out4) (s := s2) (s' := execs (layout dst len) s2 out4) .jae
    .atLeast256 .rest _ rfl (by rw [eo]) ((t1.trans ha.ok).trans k1) t7 rfl
  have hcond : (if Cond.jae.holds (UInt64.ofNat (rem - 256), 256) then Label.atLeast256 else .rest) = if 256 ≤ rem - 256 then .atLeast256 else .rest := by
    show (if decide (UInt64.ofNat 256 ≤ UInt64.ofNat (rem - 256)) = true then Label.atLeast256 else .rest) = _
    simp only [decide_eq_true_eq, le_ofNat 256 (rem - 256) (by omega) (by omega)]
  rw [hcond] at r3
  have hf4 : ∀ j, j < 80 ∨ 88 ≤ j → (execs (layout dst len) s2 out4).v.f j = s1.v.f j := by
    intro j hj
    rw [t3, hf3, k4 j hj]
    rfl
  generalize execs (layout dst len) s2 out4 = s4 at t1 t2 t3 t4 t5 t6 t7 r3 hf4
  have hm' := ha.mem
  rw [k2] at hm'
  refine ⟨s4, (r1.trans r2).trans r3, ⟨(t1.trans ha.ok).trans k1, t4, t5, t6, by omega, ?_, ?_, ?_⟩, ?_⟩
  · rw [← hd1]
    exact fdiag_congr _ _ fun j hj => hf4 j (Or.inl hj)
  · exact saved_congr (fun j hj => (hf4 j (Or.inr hj.1)).trans (c10 j (Or.inr hj) (by omega) (by omega))) hsv
  · intro r p hr
    rw [t2]
    exact mem_step b 4 s1.mem s3.mem (w4 s2.v) _ ks4 (by rw [c2]; exact hm) hm' hw r p hr
  · exact bcast_congr _ _ (fun j hj _ _ => hf4 j (by omega)) hb1

/-! ## Single blocks -/

theorem single_exec (L : Layout) (s : St) (R n : UInt64) (h9 : s.gpr r9 = .num n) (s' : St) (hs' : s' = execs L s (single R)) :
    s'.ok = s.ok ∧ s'.mem = s.mem ∧ s'.gpr rcx = .num R ∧ (∀ r, r ≠ rcx → s'.gpr r = s.gpr r) ∧ (∀ j, j < 102 → s'.v.f j = s.v.f j) ∧
    join (s'.v.f 102) (s'.v.f 103) = n ∧ s'.v.x 4 = s'.v.x 1 ∧ (diag s'.v).words = fdiag s.v.f := by
  unfold r9 at h9
  simp only [execs, single, List.foldl_cons, List.foldl_nil, Instr.exec, St.setR, r9, rcx, h9] at hs'
  subst hs'
  refine ⟨rfl, rfl, rfl, ?_, ?_, ?_, rfl, rfl⟩
  · intro r hr
    exact if_neg hr
  · intro j hj
    have a1 : j ≠ 102 := by omega
    have a2 : j ≠ 103 := by omega
    simp [VI.exec, VSt.setX, VSt.setW, a1, a2]
  · simp [VI.exec, VSt.setX, VSt.setW, join_halves]

theorem tail1_exec (L : Layout) (s : St) (n : UInt64) (b : Nat) (hb : b < 2 ^ 32) (h9 : join (s.v.f 102) (s.v.f 103) = n) (f4 : s.v.f 4 = UInt32.ofNat b)
    (f9 : s.v.f 9 = 0) (s' : St) (hs' : s' = execs L s tail1) :
    s'.ok = s.ok ∧ s'.mem = s.mem ∧ s'.gpr r9 = .num n ∧ s'.gpr rsi = s.gpr rsi ∧ s'.gpr rdi = s.gpr rdi ∧ s'.gpr rdx = s.gpr rdx ∧
    s'.flags = some (n, 64) ∧ s'.v.f 4 = UInt32.ofNat (b + 1) ∧ s'.v.f 9 = UInt32.ofNat ((b + 1) / 2 ^ 32) ∧
    ∀ j, j ≠ 4 → j ≠ 9 → s'.v.f j = s.v.f j := by
  have e0 : (s.v.f 4).toUInt64 = UInt64.ofNat b := by rw [f4]; exact ofNat_widen b hb
  have e9 : (s.v.f 9).toUInt64 = 0 := by rw [f9]; rfl
  have z : (0 : UInt64) <<< 32 = 0 := by decide
  have b1 := ofNat_succ b
  have e1 := ofNat_hi (b + 1) (by omega)
  have o1 : UInt64.ofNat 1 = 1 := rfl
  simp only [execs, tail1, List.foldl_cons, List.foldl_nil, Instr.exec, St.setR, VSt.setW, rcx, r8, r9, h9, e0, e9, z, b1, e1, o1, UInt64.add_zero,
    reduceIte, Nat.reduceEqDiff, Nat.reduceAdd] at hs'
  subst hs'
  refine ⟨rfl, rfl, rfl, rfl, rfl, rfl, rfl, ?_, ?_, ?_⟩
  · show (UInt64.ofNat (b + 1)).toUInt32 = _
    exact ofNat_lo _
  · show (UInt64.ofNat ((b + 1) / 2 ^ 32)).toUInt32 = _
    exact ofNat_lo _
  · intro j n4 n9
    simp [n4, n9]

/-- One block, at `src` -/
theorem block1 (L : Layout) (n : Nat) (hn : n < 100) (K N : Nat → UInt8) (b rem : Nat) (hb : b < 2 ^ 32) (hrem : rem < 2 ^ 64) (src : Region) (so : Nat) (d : Region) (d0 : Nat)
    (s : St) (hok : s.ok = true) (h9 : s.gpr r9 = .num (UInt64.ofNat rem)) (hsi : s.gpr rsi = .ptr src so) (hdi : s.gpr rdi = .ptr d d0)
    (hf : fdiag s.v.f = expand K N b) (hsv : Saved regs s.v.f) (bs : so + 64 ≤ L.size src) (bd : d0 + 64 ≤ L.size d) (hw : L.writable d = true) (ha : src = d → so = d0) :
    ∃ s' w D, Reach L (UInt64.ofNat (4 + 4 * n)) .nocopy s (if 64 < rem then .next else .last) s' ∧ s'.ok = true ∧ s'.gpr r9 = .num (UInt64.ofNat rem) ∧
      s'.gpr rsi = .ptr src so ∧ s'.gpr rdi = .ptr d d0 ∧ s'.gpr rdx = s.gpr rdx ∧ s'.flags = some (UInt64.ofNat rem, 64) ∧
      fdiag s'.v.f = expand K N (b + 1) ∧ Saved regs s'.v.f ∧ Done s.mem src so d d0 w D s'.mem ∧ (∀ k, k ∈ D ↔ k < 16) ∧
      ∀ k, k < 16 → w k = (hash (2 * (n + 1)) (expand K N b)).toList.getD k 0 := by
  have ec : (prog (UInt64.ofNat (4 + 4 * n)) .nocopy).1 = single (UInt64.ofNat (4 + 4 * n)) := rfl
  obtain ⟨c1, c2, c3, c4, c5, c6, c7, c8⟩ := single_exec L s (UInt64.ofNat (4 + 4 * n)) _ h9 _ rfl
  have r1 : Reach L (UInt64.ofNat (4 + 4 * n)) .nocopy s .mainloop2 (execs L s (single (UInt64.ofNat (4 + 4 * n)))) :=
    reach_jmp rfl (by rw [ec]) (c1.trans hok)
  generalize execs L s (single (UInt64.ofNat (4 + 4 * n))) = s1 at c1 c2 c3 c4 c5 c6 c7 c8 r1
  obtain ⟨s2, r2, k1, k2, k3, k4, k5⟩ := loop2 (L := L) (R := UInt64.ofNat (4 + 4 * n)) n s1 (by omega) (c1.trans hok) c3 c7
  have hsi2 : s2.gpr rsi = .ptr src so := by rw [k3 _ (by decide), c4 _ (by decide)]; exact hsi
  have hdi2 : s2.gpr rdi = .ptr d d0 := by rw [k3 _ (by decide), c4 _ (by decide)]; exact hdi
  have hf2 : fdiag s2.v.f = expand K N b := by
    rw [← hf, k4]
    exact fdiag_congr _ _ fun j hj => c5 j (by omega)
  have hx := hf2
  simp only [fdiag, expand, Words.mk.injEq] at hx
  obtain ⟨f0, f1, f2, f3, f4, f5, f6, f7, f8, f9, f10, f11, f12, f13, f14, f15⟩ := hx
  have ha := chunks1_exec L s2 src so d d0 hsi2 hdi2 bs bd hw ha
  have e3 : execs L s2 out1 = execs L (execs L s2 (chunks1.flatMap (Chunk.code g1))) tail1 := by
    rw [out1_eq, execs_append]
  generalize execs L s2 (chunks1.flatMap (Chunk.code g1)) = s3 at ha e3
  have hf3 : s3.v.f = s2.v.f := by rw [ha.v]; exact vcodes1_frame _
  obtain ⟨t1, t2, t3, t4, t5, t6, t7, t8, t9, t10⟩ := tail1_exec L s3 (UInt64.ofNat rem) b hb (by rw [hf3, k4]; exact c6) (by rw [hf3]; exact f8)
    (by rw [hf3, f9, Nat.div_eq_of_lt hb]; rfl) _ rfl
  rw [← e3] at t1 t2 t3 t4 t5 t6 t7 t8 t9 t10
  have eo : (prog (UInt64.ofNat (4 + 4 * n)) .out1).1 = out1 := rfl
  have r3 := reach_jcc (L := L) (R := UInt64.ofNat (4 + 4 * n)) (l := .out1) (s := s2) (s' := execs L s2 out1) .ja
    .next .last _ rfl (by rw [eo]) ((t1.trans ha.ok).trans k1) t7 rfl
  have hcond : (if Cond.ja.holds (UInt64.ofNat rem, 64) then Label.next else .last) = if 64 < rem then .next else .last := by
    show (if decide (UInt64.ofNat 64 < UInt64.ofNat rem) = true then Label.next else .last) = _
    simp only [decide_eq_true_eq, lt_ofNat 64 rem (by omega) (by omega)]
  rw [hcond] at r3
  generalize execs L s2 out1 = s4 at t1 t2 t3 t4 t5 t6 t7 t8 t9 t10 r3
  have hm' := ha.mem
  rw [k2, c2, ← t2] at hm'
  refine ⟨s4, w1 s2.v, _, (r1.trans r2).trans r3, (t1.trans ha.ok).trans k1, t3, ?_, ?_, ?_, t7, ?_, ?_, hm', ks1, ?_⟩
  · rw [t4, ha.gpr _ (by unfold Four.Mem g1; decide)]; exact hsi2
  · rw [t5, ha.gpr _ (by unfold Four.Mem g1; decide)]; exact hdi2
  · rw [t6, ha.gpr _ (by unfold Four.Mem g1; decide), k3 _ (by decide), c4 _ (by decide)]
  · simp only [fdiag, expand, Words.mk.injEq]
    rw [t10 12 (by omega) (by omega), t10 1 (by omega) (by omega), t10 6 (by omega) (by omega), t10 11 (by omega) (by omega), t10 8 (by omega) (by omega),
      t10 13 (by omega) (by omega), t10 2 (by omega) (by omega), t10 7 (by omega) (by omega), t10 14 (by omega) (by omega), t10 3 (by omega) (by omega),
      t10 0 (by omega) (by omega), t10 5 (by omega) (by omega), t10 10 (by omega) (by omega), t10 15 (by omega) (by omega), hf3]
    exact ⟨f0, f1, f2, f3, f4, f5, f6, f7, t8, t9, f10, f11, f12, f13, f14, f15⟩
  · refine saved_congr (fun j hj => ?_) hsv
    rw [t10 j (by omega) (by omega), hf3, k4]
    exact c5 j hj.2
  · intro k hk
    rw [w1_eq _ _ hk, hf2, k5, c8, hf]
    rfl

/-- What the function has to do -/
def Result (regs : Nat → UInt64) (dst : Region) (len : Nat) (m0 : Mem) (dr : Nat) (s : St) : Prop :=
  s.ok = true ∧ Saved regs s.v.f ∧ ∀ r p, r ≠ .tmp → s.mem r p = if r = dst ∧ p < len then m0 .input p ^^^ stream dr (m0 .key) (m0 .nonce) p else m0 r p

theorem reach_cmp (c : Cond) (yes no : Label) (n : Nat) (a : Nat) (l l' : Label) (L : Layout) (s : St) (x : UInt64) (hx : x = UInt64.ofNat a)
    (h1 : (prog R l).1 = [.cmpI x r9]) (he : (prog R l).2 = .jcc c yes no) (hok : s.ok = true) (h9 : s.gpr r9 = .num (UInt64.ofNat n))
    (hl : l' = if c.holds (UInt64.ofNat n, UInt64.ofNat a) then yes else no) : Reach L R l s l' { s with flags := some (UInt64.ofNat n, UInt64.ofNat a) } := by
  refine reach_jcc c yes no _ he ?_ hok rfl hl
  rw [h1]
  simp only [execs, List.foldl_cons, List.foldl_nil, Instr.exec, h9, hx]

/-- The last part of a block -/
theorem lastPart (n : Nat) (hn : n < 100) (hp : Place dst) (hlen : len ≤ 2 ^ 38) (b rem : Nat) (s : St) (h : Inv regs dst len m0 (2 * (n + 1)) b rem s) (h0 : 0 < rem)
    (hrem : rem < 64) :
    ∃ s', Reach (layout dst len) (UInt64.ofNat (4 + 4 * n)) .copyIn s .done s' ∧ Result regs dst len m0 (2 * (n + 1)) s' := by
  obtain ⟨hok, h9, hsi, hdi, hl, hf, hsv, hm⟩ := h
  have hr : (UInt64.ofNat rem).toNat = rem := by simp only [UInt64.toNat_ofNat']; omega
  -- to the temporary memory
  generalize hs1 : execs (layout dst len) s copyIn = s1
  have hc1 : s1.ok = true ∧ s1.gpr rdx = .ptr dst (64 * b) ∧ s1.gpr rdi = .ptr .tmp 0 ∧ s1.gpr rsi = .ptr .tmp 0 ∧ s1.gpr r9 = .num (UInt64.ofNat rem) ∧
      s1.v = s.v ∧ s1.mem = copyBytes rem s.mem .input (64 * b) .tmp 0 := by
    unfold r9 at h9
    unfold rsi at hsi
    unfold rdi at hdi
    have hbnd : 64 * b + rem ≤ (layout dst len).size .input ∧ 0 + rem ≤ (layout dst len).size .tmp ∧ (layout dst len).writable .tmp = true :=
      ⟨by show _ ≤ len; omega, by show _ ≤ 64; omega, by simp [layout]⟩
    simp only [execs, copyIn, List.foldl_cons, List.foldl_nil, Instr.exec, St.setR, rdx, rdi, rsi, rcx, r9, h9, hsi, hdi, hr, reduceIte, Nat.reduceEqDiff,
      if_pos hbnd] at hs1
    subst hs1
    exact ⟨hok, rfl, rfl, rfl, h9, rfl, rfl⟩
  obtain ⟨q1, q2, q3, q4, q5, q6, q7⟩ := hc1
  have ei : (prog (UInt64.ofNat (4 + 4 * n)) .copyIn).1 = copyIn := rfl
  have r1 : Reach (layout dst len) (UInt64.ofNat (4 + 4 * n)) .copyIn s .nocopy s1 := reach_jmp rfl (by rw [ei, hs1]) q1
  obtain ⟨s2, w, D, r2, k1, k2, k3, k4, k5, k6, k7, ksv, k8, k9, k10⟩ := block1 (layout dst len) n hn (m0 .key) (m0 .nonce) b rem (by omega) (by omega) .tmp 0 .tmp 0 s1 q1 q5 q4 q3
    (by rw [q6]; exact hf) (by rw [q6]; exact hsv) (by show _ ≤ 64; omega) (by show _ ≤ 64; omega) (by simp [layout]) (fun _ => rfl)
  rw [if_neg (by omega)] at r2
  have r3 : Reach (layout dst len) (UInt64.ofNat (4 + 4 * n)) .last s2 .copyOut s2 := by
    refine reach_jcc .jae .done .copyOut (UInt64.ofNat rem, 64) rfl rfl k1 k6 ?_
    rw [if_neg]
    show ¬ decide (UInt64.ofNat 64 ≤ UInt64.ofNat rem) = true
    rw [decide_eq_true_eq, le_ofNat _ _ (by omega) (by omega)]
    omega
  generalize hs3 : execs (layout dst len) s2 copyOut = s3
  have hc3 : s3.ok = true ∧ s3.mem = copyBytes rem s2.mem .tmp 0 dst (64 * b) ∧ s3.v = s2.v := by
    have k5' := k5.trans q2
    unfold r9 at k2
    unfold rsi at k3
    unfold rdi at k4
    unfold rdx at k5'
    have hbnd : 0 + rem ≤ (layout dst len).size .tmp ∧ 64 * b + rem ≤ (layout dst len).size dst ∧ (layout dst len).writable dst = true :=
      ⟨by show _ ≤ 64; omega, by rw [place_size hp]; omega, place_writable dst len⟩
    simp only [execs, copyOut, List.foldl_cons, List.foldl_nil, Instr.exec, St.setR, rdx, rdi, rsi, rcx, r9, k2, k3, k4, k5', hr, reduceIte, Nat.reduceEqDiff,
      if_pos hbnd] at hs3
    subst hs3
    exact ⟨k1, rfl, rfl⟩
  have eo : (prog (UInt64.ofNat (4 + 4 * n)) .copyOut).1 = copyOut := rfl
  have r4 : Reach (layout dst len) (UInt64.ofNat (4 + 4 * n)) .copyOut s2 .done s3 := reach_jmp rfl (by rw [eo, hs3]) hc3.1
  refine ⟨s3, ((r1.trans r2).trans r3).trans r4, hc3.1, by rw [hc3.2.2]; exact ksv, ?_⟩
  intro r p hrt
  have htmp := place_tmp hp
  have hm2 : ∀ r p, r ≠ .tmp → s2.mem r p = s.mem r p := by
    intro r p hrt
    rw [k8 r p, if_neg (fun h => hrt h.1), q7, copyBytes_apply _ _ _ _ _ _ (by decide), if_neg (fun h => hrt h.1)]
  rw [hc3.2.1, copyBytes_apply _ _ _ _ _ _ (Ne.symm htmp)]
  by_cases hc : r = dst ∧ 64 * b ≤ p ∧ p < 64 * b + rem
  · have hcc : r = dst ∧ p < len := ⟨hc.1, by omega⟩
    rw [if_pos hc, if_pos hcc, Nat.zero_add, k8 .tmp (p - 64 * b)]
    have hin : Region.tmp = Region.tmp ∧ 0 ≤ p - 64 * b ∧ (p - 64 * b - 0) / 4 ∈ D := ⟨rfl, by omega, (k9 _).2 (by omega)⟩
    rw [if_pos hin, k10 _ (by omega), q7, copyBytes_apply _ _ _ _ _ _ (by decide)]
    have hin2 : Region.tmp = Region.tmp ∧ 0 ≤ 0 + (p - 64 * b - 0) ∧ 0 + (p - 64 * b - 0) < 0 + rem := ⟨rfl, by omega, by omega⟩
    rw [if_pos hin2, show 64 * b + (0 + (p - 64 * b - 0) - 0) = p by omega, hm .input p (by decide)]
    have hn' : ¬ (Region.input = dst ∧ p < 64 * b) := fun h => by omega
    have hst := stream_eq (dr := 2 * (n + 1)) (m0 .key) (m0 .nonce) b (p - 64 * b)
    rw [show 64 * b + (p - 64 * b) = p by omega, show b + (p - 64 * b) / 4 / 16 = b by omega, show (p - 64 * b) / 4 % 16 = (p - 64 * b) / 4 by omega] at hst
    rw [if_neg hn', UInt8.xor_comm, hst, Nat.sub_zero]
  · rw [if_neg hc, hm2 r p hrt, hm r p hrt]
    by_cases hd : r = dst ∧ p < 64 * b
    · rw [if_pos hd, if_pos ⟨hd.1, by omega⟩]
    · rw [if_neg hd, if_neg]
      rintro ⟨h1, h2⟩
      by_cases hlt : p < 64 * b
      · exact hd ⟨h1, hlt⟩
      · exact hc ⟨h1, by omega, by omega⟩

/-- The blocks one by one -/
theorem singles (n : Nat) (hn : n < 100) (hp : Place dst) (hlen : len ≤ 2 ^ 38) (rem : Nat) : ∀ (b : Nat) (s : St),
    Inv regs dst len m0 (2 * (n + 1)) b rem s → 0 < rem →
    ∃ s', Reach (layout dst len) (UInt64.ofNat (4 + 4 * n)) .between1and255 s .done s' ∧ Result regs dst len m0 (2 * (n + 1)) s' := by
  induction rem using Nat.strongRecOn with
  | ind rem ih =>
    intro b s h h0
    have hl := h.left
    by_cases hlt : rem < 64
    · have r0 := reach_cmp (R := UInt64.ofNat (4 + 4 * n)) .jae .nocopy .copyIn rem 64 .between1and255 .copyIn (layout dst len) s 64 rfl rfl rfl h.ok h.r9 (by
        rw [if_neg]
        show ¬ decide (UInt64.ofNat 64 ≤ UInt64.ofNat rem) = true
        rw [decide_eq_true_eq, le_ofNat _ _ (by omega) (by omega)]
        omega)
      obtain ⟨s', h1, h2⟩ := lastPart n hn hp hlen b rem { s with flags := some (UInt64.ofNat rem, UInt64.ofNat 64) }
        ⟨h.ok, h.r9, h.rsi, h.rdi, h.left, h.frame, h.saved, h.mem⟩ h0 hlt
      exact ⟨s', r0.trans h1, h2⟩
    · have r0 := reach_cmp (R := UInt64.ofNat (4 + 4 * n)) .jae .nocopy .copyIn rem 64 .between1and255 .nocopy (layout dst len) s 64 rfl rfl rfl h.ok h.r9 (by
        rw [if_pos]
        show decide (UInt64.ofNat 64 ≤ UInt64.ofNat rem) = true
        rw [decide_eq_true_eq, le_ofNat _ _ (by omega) (by omega)]
        omega)
      obtain ⟨s2, w, D, r2, k1, k2, k3, k4, k5, k6, k7, ksv, k8, k9, k10⟩ := block1 (layout dst len) n hn (m0 .key) (m0 .nonce) b rem (by omega) (by omega) .input (64 * b) dst (64 * b)
        { s with flags := some (UInt64.ofNat rem, UInt64.ofNat 64) } h.ok h.r9 h.rsi h.rdi h.frame h.saved (by show _ ≤ len; omega) (by rw [place_size hp]; omega)
        (place_writable dst len) (fun _ => rfl)
      have hm2 : ∀ r p, r ≠ .tmp → s2.mem r p = if r = dst ∧ p < 64 * (b + 1) then m0 .input p ^^^ stream (2 * (n + 1)) (m0 .key) (m0 .nonce) p else m0 r p :=
        fun r p hr => mem_step b 1 s.mem s2.mem w D (by simpa using k9) h.mem k8 (by
          intro k hk
          rw [k10 k (by omega), show k / 16 = 0 by omega, show k % 16 = k by omega]
          rfl) r p hr
      by_cases hgt : 64 < rem
      · rw [if_pos hgt] at r2
        generalize hs3 : execs (layout dst len) s2 [.subI 64 r9, .addI 64 rdi, .addI 64 rsi] = s3
        have hc3 : s3.ok = true ∧ s3.gpr r9 = .num (UInt64.ofNat (rem - 64)) ∧ s3.gpr rsi = .ptr .input (64 * (b + 1)) ∧
            s3.gpr rdi = .ptr dst (64 * (b + 1)) ∧ s3.v = s2.v ∧ s3.mem = s2.mem := by
          have e : UInt64.ofNat rem - 64 = UInt64.ofNat (rem - 64) := by
            have := sub_small (rem - 64) 64 (by omega)
            rwa [show 64 + (rem - 64) = rem by omega] at this
          unfold r9 at k2
          unfold rsi at k3
          unfold rdi at k4
          simp only [execs, List.foldl_cons, List.foldl_nil, Instr.exec, St.setR, rdi, rsi, r9, k2, k3, k4, e, reduceIte, Nat.reduceEqDiff] at hs3
          subst hs3
          exact ⟨k1, rfl, rfl, rfl, rfl, rfl⟩
        obtain ⟨q1, q2, q3, q4, q5, q6⟩ := hc3
        have en : (prog (UInt64.ofNat (4 + 4 * n)) .next).1 = [.subI 64 r9, .addI 64 rdi, .addI 64 rsi] := rfl
        have r3 : Reach (layout dst len) (UInt64.ofNat (4 + 4 * n)) .next s2 .between1and255 s3 := reach_jmp rfl (by rw [en, hs3]) q1
        obtain ⟨s', h1, h2⟩ := ih (rem - 64) (by omega) (b + 1) s3 ⟨q1, q2, q3, q4, by omega, by rw [q5]; exact k7, by rw [q5]; exact ksv, by rw [q6]; exact hm2⟩ (by omega)
        exact ⟨s', ((r0.trans r2).trans r3).trans h1, h2⟩
      · rw [if_neg hgt] at r2
        have r3 : Reach (layout dst len) (UInt64.ofNat (4 + 4 * n)) .last s2 .done s2 := by
          refine reach_jcc .jae .done .copyOut (UInt64.ofNat rem, 64) rfl rfl k1 k6 ?_
          rw [if_pos]
          show decide (UInt64.ofNat 64 ≤ UInt64.ofNat rem) = true
          rw [decide_eq_true_eq, le_ofNat _ _ (by omega) (by omega)]
          omega
        refine ⟨s2, (r0.trans r2).trans r3, k1, ksv, ?_⟩
        intro r p hr
        rw [hm2 r p hr, show 64 * (b + 1) = len by omega]

/-- Four blocks at a time -/
theorem fours (n : Nat) (hn : n < 100) (hp : Place dst) (hlen : len ≤ 2 ^ 38) (rem : Nat) : ∀ (b : Nat) (s : St),
    Inv regs dst len m0 (2 * (n + 1)) b rem s → Bcast s.v.f → 256 ≤ rem →
    ∃ s', Reach (layout dst len) (UInt64.ofNat (4 + 4 * n)) .atLeast256 s .done s' ∧ Result regs dst len m0 (2 * (n + 1)) s' := by
  induction rem using Nat.strongRecOn with
  | ind rem ih =>
    intro b s h hb h0
    obtain ⟨s1, r1, h1, hb1⟩ := step4 n hn hp hlen b rem s h hb h0
    have hl := h1.left
    by_cases hge : 256 ≤ rem - 256
    · rw [if_pos hge] at r1
      obtain ⟨s', h2, h3⟩ := ih (rem - 256) (by omega) (b + 4) s1 h1 hb1 hge
      exact ⟨s', r1.trans h2, h3⟩
    · rw [if_neg hge] at r1
      by_cases hz : rem - 256 = 0
      · have r2 := reach_cmp (R := UInt64.ofNat (4 + 4 * n)) .jbe .done .between1and255 (rem - 256) 0 .rest .done (layout dst len) s1 0 rfl rfl rfl h1.ok h1.r9 (by
          rw [if_pos]
          show decide (UInt64.ofNat (rem - 256) ≤ UInt64.ofNat 0) = true
          rw [decide_eq_true_eq, le_ofNat _ _ (by omega) (by omega)]
          omega)
        refine ⟨_, r1.trans r2, h1.ok, h1.saved, ?_⟩
        intro r p hr
        rw [← show 64 * (b + 4) = len by omega]
        exact h1.mem r p hr
      · have r2 := reach_cmp (R := UInt64.ofNat (4 + 4 * n)) .jbe .done .between1and255 (rem - 256) 0 .rest .between1and255 (layout dst len) s1 0 rfl rfl rfl h1.ok h1.r9 (by
          rw [if_neg]
          show ¬ decide (UInt64.ofNat (rem - 256) ≤ UInt64.ofNat 0) = true
          rw [decide_eq_true_eq, le_ofNat _ _ (by omega) (by omega)]
          omega)
        obtain ⟨s', h2, h3⟩ := singles n hn hp hlen (rem - 256) (b + 4) { s1 with flags := some (UInt64.ofNat (rem - 256), UInt64.ofNat 0) }
          ⟨h1.ok, h1.r9, h1.rsi, h1.rdi, h1.left, h1.frame, h1.saved, h1.mem⟩ (by omega)
        exact ⟨s', (r1.trans r2).trans h2, h3⟩

/-- The function -/
theorem whole (n : Nat) (hn : n < 100) (hp : Place dst) (hlen : len ≤ 2 ^ 38) (v : VSt UInt32) :
    ∃ s', Reach (layout dst len) (UInt64.ofNat (4 + 4 * n)) .entry (initial dst (UInt64.ofNat len) regs v m0) .done s' ∧ Result regs dst len m0 (2 * (n + 1)) s' := by
  obtain ⟨o1, f1, m1, e2, e3, e4, e5, e6, sv1⟩ := entry_exec (layout dst len) dst (UInt64.ofNat len) regs v m0 _ rfl
  have en : (prog (UInt64.ofNat (4 + 4 * n)) .entry).1 = save ++ entry := rfl
  generalize hs1 : execs (layout dst len) (initial dst (UInt64.ofNat len) regs v m0) (save ++ entry) = s1 at o1 f1 m1 e2 e3 e4 e5 e6 sv1
  have r1 := reach_jcc (L := layout dst len) (R := UInt64.ofNat (4 + 4 * n)) (l := .entry) (s := initial dst (UInt64.ofNat len) regs v m0) (s' := s1) .jbe .done .start _ rfl
    (by rw [en, hs1]) o1 f1 rfl
  by_cases hz : len = 0
  · rw [if_pos (by rw [hz]; rfl)] at r1
    refine ⟨s1, r1, o1, sv1, ?_⟩
    intro r p _
    rw [m1, if_neg]
    rintro ⟨_, h⟩
    omega
  · rw [if_neg (by
      show ¬ decide (UInt64.ofNat len ≤ UInt64.ofNat 0) = true
      rw [decide_eq_true_eq, le_ofNat _ _ (by omega) (by omega)]
      omega)] at r1
    have es : (prog (UInt64.ofNat (4 + 4 * n)) .start).1 = setup := rfl
    obtain ⟨q1, q2, q3, q4, q5, q6, q7, q8⟩ := setup_exec dst len s1 _ e4 e6 e5 _ rfl
    have r2 := reach_jcc (L := layout dst len) (R := UInt64.ofNat (4 + 4 * n)) (l := .start) (s := s1) .jb .between1and255 .broadcast _ rfl
      (by rw [es]) (q1.trans o1) q3 rfl
    generalize execs (layout dst len) s1 setup = s2 at q1 q2 q3 q4 q5 q6 q7 q8 r2
    have hinv : Inv regs dst len m0 (2 * (n + 1)) 0 len s2 := by
      refine ⟨q1.trans o1, q4, by rw [q5, e3], by rw [q6, e2], by omega, by rw [q7, m1], saved_congr (fun j hj => q8 j hj.1) sv1, ?_⟩
      intro r p _
      rw [q2, m1, if_neg]
      rintro ⟨_, h⟩
      omega
    by_cases hlt : len < 256
    · rw [if_pos (by
        show decide (UInt64.ofNat len < UInt64.ofNat 256) = true
        rw [decide_eq_true_eq, lt_ofNat _ _ (by omega) (by omega)]
        omega)] at r2
      obtain ⟨s', h1, h2⟩ := singles n hn hp hlen len 0 s2 hinv (by omega)
      exact ⟨s', (r1.trans r2).trans h1, h2⟩
    · rw [if_neg (by
        show ¬ decide (UInt64.ofNat len < UInt64.ofNat 256) = true
        rw [decide_eq_true_eq, lt_ofNat _ _ (by omega) (by omega)]
        omega)] at r2
      have eb : (prog (UInt64.ofNat (4 + 4 * n)) .broadcast).1 = broadcast.map .v := rfl
      have r3 : Reach (layout dst len) (UInt64.ofNat (4 + 4 * n)) .broadcast s2 .atLeast256 { s2 with v := vexecs u32 s2.v broadcast } :=
        reach_jmp rfl (by rw [eb, execs_v]) hinv.ok
      obtain ⟨s', h1, h2⟩ := fours n hn hp hlen len 0 { s2 with v := vexecs u32 s2.v broadcast }
        ⟨hinv.ok, hinv.r9, hinv.rsi, hinv.rdi, hinv.left, by rw [← hinv.frame]; exact broadcast_diag _,
          saved_congr (fun j hj => broadcast_frame _ j hj.1) hinv.saved, hinv.mem⟩ (broadcast_bcast _) (by omega)
      exact ⟨s', ((r1.trans r2).trans r3).trans h1, h2⟩

end Fastd.Crypto.SalsaXmm
