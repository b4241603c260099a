import Verif.Crypto.SalsaMem
import Verif.Crypto.SalsaVec

/-!
# Writing the result in the Salsa20 implementation

Lemmas: `out4` and the first part of `out1` consist of similar groups of instructions, each of which combines four words with words of the message.
-/

namespace Fastd.Crypto.SalsaXmm

/-- A group: vector instructions, four registers whose lowest lanes are combined with the words of the message with the numbers `k0` to `k3`,
and whether the lanes move on by one. -/
structure Chunk where
  pre : List VI
  (a b c d : Nat)
  (k0 k1 k2 k3 : Nat)
  shuf : Bool

/-- Four general registers -/
structure Four where
  (g0 g1 g2 g3 : Nat)

def shuffle (c : Chunk) : List VI :=
  if c.shuf then [.pshufd 57 c.a c.a, .pshufd 57 c.b c.b, .pshufd 57 c.c c.c, .pshufd 57 c.d c.d] else []

def Chunk.movds (g : Four) (c : Chunk) : List Instr := [.movd c.a g.g0, .movd c.b g.g1, .movd c.c g.g2, .movd c.d g.g3]

def Chunk.stores (g : Four) (c : Chunk) : List Instr :=
  [.xorl (4 * c.k0) rsi g.g0, .xorl (4 * c.k1) rsi g.g1, .xorl (4 * c.k2) rsi g.g2, .xorl (4 * c.k3) rsi g.g3,
   .movlSt g.g0 (4 * c.k0) rdi, .movlSt g.g1 (4 * c.k1) rdi, .movlSt g.g2 (4 * c.k2) rdi, .movlSt g.g3 (4 * c.k3) rdi]

def Chunk.code (g : Four) (c : Chunk) : List Instr :=
  c.pre.map .v ++ (c.movds g ++ ((shuffle c).map .v ++ c.stores g))

theorem execs_append (L : Layout) (s : St) (l l' : List Instr) : execs L s (l ++ l') = execs L (execs L s l) l' := List.foldl_append ..

theorem execs_v (L : Layout) (l : List VI) : ∀ s : St, execs L s (l.map .v) = { s with v := vexecs u32 s.v l } := by
  induction l with
  | nil => intro s; rfl
  | cons i l ih =>
    intro s
    show execs L { s with v := i.exec u32 s.v } (l.map .v) = _
    rw [ih]
    rfl

/-- The registers are not those that hold the pointers, and differ. -/
def Four.Ok (g : Four) : Prop :=
  (g.g0 ≠ rsi ∧ g.g1 ≠ rsi ∧ g.g2 ≠ rsi ∧ g.g3 ≠ rsi) ∧ (g.g0 ≠ rdi ∧ g.g1 ≠ rdi ∧ g.g2 ≠ rdi ∧ g.g3 ≠ rdi) ∧
  (g.g0 ≠ g.g1 ∧ g.g0 ≠ g.g2 ∧ g.g0 ≠ g.g3 ∧ g.g1 ≠ g.g2 ∧ g.g1 ≠ g.g3 ∧ g.g2 ≠ g.g3)

def Four.Mem (g : Four) (r : Nat) : Prop := r = g.g0 ∨ r = g.g1 ∨ r = g.g2 ∨ r = g.g3

theorem movds_exec (L : Layout) (s : St) (g : Four) (hg : g.Ok) (c : Chunk) :
    (execs L s (c.movds g)).v = s.v ∧ (execs L s (c.movds g)).mem = s.mem ∧ (execs L s (c.movds g)).ok = s.ok ∧
    (∀ r, ¬ g.Mem r → (execs L s (c.movds g)).gpr r = s.gpr r) ∧
    (∃ h0, (execs L s (c.movds g)).gpr g.g0 = .num (join (s.v.x c.a 0) h0)) ∧ (∃ h1, (execs L s (c.movds g)).gpr g.g1 = .num (join (s.v.x c.b 0) h1)) ∧
    (∃ h2, (execs L s (c.movds g)).gpr g.g2 = .num (join (s.v.x c.c 0) h2)) ∧ (∃ h3, (execs L s (c.movds g)).gpr g.g3 = .num (join (s.v.x c.d 0) h3)) := by
  obtain ⟨_, _, h01, h02, h03, h12, h13, h23⟩ := hg
  refine ⟨rfl, rfl, rfl, ?_, ⟨s.v.x c.a 1, ?_⟩, ⟨s.v.x c.b 1, ?_⟩, ⟨s.v.x c.c 1, ?_⟩, ⟨s.v.x c.d 1, ?_⟩⟩
  · intro r hr
    unfold Four.Mem at hr
    simp only [not_or] at hr
    simp [execs, Chunk.movds, Instr.exec, St.setR, hr.1, hr.2.1, hr.2.2.1, hr.2.2.2]
  · simp [execs, Chunk.movds, Instr.exec, St.setR, h01, h02, h03]
  · simp [execs, Chunk.movds, Instr.exec, St.setR, h12, h13]
  · simp [execs, Chunk.movds, Instr.exec, St.setR, h23]
  · simp [execs, Chunk.movds, Instr.exec, St.setR]

/-- One `xorl` -/
theorem xorl_exec (L : Layout) (s : St) (o d : Nat) (n : UInt64) (r : Region) (p : Nat) (hd : s.gpr d = .num n) (hs : s.gpr rsi = .ptr r p)
    (hb : p + o + 4 ≤ L.size r) :
    Instr.exec L s (.xorl o rsi d) = { s.setR d (.num (n.toUInt32 ^^^ load32 s.mem r (p + o)).toUInt64) with flags := none } := by
  simp only [Instr.exec, hd, hs, if_pos hb]

/-- One `movl` to memory -/
theorem movlSt_exec (L : Layout) (s : St) (o a : Nat) (n : UInt64) (r : Region) (p : Nat) (hd : s.gpr a = .num n) (hs : s.gpr rdi = .ptr r p)
    (hb : p + o + 4 ≤ L.size r) (hw : L.writable r = true) :
    Instr.exec L s (.movlSt a o rdi) = { s with mem := store32 s.mem r (p + o) n.toUInt32 } := by
  simp only [Instr.exec, hd, hs, if_pos (And.intro hb hw)]

theorem xorls_exec (L : Layout) (s : St) (g : Four) (hg : g.Ok) (k0 k1 k2 k3 : Nat) (src : Region) (so : Nat) (n0 n1 n2 n3 : UInt64)
    (e0 : s.gpr g.g0 = .num n0) (e1 : s.gpr g.g1 = .num n1) (e2 : s.gpr g.g2 = .num n2) (e3 : s.gpr g.g3 = .num n3) (hs : s.gpr rsi = .ptr src so)
    (b0 : so + 4 * k0 + 4 ≤ L.size src) (b1 : so + 4 * k1 + 4 ≤ L.size src) (b2 : so + 4 * k2 + 4 ≤ L.size src) (b3 : so + 4 * k3 + 4 ≤ L.size src)
    (s' : St) (hs' : s' = execs L s [.xorl (4 * k0) rsi g.g0, .xorl (4 * k1) rsi g.g1, .xorl (4 * k2) rsi g.g2, .xorl (4 * k3) rsi g.g3]) :
    s'.v = s.v ∧ s'.mem = s.mem ∧ s'.ok = s.ok ∧ (∀ r, ¬ g.Mem r → s'.gpr r = s.gpr r) ∧
    s'.gpr g.g0 = .num (n0.toUInt32 ^^^ load32 s.mem src (so + 4 * k0)).toUInt64 ∧
    s'.gpr g.g1 = .num (n1.toUInt32 ^^^ load32 s.mem src (so + 4 * k1)).toUInt64 ∧
    s'.gpr g.g2 = .num (n2.toUInt32 ^^^ load32 s.mem src (so + 4 * k2)).toUInt64 ∧
    s'.gpr g.g3 = .num (n3.toUInt32 ^^^ load32 s.mem src (so + 4 * k3)).toUInt64 := by
  obtain ⟨⟨q0, q1, q2, q3⟩, _, h01, h02, h03, h12, h13, h23⟩ := hg
  subst hs'
  simp only [execs, List.foldl_cons, List.foldl_nil]
  rw [xorl_exec L s _ _ n0 src so e0 hs b0]
  rw [xorl_exec L _ _ _ n1 src so (by simp [St.setR, Ne.symm h01, e1]) (by simp [St.setR, Ne.symm q0, hs]) b1]
  rw [xorl_exec L _ _ _ n2 src so (by simp [St.setR, Ne.symm h02, Ne.symm h12, e2]) (by simp [St.setR, Ne.symm q0, Ne.symm q1, hs]) b2]
  rw [xorl_exec L _ _ _ n3 src so (by simp [St.setR, Ne.symm h03, Ne.symm h13, Ne.symm h23, e3])
    (by simp [St.setR, Ne.symm q0, Ne.symm q1, Ne.symm q2, hs]) b3]
  refine ⟨rfl, rfl, rfl, ?_, ?_, ?_, ?_, ?_⟩
  · intro r hr
    unfold Four.Mem at hr
    simp only [not_or] at hr
    simp [St.setR, hr.1, hr.2.1, hr.2.2.1, hr.2.2.2]
  · simp [St.setR, h01, h02, h03]
  · simp [St.setR, h12, h13]
  · simp [St.setR, h23]
  · simp [St.setR]

theorem movls_exec (L : Layout) (s : St) (g : Four) (k0 k1 k2 k3 : Nat) (dst : Region) (d0 : Nat) (n0 n1 n2 n3 : UInt64)
    (e0 : s.gpr g.g0 = .num n0) (e1 : s.gpr g.g1 = .num n1) (e2 : s.gpr g.g2 = .num n2) (e3 : s.gpr g.g3 = .num n3) (hs : s.gpr rdi = .ptr dst d0)
    (b0 : d0 + 4 * k0 + 4 ≤ L.size dst) (b1 : d0 + 4 * k1 + 4 ≤ L.size dst) (b2 : d0 + 4 * k2 + 4 ≤ L.size dst) (b3 : d0 + 4 * k3 + 4 ≤ L.size dst)
    (hw : L.writable dst = true) :
    execs L s [.movlSt g.g0 (4 * k0) rdi, .movlSt g.g1 (4 * k1) rdi, .movlSt g.g2 (4 * k2) rdi, .movlSt g.g3 (4 * k3) rdi] =
      { s with mem := store32 (store32 (store32 (store32 s.mem dst (d0 + 4 * k0) n0.toUInt32) dst (d0 + 4 * k1) n1.toUInt32) dst (d0 + 4 * k2) n2.toUInt32)
                        dst (d0 + 4 * k3) n3.toUInt32 } := by
  simp only [execs, List.foldl_cons, List.foldl_nil]
  rw [movlSt_exec L s _ _ n0 dst d0 e0 hs b0 hw, movlSt_exec L _ _ _ n1 dst d0 (by exact e1) (by exact hs) b1 hw,
    movlSt_exec L _ _ _ n2 dst d0 (by exact e2) (by exact hs) b2 hw, movlSt_exec L _ _ _ n3 dst d0 (by exact e3) (by exact hs) b3 hw]

/-- What does not change, and what has been written. -/
structure After (L : Layout) (g : Four) (s s' : St) (v' : VSt UInt32) (m0 : Mem) (src : Region) (so : Nat) (dst : Region) (d0 : Nat) (w : Nat → UInt32)
    (D : List Nat) : Prop where
  v : s'.v = v'
  ok : s'.ok = s.ok
  gpr : ∀ r, ¬ g.Mem r → s'.gpr r = s.gpr r
  mem : Done m0 src so dst d0 w D s'.mem

def Chunk.vcode (c : Chunk) : List VI := c.pre ++ shuffle c

/-- The words of a group -/
def Chunk.Words (c : Chunk) (v : VSt UInt32) (w : Nat → UInt32) : Prop :=
  (vexecs u32 v c.pre).x c.a 0 = w c.k0 ∧ (vexecs u32 v c.pre).x c.b 0 = w c.k1 ∧ (vexecs u32 v c.pre).x c.c 0 = w c.k2 ∧
  (vexecs u32 v c.pre).x c.d 0 = w c.k3

/-- Numbers of a group -/
def Chunk.ks (c : Chunk) : List Nat := [c.k3, c.k2, c.k1, c.k0]

theorem chunk_exec (L : Layout) (s : St) (g : Four) (hg : g.Ok) (c : Chunk) (m0 : Mem) (src : Region) (so : Nat) (dst : Region) (d0 : Nat) (w : Nat → UInt32)
    (D : List Nat) (N : Nat) (hs : s.gpr rsi = .ptr src so) (hd : s.gpr rdi = .ptr dst d0) (bs : so + 4 * N ≤ L.size src)
    (bd : d0 + 4 * N ≤ L.size dst) (hw : L.writable dst = true) (hk : ∀ k ∈ c.ks, k < N ∧ k ∉ D) (ha : src = dst → so = d0)
    (hm : Done m0 src so dst d0 w D s.mem) (hv : c.Words s.v w) :
    After L g s (execs L s (c.code g)) (vexecs u32 s.v c.vcode) m0 src so dst d0 w (c.ks ++ D) := by
  have hsi : ¬ g.Mem rsi := by
    intro h
    obtain ⟨⟨q0, q1, q2, q3⟩, _⟩ := hg
    rcases h with h | h | h | h
    · exact q0 h.symm
    · exact q1 h.symm
    · exact q2 h.symm
    · exact q3 h.symm
  have hdi : ¬ g.Mem rdi := by
    intro h
    obtain ⟨_, ⟨q0, q1, q2, q3⟩, _⟩ := hg
    rcases h with h | h | h | h
    · exact q0 h.symm
    · exact q1 h.symm
    · exact q2 h.symm
    · exact q3 h.symm
  unfold Chunk.code
  rw [execs_append, execs_v, execs_append, execs_append, execs_v]
  generalize hs1 : ({ s with v := vexecs u32 s.v c.pre } : St) = s1
  have e1v : s1.v = vexecs u32 s.v c.pre := by rw [← hs1]
  have e1m : s1.mem = s.mem := by rw [← hs1]
  have e1o : s1.ok = s.ok := by rw [← hs1]
  have e1g : s1.gpr = s.gpr := by rw [← hs1]
  obtain ⟨mv, mm, mo, mg, ⟨h0, m0'⟩, ⟨h1, m1'⟩, ⟨h2, m2'⟩, ⟨h3, m3'⟩⟩ := movds_exec L s1 g hg c
  generalize execs L s1 (c.movds g) = s2 at mv mm mo mg m0' m1' m2' m3'
  generalize hs3 : ({ s2 with v := vexecs u32 s2.v (shuffle c) } : St) = s3
  have e3v : s3.v = vexecs u32 s.v c.vcode := by
    rw [← hs3]
    show vexecs u32 s2.v (shuffle c) = _
    rw [mv, e1v]
    exact (vexecs_append _ _ _ _).symm
  have e3m : s3.mem = s.mem := by rw [← hs3]; show s2.mem = _; rw [mm, e1m]
  have e3o : s3.ok = s.ok := by rw [← hs3]; show s2.ok = _; rw [mo, e1o]
  have e3g : s3.gpr = s2.gpr := by rw [← hs3]
  have hk0 := hk c.k0 (by simp [Chunk.ks])
  have hk1 := hk c.k1 (by simp [Chunk.ks])
  have hk2 := hk c.k2 (by simp [Chunk.ks])
  have hk3 := hk c.k3 (by simp [Chunk.ks])
  obtain ⟨x1, x2, x3, x4, y0, y1, y2, y3⟩ := xorls_exec L s3 g hg c.k0 c.k1 c.k2 c.k3 src so _ _ _ _ (by rw [e3g]; exact m0') (by rw [e3g]; exact m1')
    (by rw [e3g]; exact m2') (by rw [e3g]; exact m3') (by rw [e3g, mg _ hsi, e1g]; exact hs) (by omega) (by omega) (by omega) (by omega) _ rfl
  have hsplit : c.stores g = [.xorl (4 * c.k0) rsi g.g0, .xorl (4 * c.k1) rsi g.g1, .xorl (4 * c.k2) rsi g.g2, .xorl (4 * c.k3) rsi g.g3] ++
    [.movlSt g.g0 (4 * c.k0) rdi, .movlSt g.g1 (4 * c.k1) rdi, .movlSt g.g2 (4 * c.k2) rdi, .movlSt g.g3 (4 * c.k3) rdi] := rfl
  rw [hsplit, execs_append]
  generalize execs L s3 [.xorl (4 * c.k0) rsi g.g0, .xorl (4 * c.k1) rsi g.g1, .xorl (4 * c.k2) rsi g.g2, .xorl (4 * c.k3) rsi g.g3] = s4
    at x1 x2 x3 x4 y0 y1 y2 y3
  rw [movls_exec L s4 g c.k0 c.k1 c.k2 c.k3 dst d0 _ _ _ _ y0 y1 y2 y3 (by rw [x4 _ hdi, e3g, mg _ hdi, e1g]; exact hd) (by omega) (by omega) (by omega)
    (by omega) hw]
  refine ⟨?_, ?_, ?_, ?_⟩
  · exact x1.trans e3v
  · exact x3.trans e3o
  · intro r hr
    show s4.gpr r = _
    rw [x4 r hr, e3g, mg r hr, e1g]
  · show Done m0 src so dst d0 w ([c.k3, c.k2, c.k1, c.k0] ++ D) (store32 (store32 (store32 (store32 s4.mem _ _ _) _ _ _) _ _ _) _ _ _)
    obtain ⟨v0, v1, v2, v3⟩ := hv
    rw [← e1v] at v0 v1 v2 v3
    rw [x2, e3m, v0, v1, v2, v3]
    simp only [UInt32.toUInt32_toUInt64, join_lo]
    rw [done_load hm c.k0 hk0.2 ha, done_load hm c.k1 hk1.2 ha, done_load hm c.k2 hk2.2 ha, done_load hm c.k3 hk3.2 ha]
    exact done_store (done_store (done_store (done_store hm _) _) _) _

/-- The words of all groups -/
def AllWords (w : Nat → UInt32) : List Chunk → VSt UInt32 → Prop
  | [], _ => True
  | c :: l, v => c.Words v w ∧ AllWords w l (vexecs u32 v c.vcode)

/-- All numbers, the last one first -/
def allKs : List Chunk → List Nat → List Nat
  | [], D => D
  | c :: l, D => allKs l (c.ks ++ D)

def vcodes (l : List Chunk) : List VI := l.flatMap Chunk.vcode

theorem chunks_exec (L : Layout) (g : Four) (hg : g.Ok) (m0 : Mem) (src : Region) (so : Nat) (dst : Region) (d0 : Nat) (w : Nat → UInt32)
    (N : Nat) (bs : so + 4 * N ≤ L.size src) (bd : d0 + 4 * N ≤ L.size dst) (hw : L.writable dst = true) (ha : src = dst → so = d0) (l : List Chunk) :
    ∀ (s : St) (D : List Nat), s.gpr rsi = .ptr src so → s.gpr rdi = .ptr dst d0 → (∀ k ∈ allKs l D, k < N) → (allKs l D).Nodup →
    Done m0 src so dst d0 w D s.mem → AllWords w l s.v →
    After L g s (execs L s (l.flatMap (Chunk.code g))) (vexecs u32 s.v (vcodes l)) m0 src so dst d0 w (allKs l D) := by
  induction l with
  | nil =>
    intro s D _ _ _ _ hm _
    exact ⟨rfl, rfl, fun _ _ => rfl, hm⟩
  | cons c l ih =>
    intro s D hs hd hk hn hm hv
    have sub : ∀ (l : List Chunk) (D : List Nat), (∀ k ∈ D, k ∈ allKs l D) ∧ ((allKs l D).Nodup → D.Nodup) := by
      intro l
      induction l with
      | nil => intro D; exact ⟨fun k h => h, fun h => h⟩
      | cons c l ih =>
        intro D
        refine ⟨fun k h => (ih (c.ks ++ D)).1 k (List.mem_append_right _ h), fun h => ?_⟩
        exact (List.nodup_append.1 ((ih (c.ks ++ D)).2 h)).2.1
    have hn' := (sub l (c.ks ++ D)).2 hn
    have h1 := chunk_exec L s g hg c m0 src so dst d0 w D N hs hd bs bd hw (by
      intro k hkc
      refine ⟨hk k ((sub l (c.ks ++ D)).1 k (List.mem_append_left _ hkc)), fun hD => ?_⟩
      exact (List.nodup_append.1 hn').2.2 k hkc k hD rfl) ha hm hv.1
    show After L g s (execs L s (c.code g ++ l.flatMap (Chunk.code g))) (vexecs u32 s.v (c.vcode ++ vcodes l)) m0 src so dst d0 w (allKs l (c.ks ++ D))
    rw [execs_append, vexecs_append, ← h1.v]
    have hsi : ¬ g.Mem rsi := by
      intro h
      obtain ⟨⟨q0, q1, q2, q3⟩, _⟩ := hg
      rcases h with h | h | h | h
      · exact q0 h.symm
      · exact q1 h.symm
      · exact q2 h.symm
      · exact q3 h.symm
    have hdi : ¬ g.Mem rdi := by
      intro h
      obtain ⟨_, ⟨q0, q1, q2, q3⟩, _⟩ := hg
      rcases h with h | h | h | h
      · exact q0 h.symm
      · exact q1 h.symm
      · exact q2 h.symm
      · exact q3 h.symm
    have h2 := ih (execs L s (c.code g)) (c.ks ++ D) (by rw [h1.gpr _ hsi]; exact hs) (by rw [h1.gpr _ hdi]; exact hd) hk hn h1.mem (by rw [h1.v]; exact hv.2)
    exact ⟨h2.v, h2.ok.trans h1.ok, fun r hr => (h2.gpr r hr).trans (h1.gpr r hr), h2.mem⟩

/-! ## The code consists of such groups -/

def g4 : Four := ⟨rdx, rcx, r8, r9⟩
def g1 : Four := ⟨rcx, r8, r9, rax⟩

def quad (pre : List VI) (a b c d k : Nat) : List Chunk :=
  [⟨pre, a, b, c, d, k, k + 1, k + 2, k + 3, true⟩, ⟨[], a, b, c, d, k + 16, k + 17, k + 18, k + 19, true⟩,
   ⟨[], a, b, c, d, k + 32, k + 33, k + 34, k + 35, true⟩, ⟨[], a, b, c, d, k + 48, k + 49, k + 50, k + 51, false⟩]

def chunks4 : List Chunk :=
  quad [.padddLd 28 12, .padddLd 44 7, .padddLd 56 10, .padddLd 68 4] 12 7 10 4 0 ++
  quad [.padddLd 60 14, .padddLd 16 0, .padddLd 32 5, .padddLd 48 8] 14 0 5 8 4 ++
  quad [.padddLd 72 15, .padddLd 76 11, .padddLd 20 1, .padddLd 36 6] 15 11 1 6 8 ++
  quad [.padddLd 40 13, .padddLd 52 9, .padddLd 64 3, .padddLd 24 2] 13 9 3 2 12

def chunks1 : List Chunk :=
  [⟨[.padddLd 12 0, .padddLd 0 1, .padddLd 4 2, .padddLd 8 3], 0, 1, 2, 3, 0, 12, 8, 4, true⟩, ⟨[], 0, 1, 2, 3, 5, 1, 13, 9, true⟩,
   ⟨[], 0, 1, 2, 3, 10, 6, 2, 14, true⟩, ⟨[], 0, 1, 2, 3, 15, 11, 7, 3, false⟩]

def tail4 : List Instr := [.movqLdF 102 r9, .subI 256 r9, .addI 256 rsi, .addI 256 rdi, .cmpI 256 r9]

def tail1 : List Instr :=
  [.movqLdF 102 r9, .movlLdF 4 rcx, .movlLdF 9 r8, .addI 1 rcx, .shlI 32 r8, .add r8 rcx, .mov rcx r8, .shrI 32 r8, .movlStF rcx 4, .movlStF r8 9, .cmpI 64 r9]

theorem out4_eq : out4 = chunks4.flatMap (Chunk.code g4) ++ tail4 := by decide +kernel
theorem out1_eq : out1 = chunks1.flatMap (Chunk.code g1) ++ tail1 := by decide +kernel

/-- Words of four blocks: the sums, in the order of the result -/
def w4 (v : VSt UInt32) (k : Nat) : UInt32 :=
  v.x ([12, 7, 10, 4, 14, 0, 5, 8, 15, 11, 1, 6, 13, 9, 3, 2].getD (k % 16) 0) (k / 16) +
  v.f ([28, 44, 56, 68, 60, 16, 32, 48, 72, 76, 20, 36, 40, 52, 64, 24].getD (k % 16) 0 + k / 16)

/-- Words of one block -/
def w1 (v : VSt UInt32) (k : Nat) : UInt32 :=
  v.x ([0, 1, 2, 3, 3, 0, 1, 2, 2, 3, 0, 1, 1, 2, 3, 0].getD k 0) ([0, 1, 2, 3, 0, 1, 2, 3, 0, 1, 2, 3, 0, 1, 2, 3].getD k 0) +
  v.f ([12, 1, 6, 11, 8, 13, 2, 7, 4, 9, 14, 3, 0, 5, 10, 15].getD k 0)

set_option maxRecDepth 100000 in
theorem words4 (v : VSt UInt32) : AllWords (w4 v) chunks4 v := by
  unfold chunks4 quad
  simp only [List.cons_append, List.nil_append, AllWords, Chunk.Words]
  repeat' (first | exact trivial | exact rfl | apply And.intro)

set_option maxRecDepth 100000 in
theorem words1 (v : VSt UInt32) : AllWords (w1 v) chunks1 v := by
  unfold chunks1
  simp only [AllWords, Chunk.Words]
  repeat' (first | exact trivial | exact rfl | apply And.intro)

theorem vcodes4_frame (v : VSt UInt32) : (vexecs u32 v (vcodes chunks4)).f = v.f := by
  funext j
  apply vexecs_frame
  have key : ∀ i ∈ vcodes chunks4, i.writes = [] := by decide +kernel
  intro i hi hj
  rw [key i hi] at hj
  cases hj

theorem vcodes1_frame (v : VSt UInt32) : (vexecs u32 v (vcodes chunks1)).f = v.f := by
  funext j
  apply vexecs_frame
  have key : ∀ i ∈ vcodes chunks1, i.writes = [] := by decide +kernel
  intro i hi hj
  rw [key i hi] at hj
  cases hj

theorem ks4 (k : Nat) : k ∈ allKs chunks4 [] ↔ k < 64 := by
  constructor
  · have : ∀ k ∈ allKs chunks4 [], k < 64 := by decide +kernel
    exact this k
  · intro h
    have : ∀ k : Fin 64, k.val ∈ allKs chunks4 [] := by decide +kernel
    exact this ⟨k, h⟩

theorem ks1 (k : Nat) : k ∈ allKs chunks1 [] ↔ k < 16 := by
  constructor
  · have : ∀ k ∈ allKs chunks1 [], k < 16 := by decide +kernel
    exact this k
  · intro h
    have : ∀ k : Fin 16, k.val ∈ allKs chunks1 [] := by decide +kernel
    exact this ⟨k, h⟩

theorem g4_ok : g4.Ok := by unfold Four.Ok g4; decide
theorem g1_ok : g1.Ok := by unfold Four.Ok g1; decide

/-- `out4` up to the end of the last group -/
theorem chunks4_exec (L : Layout) (s : St) (src : Region) (so : Nat) (dst : Region) (d0 : Nat) (hs : s.gpr rsi = .ptr src so) (hd : s.gpr rdi = .ptr dst d0)
    (bs : so + 256 ≤ L.size src) (bd : d0 + 256 ≤ L.size dst) (hw : L.writable dst = true) (ha : src = dst → so = d0) :
    After L g4 s (execs L s (chunks4.flatMap (Chunk.code g4))) (vexecs u32 s.v (vcodes chunks4)) s.mem src so dst d0 (w4 s.v) (allKs chunks4 []) :=
  chunks_exec L g4 g4_ok s.mem src so dst d0 (w4 s.v) 64 bs bd hw ha chunks4 s [] hs hd (fun k h => (ks4 k).1 h) (by decide +kernel) done_nil (words4 s.v)

/-- `out1` up to the end of the last group -/
theorem chunks1_exec (L : Layout) (s : St) (src : Region) (so : Nat) (dst : Region) (d0 : Nat) (hs : s.gpr rsi = .ptr src so) (hd : s.gpr rdi = .ptr dst d0)
    (bs : so + 64 ≤ L.size src) (bd : d0 + 64 ≤ L.size dst) (hw : L.writable dst = true) (ha : src = dst → so = d0) :
    After L g1 s (execs L s (chunks1.flatMap (Chunk.code g1))) (vexecs u32 s.v (vcodes chunks1)) s.mem src so dst d0 (w1 s.v) (allKs chunks1 []) :=
  chunks_exec L g1 g1_ok s.mem src so dst d0 (w1 s.v) 16 bs bd hw ha chunks1 s [] hs hd (fun k h => (ks1 k).1 h) (by decide +kernel) done_nil (words1 s.v)

end Fastd.Crypto.SalsaXmm
