import Verif.Crypto.SalsaX86Out
import Verif.Crypto.SalsaMem

/-!
# Writing the result in the 32-bit Salsa20 implementation

Lemmas: the groups of instructions that combine four words with words of the message (`Verif.Crypto.SalsaOut`).
-/

namespace Fastd.Crypto.SalsaX86

open SalsaXmm (VI VSt u32 vexecs Region Mem Layout load32 store32 Done done_nil done_load done_store Chunk Four shuffle vexecs_append vexecs_frame AllWords allKs vcodes)

def movds (g : Four) (c : Chunk) : List Instr := [.movd c.a g.g0, .movd c.b g.g1, .movd c.c g.g2, .movd c.d g.g3]

def stores (g : Four) (c : Chunk) : List Instr :=
  [.xorl (4 * c.k0) esi g.g0, .xorl (4 * c.k1) esi g.g1, .xorl (4 * c.k2) esi g.g2, .xorl (4 * c.k3) esi g.g3,
   .movlSt g.g0 (4 * c.k0) edi, .movlSt g.g1 (4 * c.k1) edi, .movlSt g.g2 (4 * c.k2) edi, .movlSt g.g3 (4 * c.k3) edi]

def code (g : Four) (c : Chunk) : List Instr :=
  c.pre.map .v ++ (movds g c ++ ((shuffle c).map .v ++ stores g c))

theorem execs_append (L : Layout) (s : St) (l l' : List Instr) : execs L s (l ++ l') = execs L (execs L s l) l' := List.foldl_append ..

theorem execs_v (L : Layout) (l : List VI) : ∀ s : St, execs L s (l.map .v) = { s with v := vexecs u32 s.v l } := by
  induction l with
  | nil => intro s; rfl
  | cons i l ih =>
    intro s
    show execs L { s with v := i.exec u32 s.v } (l.map .v) = _
    rw [ih]
    rfl

theorem movds_exec (L : Layout) (s : St) (g : Four) (hg : g.Ok) (c : Chunk) :
    (execs L s (movds g c)).v = s.v ∧ (execs L s (movds g c)).mem = s.mem ∧ (execs L s (movds g c)).ok = s.ok ∧ (execs L s (movds g c)).slot = s.slot ∧
    (∀ r, ¬ g.Mem r → (execs L s (movds g c)).gpr r = s.gpr r) ∧
    (execs L s (movds g c)).gpr g.g0 = .num (s.v.x c.a 0) ∧ (execs L s (movds g c)).gpr g.g1 = .num (s.v.x c.b 0) ∧
    (execs L s (movds g c)).gpr g.g2 = .num (s.v.x c.c 0) ∧ (execs L s (movds g c)).gpr g.g3 = .num (s.v.x c.d 0) := by
  obtain ⟨_, _, h01, h02, h03, h12, h13, h23⟩ := hg
  refine ⟨rfl, rfl, rfl, rfl, ?_, ?_, ?_, ?_, ?_⟩
  · intro r hr
    unfold Four.Mem at hr
    simp only [not_or] at hr
    simp [execs, movds, Instr.exec, St.setR, hr.1, hr.2.1, hr.2.2.1, hr.2.2.2]
  · simp [execs, movds, Instr.exec, St.setR, h01, h02, h03]
  · simp [execs, movds, Instr.exec, St.setR, h12, h13]
  · simp [execs, movds, Instr.exec, St.setR, h23]
  · simp [execs, movds, Instr.exec, St.setR]

/-- One `xorl` -/
theorem xorl_exec (L : Layout) (s : St) (o d : Nat) (n : UInt32) (r : Region) (p : Nat) (hd : s.gpr d = .num n) (hs : s.gpr esi = .ptr r p)
    (hb : p + o + 4 ≤ L.size r) :
    Instr.exec L s (.xorl o esi d) = { s.setR d (.num (n ^^^ load32 s.mem r (p + o))) with flags := .other } := by
  simp only [Instr.exec, hd, hs, if_pos hb]

/-- One `movl` to memory -/
theorem movlSt_exec (L : Layout) (s : St) (o a : Nat) (n : UInt32) (r : Region) (p : Nat) (hd : s.gpr a = .num n) (hs : s.gpr edi = .ptr r p)
    (hb : p + o + 4 ≤ L.size r) (hw : L.writable r = true) :
    Instr.exec L s (.movlSt a o edi) = { s with mem := store32 s.mem r (p + o) n } := by
  simp only [Instr.exec, hd, hs, if_pos (And.intro hb hw)]

theorem xorls_exec (L : Layout) (s : St) (g : Four) (hg : g.Ok) (k0 k1 k2 k3 : Nat) (src : Region) (so : Nat) (n0 n1 n2 n3 : UInt32)
    (e0 : s.gpr g.g0 = .num n0) (e1 : s.gpr g.g1 = .num n1) (e2 : s.gpr g.g2 = .num n2) (e3 : s.gpr g.g3 = .num n3) (hs : s.gpr esi = .ptr src so)
    (b0 : so + 4 * k0 + 4 ≤ L.size src) (b1 : so + 4 * k1 + 4 ≤ L.size src) (b2 : so + 4 * k2 + 4 ≤ L.size src) (b3 : so + 4 * k3 + 4 ≤ L.size src)
    (s' : St) (hs' : s' = execs L s [.xorl (4 * k0) esi g.g0, .xorl (4 * k1) esi g.g1, .xorl (4 * k2) esi g.g2, .xorl (4 * k3) esi g.g3]) :
    s'.v = s.v ∧ s'.mem = s.mem ∧ s'.ok = s.ok ∧ s'.slot = s.slot ∧ (∀ r, ¬ g.Mem r → s'.gpr r = s.gpr r) ∧
    s'.gpr g.g0 = .num (n0 ^^^ load32 s.mem src (so + 4 * k0)) ∧
    s'.gpr g.g1 = .num (n1 ^^^ load32 s.mem src (so + 4 * k1)) ∧
    s'.gpr g.g2 = .num (n2 ^^^ load32 s.mem src (so + 4 * k2)) ∧
    s'.gpr g.g3 = .num (n3 ^^^ load32 s.mem src (so + 4 * k3)) := by
  obtain ⟨⟨q0, q1, q2, q3⟩, _, h01, h02, h03, h12, h13, h23⟩ := hg
  subst hs'
  simp only [execs, List.foldl_cons, List.foldl_nil]
  rw [xorl_exec L s _ _ n0 src so e0 hs b0]
  rw [xorl_exec L _ _ _ n1 src so (by simp [St.setR, Ne.symm h01, e1]) (by simp [St.setR, Ne.symm q0, hs]) b1]
  rw [xorl_exec L _ _ _ n2 src so (by simp [St.setR, Ne.symm h02, Ne.symm h12, e2]) (by simp [St.setR, Ne.symm q0, Ne.symm q1, hs]) b2]
  rw [xorl_exec L _ _ _ n3 src so (by simp [St.setR, Ne.symm h03, Ne.symm h13, Ne.symm h23, e3])
    (by simp [St.setR, Ne.symm q0, Ne.symm q1, Ne.symm q2, hs]) b3]
  refine ⟨rfl, rfl, rfl, rfl, ?_, ?_, ?_, ?_, ?_⟩
  · intro r hr
    unfold Four.Mem at hr
    simp only [not_or] at hr
    simp [St.setR, hr.1, hr.2.1, hr.2.2.1, hr.2.2.2]
  · simp [St.setR, h01, h02, h03]
  · simp [St.setR, h12, h13]
  · simp [St.setR, h23]
  · simp [St.setR]

theorem movls_exec (L : Layout) (s : St) (g : Four) (k0 k1 k2 k3 : Nat) (dst : Region) (d0 : Nat) (n0 n1 n2 n3 : UInt32)
    (e0 : s.gpr g.g0 = .num n0) (e1 : s.gpr g.g1 = .num n1) (e2 : s.gpr g.g2 = .num n2) (e3 : s.gpr g.g3 = .num n3) (hs : s.gpr edi = .ptr dst d0)
    (b0 : d0 + 4 * k0 + 4 ≤ L.size dst) (b1 : d0 + 4 * k1 + 4 ≤ L.size dst) (b2 : d0 + 4 * k2 + 4 ≤ L.size dst) (b3 : d0 + 4 * k3 + 4 ≤ L.size dst)
    (hw : L.writable dst = true) :
    execs L s [.movlSt g.g0 (4 * k0) edi, .movlSt g.g1 (4 * k1) edi, .movlSt g.g2 (4 * k2) edi, .movlSt g.g3 (4 * k3) edi] =
      { s with mem := store32 (store32 (store32 (store32 s.mem dst (d0 + 4 * k0) n0) dst (d0 + 4 * k1) n1) dst (d0 + 4 * k2) n2)
                        dst (d0 + 4 * k3) n3 } := by
  simp only [execs, List.foldl_cons, List.foldl_nil]
  rw [movlSt_exec L s _ _ n0 dst d0 e0 hs b0 hw, movlSt_exec L _ _ _ n1 dst d0 (by exact e1) (by exact hs) b1 hw,
    movlSt_exec L _ _ _ n2 dst d0 (by exact e2) (by exact hs) b2 hw, movlSt_exec L _ _ _ n3 dst d0 (by exact e3) (by exact hs) b3 hw]

/-- What does not change, and what has been written. -/
structure After (L : Layout) (g : Four) (s s' : St) (v' : VSt UInt32) (m0 : Mem) (src : Region) (so : Nat) (dst : Region) (d0 : Nat) (w : Nat → UInt32)
    (D : List Nat) : Prop where
  v : s'.v = v'
  ok : s'.ok = s.ok
  slot : s'.slot = s.slot
  gpr : ∀ r, ¬ g.Mem r → s'.gpr r = s.gpr r
  mem : Done m0 src so dst d0 w D s'.mem

theorem chunk_exec (L : Layout) (s : St) (g : Four) (hg : g.Ok) (c : Chunk) (m0 : Mem) (src : Region) (so : Nat) (dst : Region) (d0 : Nat) (w : Nat → UInt32)
    (D : List Nat) (N : Nat) (hs : s.gpr esi = .ptr src so) (hd : s.gpr edi = .ptr dst d0) (bs : so + 4 * N ≤ L.size src)
    (bd : d0 + 4 * N ≤ L.size dst) (hw : L.writable dst = true) (hk : ∀ k ∈ c.ks, k < N ∧ k ∉ D) (ha : src = dst → so = d0)
    (hm : Done m0 src so dst d0 w D s.mem) (hv : c.Words s.v w) :
    After L g s (execs L s (code g c)) (vexecs u32 s.v c.vcode) m0 src so dst d0 w (c.ks ++ D) := by
  have hsi : ¬ g.Mem esi := by
    intro h
    obtain ⟨⟨q0, q1, q2, q3⟩, _⟩ := hg
    rcases h with h | h | h | h
    · exact q0 h.symm
    · exact q1 h.symm
    · exact q2 h.symm
    · exact q3 h.symm
  have hdi : ¬ g.Mem edi := by
    intro h
    obtain ⟨_, ⟨q0, q1, q2, q3⟩, _⟩ := hg
    rcases h with h | h | h | h
    · exact q0 h.symm
    · exact q1 h.symm
    · exact q2 h.symm
    · exact q3 h.symm
  unfold code
  rw [execs_append, execs_v, execs_append, execs_append, execs_v]
  generalize hs1 : ({ s with v := vexecs u32 s.v c.pre } : St) = s1
  have e1v : s1.v = vexecs u32 s.v c.pre := by rw [← hs1]
  have e1m : s1.mem = s.mem := by rw [← hs1]
  have e1o : s1.ok = s.ok := by rw [← hs1]
  have e1g : s1.gpr = s.gpr := by rw [← hs1]
  have e1s : s1.slot = s.slot := by rw [← hs1]
  obtain ⟨mv, mm, mo, msl, mg, m0', m1', m2', m3'⟩ := movds_exec L s1 g hg c
  generalize execs L s1 (movds g c) = s2 at mv mm mo msl mg m0' m1' m2' m3'
  generalize hs3 : ({ s2 with v := vexecs u32 s2.v (shuffle c) } : St) = s3
  have e3v : s3.v = vexecs u32 s.v c.vcode := by
    rw [← hs3]
    show vexecs u32 s2.v (shuffle c) = _
    rw [mv, e1v]
    exact (vexecs_append _ _ _ _).symm
  have e3m : s3.mem = s.mem := by rw [← hs3]; show s2.mem = _; rw [mm, e1m]
  have e3o : s3.ok = s.ok := by rw [← hs3]; show s2.ok = _; rw [mo, e1o]
  have e3s : s3.slot = s.slot := by rw [← hs3]; show s2.slot = _; rw [msl, e1s]
  have e3g : s3.gpr = s2.gpr := by rw [← hs3]
  have hk0 := hk c.k0 (by simp [Chunk.ks])
  have hk1 := hk c.k1 (by simp [Chunk.ks])
  have hk2 := hk c.k2 (by simp [Chunk.ks])
  have hk3 := hk c.k3 (by simp [Chunk.ks])
  obtain ⟨x1, x2, x3, x5, x4, y0, y1, y2, y3⟩ := xorls_exec L s3 g hg c.k0 c.k1 c.k2 c.k3 src so _ _ _ _ (by rw [e3g]; exact m0') (by rw [e3g]; exact m1')
    (by rw [e3g]; exact m2') (by rw [e3g]; exact m3') (by rw [e3g, mg _ hsi, e1g]; exact hs) (by omega) (by omega) (by omega) (by omega) _ rfl
  have hsplit : stores g c = [.xorl (4 * c.k0) esi g.g0, .xorl (4 * c.k1) esi g.g1, .xorl (4 * c.k2) esi g.g2, .xorl (4 * c.k3) esi g.g3] ++
    [.movlSt g.g0 (4 * c.k0) edi, .movlSt g.g1 (4 * c.k1) edi, .movlSt g.g2 (4 * c.k2) edi, .movlSt g.g3 (4 * c.k3) edi] := rfl
  rw [hsplit, execs_append]
  generalize execs L s3 [.xorl (4 * c.k0) esi g.g0, .xorl (4 * c.k1) esi g.g1, .xorl (4 * c.k2) esi g.g2, .xorl (4 * c.k3) esi g.g3] = s4
    at x1 x2 x3 x5 x4 y0 y1 y2 y3
  rw [movls_exec L s4 g c.k0 c.k1 c.k2 c.k3 dst d0 _ _ _ _ y0 y1 y2 y3 (by rw [x4 _ hdi, e3g, mg _ hdi, e1g]; exact hd) (by omega) (by omega) (by omega)
    (by omega) hw]
  refine ⟨?_, ?_, ?_, ?_, ?_⟩
  · exact x1.trans e3v
  · exact x3.trans e3o
  · exact x5.trans e3s
  · intro r hr
    show s4.gpr r = _
    rw [x4 r hr, e3g, mg r hr, e1g]
  · show Done m0 src so dst d0 w ([c.k3, c.k2, c.k1, c.k0] ++ D) (store32 (store32 (store32 (store32 s4.mem _ _ _) _ _ _) _ _ _) _ _ _)
    obtain ⟨v0, v1, v2, v3⟩ := hv
    rw [← e1v] at v0 v1 v2 v3
    rw [x2, e3m, v0, v1, v2, v3]
    rw [done_load hm c.k0 hk0.2 ha, done_load hm c.k1 hk1.2 ha, done_load hm c.k2 hk2.2 ha, done_load hm c.k3 hk3.2 ha]
    exact done_store (done_store (done_store (done_store hm _) _) _) _

theorem chunks_exec (L : Layout) (g : Four) (hg : g.Ok) (m0 : Mem) (src : Region) (so : Nat) (dst : Region) (d0 : Nat) (w : Nat → UInt32)
    (N : Nat) (bs : so + 4 * N ≤ L.size src) (bd : d0 + 4 * N ≤ L.size dst) (hw : L.writable dst = true) (ha : src = dst → so = d0) (l : List Chunk) :
    ∀ (s : St) (D : List Nat), s.gpr esi = .ptr src so → s.gpr edi = .ptr dst d0 → (∀ k ∈ allKs l D, k < N) → (allKs l D).Nodup →
    Done m0 src so dst d0 w D s.mem → AllWords w l s.v →
    After L g s (execs L s (l.flatMap (code g))) (vexecs u32 s.v (vcodes l)) m0 src so dst d0 w (allKs l D) := by
  induction l with
  | nil =>
    intro s D _ _ _ _ hm _
    exact ⟨rfl, rfl, rfl, fun _ _ => rfl, hm⟩
  | cons c l ih =>
    intro s D hs hd hk hn hm hv
    have sub : ∀ (l : List Chunk) (D : List Nat), (∀ k ∈ D, k ∈ allKs l D) ∧ ((allKs l D).Nodup → D.Nodup) := by
      intro l
      induction l with
      | nil => intro D; exact ⟨fun k h => h, fun h => h⟩
      | cons c l ih =>
        intro D
        refine ⟨fun k h => (ih (c.ks ++ D)).1 k (List.mem_append_right _ h), fun h => ?_⟩
        exact (List.nodup_append.1 ((ih (c.ks ++ D)).2 h)).2.1
    have hn' := (sub l (c.ks ++ D)).2 hn
    have h1 := chunk_exec L s g hg c m0 src so dst d0 w D N hs hd bs bd hw (by
      intro k hkc
      refine ⟨hk k ((sub l (c.ks ++ D)).1 k (List.mem_append_left _ hkc)), fun hD => ?_⟩
      exact (List.nodup_append.1 hn').2.2 k hkc k hD rfl) ha hm hv.1
    show After L g s (execs L s (code g c ++ l.flatMap (code g))) (vexecs u32 s.v (c.vcode ++ vcodes l)) m0 src so dst d0 w (allKs l (c.ks ++ D))
    rw [execs_append, vexecs_append, ← h1.v]
    have hsi : ¬ g.Mem esi := by
      intro h
      obtain ⟨⟨q0, q1, q2, q3⟩, _⟩ := hg
      rcases h with h | h | h | h
      · exact q0 h.symm
      · exact q1 h.symm
      · exact q2 h.symm
      · exact q3 h.symm
    have hdi : ¬ g.Mem edi := by
      intro h
      obtain ⟨_, ⟨q0, q1, q2, q3⟩, _⟩ := hg
      rcases h with h | h | h | h
      · exact q0 h.symm
      · exact q1 h.symm
      · exact q2 h.symm
      · exact q3 h.symm
    have h2 := ih (execs L s (code g c)) (c.ks ++ D) (by rw [h1.gpr _ hsi]; exact hs) (by rw [h1.gpr _ hdi]; exact hd) hk hn h1.mem (by rw [h1.v]; exact hv.2)
    exact ⟨h2.v, h2.ok.trans h1.ok, h2.slot.trans h1.slot, fun r hr => (h2.gpr r hr).trans (h1.gpr r hr), h2.mem⟩

/-! ## The code consists of such groups -/

def g : Four := ⟨eax, ecx, edx, ebx⟩

def quad (pre : List VI) (k : Nat) : List Chunk :=
  [⟨pre, 0, 1, 2, 3, k, k + 1, k + 2, k + 3, true⟩, ⟨[], 0, 1, 2, 3, k + 16, k + 17, k + 18, k + 19, true⟩,
   ⟨[], 0, 1, 2, 3, k + 32, k + 33, k + 34, k + 35, true⟩, ⟨[], 0, 1, 2, 3, k + 48, k + 49, k + 50, k + 51, false⟩]

def chunks4 : List Chunk :=
  quad [.movdqaLd 136 0, .movdqaLd 116 1, .movdqaLd 128 2, .movdqaLd 104 3, .padddLd 36 0, .padddLd 52 1, .padddLd 64 2, .padddLd 76 3] 0 ++
  quad [.movdqaLd 140 0, .movdqaLd 88 1, .movdqaLd 108 2, .movdqaLd 120 3, .padddLd 68 0, .padddLd 24 1, .padddLd 40 2, .padddLd 56 3] 4 ++
  quad [.movdqaLd 152 0, .movdqaLd 132 1, .movdqaLd 92 2, .movdqaLd 112 3, .padddLd 80 0, .padddLd 84 1, .padddLd 28 2, .padddLd 44 3] 8 ++
  quad [.movdqaLd 144 0, .movdqaLd 124 1, .movdqaLd 100 2, .movdqaLd 96 3, .padddLd 48 0, .padddLd 60 1, .padddLd 72 2, .padddLd 32 3] 12

def chunks1 : List Chunk :=
  [⟨[.padddLd 16 0, .padddLd 12 1, .padddLd 20 2, .padddLd 8 3], 0, 1, 2, 3, 0, 12, 8, 4, true⟩, ⟨[], 0, 1, 2, 3, 5, 1, 13, 9, true⟩,
   ⟨[], 0, 1, 2, 3, 10, 6, 2, 14, true⟩, ⟨[], 0, 1, 2, 3, 15, 11, 7, 3, false⟩]

def tail4 : List Instr := [.ldSlot 6 eax, .subI 256 eax, .addI 256 esi, .addI 256 edi, .stSlot edi 5, .cmpI 256 eax]

def tail1 : List Instr := [.ldSlot 6 eax, .movlLdF 20 ecx, .movlLdF 9 edx, .addI 1 ecx, .adcI 0 edx, .movlStF ecx 20, .movlStF edx 9, .cmpI 64 eax]

theorem out4_eq : out4 = [.ldSlot 5 edi] ++ (chunks4.flatMap (code g) ++ tail4) := by decide +kernel
theorem out1_eq : out1 = chunks1.flatMap (code g) ++ tail1 := by decide +kernel

/-- Words of four blocks: the sums, in the order of the result -/
def w4 (v : VSt UInt32) (k : Nat) : UInt32 :=
  v.f ([136, 116, 128, 104, 140, 88, 108, 120, 152, 132, 92, 112, 144, 124, 100, 96].getD (k % 16) 0 + k / 16) +
  v.f ([36, 52, 64, 76, 68, 24, 40, 56, 80, 84, 28, 44, 48, 60, 72, 32].getD (k % 16) 0 + k / 16)

/-- Words of one block -/
def w1 (v : VSt UInt32) (k : Nat) : UInt32 :=
  v.x ([0, 1, 2, 3, 3, 0, 1, 2, 2, 3, 0, 1, 1, 2, 3, 0].getD k 0) ([0, 1, 2, 3, 0, 1, 2, 3, 0, 1, 2, 3, 0, 1, 2, 3].getD k 0) +
  v.f ([16, 13, 22, 11, 8, 17, 14, 23, 20, 9, 18, 15, 12, 21, 10, 19].getD k 0)

set_option maxRecDepth 100000 in
theorem words4 (v : VSt UInt32) : AllWords (w4 v) chunks4 v := by
  unfold chunks4 quad
  simp only [List.cons_append, List.nil_append, AllWords, Chunk.Words]
  repeat' (first | exact trivial | exact rfl | apply And.intro)

set_option maxRecDepth 100000 in
theorem words1 (v : VSt UInt32) : AllWords (w1 v) chunks1 v := by
  unfold chunks1
  simp only [AllWords, Chunk.Words]
  repeat' (first | exact trivial | exact rfl | apply And.intro)

theorem vcodes4_frame (v : VSt UInt32) : (vexecs u32 v (vcodes chunks4)).f = v.f := by
  funext j
  apply vexecs_frame
  have key : ∀ i ∈ vcodes chunks4, i.writes = [] := by decide +kernel
  intro i hi hj
  rw [key i hi] at hj
  cases hj

theorem vcodes1_frame (v : VSt UInt32) : (vexecs u32 v (vcodes chunks1)).f = v.f := by
  funext j
  apply vexecs_frame
  have key : ∀ i ∈ vcodes chunks1, i.writes = [] := by decide +kernel
  intro i hi hj
  rw [key i hi] at hj
  cases hj

theorem ks4 (k : Nat) : k ∈ allKs chunks4 [] ↔ k < 64 := by
  constructor
  · have : ∀ k ∈ allKs chunks4 [], k < 64 := by decide +kernel
    exact this k
  · intro h
    have : ∀ k : Fin 64, k.val ∈ allKs chunks4 [] := by decide +kernel
    exact this ⟨k, h⟩

theorem ks1 (k : Nat) : k ∈ allKs chunks1 [] ↔ k < 16 := by
  constructor
  · have : ∀ k ∈ allKs chunks1 [], k < 16 := by decide +kernel
    exact this k
  · intro h
    have : ∀ k : Fin 16, k.val ∈ allKs chunks1 [] := by decide +kernel
    exact this ⟨k, h⟩

theorem g_ok : g.Ok := by unfold Four.Ok g; decide

/-- `out4` up to the end of the last group -/
theorem chunks4_exec (L : Layout) (s : St) (src : Region) (so : Nat) (dst : Region) (d0 : Nat) (hs : s.gpr esi = .ptr src so) (hd : s.gpr edi = .ptr dst d0)
    (bs : so + 256 ≤ L.size src) (bd : d0 + 256 ≤ L.size dst) (hw : L.writable dst = true) (ha : src = dst → so = d0) :
    After L g s (execs L s (chunks4.flatMap (code g))) (vexecs u32 s.v (vcodes chunks4)) s.mem src so dst d0 (w4 s.v) (allKs chunks4 []) :=
  chunks_exec L g g_ok s.mem src so dst d0 (w4 s.v) 64 bs bd hw ha chunks4 s [] hs hd (fun k h => (ks4 k).1 h) (by decide +kernel) done_nil (words4 s.v)

/-- `out1` up to the end of the last group -/
theorem chunks1_exec (L : Layout) (s : St) (src : Region) (so : Nat) (dst : Region) (d0 : Nat) (hs : s.gpr esi = .ptr src so) (hd : s.gpr edi = .ptr dst d0)
    (bs : so + 64 ≤ L.size src) (bd : d0 + 64 ≤ L.size dst) (hw : L.writable dst = true) (ha : src = dst → so = d0) :
    After L g s (execs L s (chunks1.flatMap (code g))) (vexecs u32 s.v (vcodes chunks1)) s.mem src so dst d0 (w1 s.v) (allKs chunks1 []) :=
  chunks_exec L g g_ok s.mem src so dst d0 (w1 s.v) 16 bs bd hw ha chunks1 s [] hs hd (fun k h => (ks1 k).1 h) (by decide +kernel) done_nil (words1 s.v)

end Fastd.Crypto.SalsaX86
