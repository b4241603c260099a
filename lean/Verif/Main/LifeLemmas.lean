import Verif.Main.Life

/-!
# Lemmas about the start and the end of the process
-/

namespace Fastd.Life

/-- What has been done, in order -/
def Sys.acts (s : Sys) : List Act := s.done.map Prod.snd

/-- What is known of the process that runs `fastd_main`: what it has done and what it has still to do is what there is to do. -/
inductive Progress (c : Conf) (l : List Act) (w : Bool) : Pc → Prop
  | main {todo : List Act} (h : Life.acts c = l ++ todo) (hw : w = decide (.closePipe ∈ todo)) : Progress c l w (.main todo)
  | over {todo : List Act} {n : Option Nat} (h : Life.acts c = l ++ todo) (hw : w = false) : Progress c l w (.over n)

theorem acts_nodup (c : Conf) : (Life.acts c).Nodup := by
  obtain ⟨d, t, l, e⟩ := c
  revert d t l e
  decide

theorem acts_daemon {c : Conf} (h : c.daemon = true) : .report ∈ Life.acts c ∧ .closePipe ∈ Life.acts c := by
  obtain ⟨d, t, l, e⟩ := c
  revert d t l e
  decide

theorem acts_plain {c : Conf} (h : c.daemon = false) : .report ∉ Life.acts c ∧ .closePipe ∉ Life.acts c := by
  obtain ⟨d, t, l, e⟩ := c
  revert d t l e
  decide

/-- What precedes something in the list of all actions has been done before it. -/
theorem precedes {l l1 l2 : List Act} {a b : Act} (h : a ∈ l.takeWhile (· ≠ b)) (hl : l = l1 ++ b :: l2) : a ∈ l1 := by
  subst hl
  induction l1 with
  | nil => simp at h
  | cons x l1 ih =>
    rw [List.cons_append, List.takeWhile_cons] at h
    split at h
    · rcases List.mem_cons.1 h with rfl | h
      · simp
      · exact List.mem_cons_of_mem _ (ih h)
    · cases h

theorem close_later {c : Conf} (hc : c.daemon = true) {l todo : List Act} (h : Life.acts c = l ++ todo) (hr : .report ∉ l) : .closePipe ∈ todo := by
  have h1 := (acts_daemon hc).2
  rw [h] at h1
  rcases List.mem_append.1 h1 with h1 | h1
  · exfalso
    obtain ⟨l1, l2, rfl⟩ := List.append_of_mem h1
    have h2 : Act.report ∈ (Life.acts c).takeWhile (· ≠ .closePipe) := by
      clear h h1 hr
      obtain ⟨d, t, l, e⟩ := c
      revert d t l e
      decide
    have := precedes h2 (l1 := l1) (l2 := l2 ++ todo) (by rw [h]; simp)
    exact hr (by simp [this])
  · exact h1

/-- One action -/
theorem Progress.step {c : Conf} {l : List Act} {p p' : Proc} {d d' : List Nat} {o : Option Act} (h : Progress c l p.w p.pc) (ha : Acts p d o p' d') :
    Progress c (l ++ o.toList) p'.w p'.pc ∧ d' = (if o = some .report then d ++ [0] else d) ∧ p.ended = false ∧ p'.leader = p.leader := by
  have hnd := acts_nodup c
  cases ha with
  | @ok a todo hp h1 h2 =>
    rw [hp] at h
    cases h with
    | main h hw =>
      refine ⟨.main (by rw [h]; simp) ?_, by simp [h1], by simp [Proc.ended, hp], rfl⟩
      rw [hw]
      simp [Ne.symm h2]
  | @report todo hp =>
    rw [hp] at h
    cases h with
    | main h hw =>
      refine ⟨.main (by rw [h]; simp) ?_, by simp, by simp [Proc.ended, hp], rfl⟩
      rw [hw]
      simp
  | @closePipe todo hp =>
    rw [hp] at h
    cases h with
    | main h hw =>
      refine ⟨.main (by rw [h]; simp) ?_, by simp, by simp [Proc.ended, hp], rfl⟩
      rw [h] at hnd
      have := (List.nodup_append.1 hnd).2.1
      have h2 := (List.nodup_cons.1 this).1
      simp [h2]
  | @fail a todo n hp hn =>
    rw [hp] at h
    cases h with
    | main h hw =>
      exact ⟨.over (todo := a :: todo) (by rw [h]; simp) rfl, by simp, by simp [Proc.ended, hp], rfl⟩
  | @over n hp hn =>
    rw [hp] at h
    cases h with
    | main h hw =>
      exact ⟨.over (todo := []) (by rw [h]; simp) rfl, by simp, by simp [Proc.ended, hp], rfl⟩

/-- The processes have been split up to the first child. -/
inductive Child (c : Conf) : Option Proc → Option Proc → List Act → Prop
  | early {p : Proc} (hpc : p.pc = .childClose ∨ p.pc = .setsid ∨ p.pc = .fork2) (hw : p.w = true) : Child c (some p) none []
  | failed {p : Proc} (he : p.ended = true) (hw : p.w = false) : Child c (some p) none []
  | daemon {p q : Proc} {l : List Act} (he : p.ended = true) (hw : p.w = false) (hl : q.leader = false) (hq : Progress c l q.w q.pc) : Child c (some p) (some q) l

/-- The invariant with `daemonize` -/
structure J (c : Conf) (s : Sys) : Prop where
  who : ∀ x ∈ s.done, x.1 = 2
  before : s.p0.pc = .pipe ∨ s.p0.pc = .fork ∨ (s.p1 = none ∧ s.p0.ended = true) → s.p1 = none ∧ s.p2 = none ∧ s.done = [] ∧ s.data = []
  after : s.p1 ≠ none → Child c s.p1 s.p2 s.acts
  parent : s.p0.pc = .pipe ∨ s.p0.pc = .fork ∨ s.p0.pc = .parentClose ∨ s.p0.pc = .parentWait ∨ s.p0.pc = .parentRead ∨ s.p0.ended = true
  some1 : s.p0.pc = .parentClose ∨ s.p0.pc = .parentWait ∨ s.p0.pc = .parentRead → s.p1 ≠ none
  w0 : s.p0.pc = .parentWait ∨ s.p0.pc = .parentRead ∨ s.p0.ended = true → s.p0.w = false
  read : s.p0.pc = .parentRead → ∃ p, s.p1 = some p ∧ p.ended = true
  noData : .report ∉ s.acts → s.data = []
  data : .report ∈ s.acts → s.data = [0] ∨ s.data = [] ∧ s.p0.ended = true
  success : s.p0.pc = .over (some 0) → .report ∈ s.acts
  failure : ∀ n, s.p0.pc = .over (some n) → s.failed = false → n ≠ 0 →
    .report ∉ s.acts ∧ ∃ p, s.p1 = some p ∧ p.ended = true ∧ ∀ q, s.p2 = some q → q.ended = true
  killed : s.p0.pc = .over none → s.failed = true

theorem J.start {c : Conf} (hc : c.daemon = true) (leader : Bool) : J c (start c leader) where
  who := by simp [Life.start]
  before := by simp [Life.start]
  after := by simp [Life.start]
  parent := .inl (by simp [Life.start, hc])
  some1 := by simp [Life.start, hc]
  w0 := by simp [Life.start, hc]
  read := by simp [Life.start, hc]
  noData := by simp [Life.start]
  data := by simp [Life.start, Sys.acts]
  success := by simp [Life.start, hc]
  failure := by simp [Life.start, hc]
  killed := by simp [Life.start, hc]

theorem J.step0 {c : Conf} {s : Sys} (h : J c s) {p : Proc} {f : Bool} {d : List Nat} (hp : s.p1 ≠ none) (he0 : s.p0.ended = false)
    (hpc : p.pc = .parentWait ∨ p.pc = .parentRead ∨ p.ended = true)
    (hw : p.w = false) (hr : p.pc = .parentRead → ∃ q, s.p1 = some q ∧ q.ended = true) (hd : d = s.data ∨ p.ended = true ∧ s.data = 0 :: d)
    (hs : p.pc = .over (some 0) → .report ∈ s.acts)
    (hf : ∀ n, p.pc = .over (some n) → f = false → n ≠ 0 → .report ∉ s.acts ∧ ∃ p, s.p1 = some p ∧ p.ended = true ∧ ∀ q, s.p2 = some q → q.ended = true)
    (hk : p.pc = .over none → f = true) : J c { s with p0 := p, failed := f, data := d } where
  who := h.who
  before := by
    rintro (e | e | e)
    · rcases hpc with h | h | h <;> simp_all [Proc.ended]
    · rcases hpc with h | h | h <;> simp_all [Proc.ended]
    · exact absurd e.1 hp
  after := h.after
  parent := .inr (.inr (.inr hpc))
  some1 := fun _ => hp
  w0 := fun _ => hw
  read := hr
  noData := fun hn => by
    have := h.noData hn
    rcases hd with hd | hd
    · rw [← hd] at this; exact this
    · rw [hd.2] at this; cases this
  data := fun hm => by
    show d = [0] ∨ d = [] ∧ p.ended = true
    rcases hd with rfl | ⟨he, hd⟩
    · rcases h.data hm with h1 | ⟨h1, h2⟩
      · exact .inl h1
      · rw [he0] at h2; cases h2
    · rcases h.data hm with h1 | ⟨h1, h2⟩
      · rw [hd] at h1; simp at h1; exact .inr ⟨h1, he⟩
      · rw [hd] at h1; cases h1
  success := hs
  failure := hf
  killed := hk

/-- The end of the original process before there is another one -/
theorem J.end0 {c : Conf} {s : Sys} (h : J c s) (hp : s.p0.pc = .pipe ∨ s.p0.pc = .fork) {n : Option Nat} (hn : n ≠ some 0) :
    J c { s with p0 := s.p0.exit n, failed := true } := by
  obtain ⟨h1, h2, h3, h4⟩ := h.before (hp.imp id .inl)
  have ha : s.acts = [] := by simp [Sys.acts, h3]
  refine ⟨h.who, fun _ => ⟨h1, h2, h3, h4⟩, h.after, .inr (.inr (.inr (.inr (.inr rfl)))), ?_, fun _ => rfl, ?_, fun _ => h4, ?_, ?_, ?_, fun _ => rfl⟩
  · rintro (e | e | e) <;> cases e
  · intro e; cases e
  · intro hm
    have hm : Act.report ∈ s.acts := hm
    rw [ha] at hm; cases hm
  · intro e
    simp only [Proc.exit, Pc.over.injEq] at e
    exact absurd e hn
  · intro m _ hf; cases hf

/-- A step of a child -/
theorem J.step1 {c : Conf} {s : Sys} (h : J c s) {p p' : Proc} {q : Option Proc} (hp : s.p1 = some p) (he : p.ended = false) (hq : Child c (some p') q s.acts) :
    J c { s with p1 := some p', p2 := q } := by
  refine ⟨h.who, ?_, fun _ => hq, h.parent, fun _ => by simp, h.w0, ?_, h.noData, h.data, h.success, ?_, h.killed⟩
  · intro hb
    have : s.p1 = none := by
      rcases hb with e | e | e
      · exact (h.before (.inl e)).1
      · exact (h.before (.inr (.inl e))).1
      · cases e.1
    rw [hp] at this; cases this
  · intro e
    obtain ⟨p2, e1, e2⟩ := h.read e
    rw [hp] at e1; cases e1
    rw [he] at e2; cases e2
  · intro n e hf hn
    obtain ⟨_, p2, e1, e2, _⟩ := h.failure n e hf hn
    rw [hp] at e1; cases e1
    rw [he] at e2; cases e2

theorem J.early {c : Conf} {s : Sys} (h : J c s) {p : Proc} (h1 : s.p1 = some p) (hp : p.pc = .childClose ∨ p.pc = .setsid ∨ p.pc = .fork2) :
    s.p2 = none ∧ s.acts = [] ∧ p.w = true := by
  have hch := h.after (by rw [h1]; simp)
  have hne : p.ended = false := by rcases hp with e | e | e <;> simp [Proc.ended, e]
  rw [h1] at hch
  generalize s.acts = l at hch
  generalize s.p2 = q at hch
  cases hch with
  | early _ hw => exact ⟨rfl, rfl, hw⟩
  | failed he' => rw [hne] at he'; cases he'
  | daemon he' => rw [hne] at he'; cases he'

theorem J.second {c : Conf} {s : Sys} (h : J c s) {p : Proc} (h2 : s.p2 = some p) :
    ∃ q, s.p1 = some q ∧ q.ended = true ∧ q.w = false ∧ p.leader = false ∧ Progress c s.acts p.w p.pc := by
  have h1 : s.p1 ≠ none := by
    intro e
    rcases h.parent with e' | e' | e' | e' | e' | e'
    · rw [(h.before (.inl e')).2.1] at h2; cases h2
    · rw [(h.before (.inr (.inl e'))).2.1] at h2; cases h2
    · exact h.some1 (.inl e') e
    · exact h.some1 (.inr (.inl e')) e
    · exact h.some1 (.inr (.inr e')) e
    · rw [(h.before (.inr (.inr ⟨e, e'⟩))).2.1] at h2; cases h2
  have hch := h.after h1
  rw [h2] at hch
  generalize s.p1 = q at hch
  cases hch with
  | daemon he hw hl hq => exact ⟨_, rfl, he, hw, hl, hq⟩

theorem Progress.split {c : Conf} {l : List Act} {w : Bool} {pc : Pc} (h : Progress c l w pc) : ∃ t, Life.acts c = l ++ t := by
  cases h with
  | main h _ => exact ⟨_, h⟩
  | over h _ => exact ⟨_, h⟩

theorem exit_ended (p : Proc) (n : Option Nat) : (p.exit n).ended = true := rfl

theorem J.step {c : Conf} (hc : c.daemon = true) {s s' : Sys} (h : J c s) (hs : Step c s s') : J c s' := by
  have hne : ∀ {pc : Pc}, s.p0.pc = pc → (∀ n, pc ≠ .over n) → s.p0.ended = false := by
    intro pc e hpc
    unfold Proc.ended
    rw [e]
    cases pc <;> first | rfl | exact absurd rfl (hpc _)
  cases hs with
  | pipe e =>
    obtain ⟨h1, h2, h3, h4⟩ := h.before (.inl e)
    have ha : s.acts = [] := by simp [Sys.acts, h3]
    have hr : .report ∈ s.acts → False := by rw [ha]; exact fun h => by cases h
    exact ⟨h.who, fun _ => ⟨h1, h2, h3, h4⟩, h.after, .inr (.inl rfl), by simp, by simp [Proc.ended], by simp, fun _ => h4, fun hm => (hr hm).elim, by simp, by simp, by simp⟩
  | pipeFails e => exact h.end0 (.inl e) (by simp)
  | fork e =>
    obtain ⟨h1, h2, h3, h4⟩ := h.before (.inr (.inl e))
    have ha : s.acts = [] := by simp [Sys.acts, h3]
    have hr : .report ∈ s.acts → False := by rw [ha]; exact fun h => by cases h
    refine ⟨h.who, by simp [Proc.ended], fun _ => ?_, .inr (.inr (.inl rfl)), by simp, by simp [Proc.ended], by simp, fun _ => h4, fun hm => (hr hm).elim, by simp, by simp, by simp⟩
    show Child c (some _) s.p2 s.acts
    rw [h2, ha]
    exact .early (.inl rfl) rfl
  | forkFails e => exact h.end0 (.inr e) (by simp)
  | parentClose e =>
    exact h.step0 (d := s.data) (f := s.failed) (h.some1 (.inl e)) (hne e (by simp)) (.inl rfl) rfl (by simp) (.inl rfl) (by simp) (by simp) (by simp)
  | parentCloseFails e =>
    exact h.step0 (d := s.data) (h.some1 (.inl e)) (hne e (by simp)) (.inr (.inr rfl)) rfl (by simp [Proc.exit]) (.inl rfl) (by simp [Proc.exit]) (by simp) (by simp)
  | @wait p e h1 he =>
    exact h.step0 (d := s.data) (f := s.failed) (h.some1 (.inr (.inl e))) (hne e (by simp)) (.inr (.inl rfl)) (h.w0 (.inl e)) (fun _ => ⟨p, h1, he⟩) (.inl rfl) (by simp) (by simp) (by simp)
  | waitFails e =>
    exact h.step0 (d := s.data) (h.some1 (.inr (.inl e))) (hne e (by simp)) (.inr (.inr rfl)) rfl (by simp [Proc.exit]) (.inl rfl) (by simp [Proc.exit]) (by simp) (by simp)
  | @read b d e hd =>
    have hm : Act.report ∈ s.acts := by
      apply Classical.byContradiction
      intro hn
      rw [h.noData hn] at hd; cases hd
    have hb : b = 0 := by
      rcases h.data hm with h1 | h1
      · rw [h1] at hd; cases hd; rfl
      · rw [h1.1] at hd; cases hd
    subst hb
    exact h.step0 (f := s.failed) (h.some1 (.inr (.inr e))) (hne e (by simp)) (.inr (.inr rfl)) rfl (by simp [Proc.exit]) (.inr ⟨rfl, hd⟩) (fun _ => hm)
      (fun n hn _ h0 => by simp [Proc.exit] at hn; exact absurd hn.symm h0) (by simp [Proc.exit])
  | readEnd e hd hw =>
    have hm : Act.report ∉ s.acts := by
      intro hm
      rcases h.data hm with h1 | h1
      · rw [h1] at hd; cases hd
      · rw [hne e (by simp)] at h1; cases h1.2
    refine h.step0 (d := s.data) (f := s.failed) (h.some1 (.inr (.inr e))) (hne e (by simp)) (.inr (.inr rfl)) rfl (by simp [Proc.exit]) (.inl rfl) (by simp [Proc.exit])
      (fun _ _ _ _ => ⟨hm, ?_⟩) (by simp [Proc.exit])
    obtain ⟨p, h1, he⟩ := h.read e
    refine ⟨p, h1, he, fun q hq => ?_⟩
    have ha := h.after (h.some1 (.inr (.inr e)))
    generalize hl : s.acts = l at ha hm
    rw [h1, hq] at ha
    cases ha with
    | daemon _ _ _ hpr =>
      have hwq : q.w = false := by
        unfold Sys.writer at hw
        rw [hq] at hw
        simp only [Bool.or_eq_false_iff] at hw
        exact hw.2
      cases hpc : q.pc with
      | main todo =>
        rw [hpc] at hpr
        cases hpr with
        | main hl hw' =>
          rw [hwq] at hw'
          have := close_later hc hl hm
          simp [this] at hw'
      | over n => simp [Proc.ended, hpc]
      | _ => rw [hpc] at hpr; cases hpr
  | readFails e =>
    exact h.step0 (d := s.data) (h.some1 (.inr (.inr e))) (hne e (by simp)) (.inr (.inr rfl)) rfl (by simp [Proc.exit]) (.inl rfl) (by simp [Proc.exit]) (by simp) (by simp)
  | @childClose p h1 e =>
    obtain ⟨h2, ha, hw⟩ := h.early h1 (.inl e)
    have he : p.ended = false := by simp [Proc.ended, e]
    have := h.step1 (q := none) h1 he (p' := { p with pc := .setsid }) (by rw [ha]; exact .early (.inr (.inl rfl)) hw)
    rw [← h2] at this
    exact this
  | @setsid p h1 e =>
    obtain ⟨h2, ha, hw⟩ := h.early h1 (.inr (.inl e))
    have he : p.ended = false := by simp [Proc.ended, e]
    have := h.step1 (q := none) h1 he (p' := { p with pc := .fork2, leader := true, detached := true }) (by rw [ha]; exact .early (.inr (.inr rfl)) hw)
    rw [← h2] at this
    exact this
  | @setsidFails p h1 e =>
    obtain ⟨h2, ha, hw⟩ := h.early h1 (.inr (.inl e))
    have he : p.ended = false := by simp [Proc.ended, e]
    have := h.step1 (q := none) h1 he (p' := { p with pc := .fork2 }) (by rw [ha]; exact .early (.inr (.inr rfl)) hw)
    rw [← h2] at this
    exact this
  | @fork2 p h1 e =>
    obtain ⟨h2, ha, hw⟩ := h.early h1 (.inr (.inr e))
    have he : p.ended = false := by simp [Proc.ended, e]
    refine h.step1 h1 he ?_
    rw [ha]
    exact .daemon rfl rfl rfl (.main rfl (by rw [hw]; simp [(acts_daemon hc).2]))
  | @fork2Fails p h1 e =>
    obtain ⟨h2, ha, hw⟩ := h.early h1 (.inr (.inr e))
    have he : p.ended = false := by simp [Proc.ended, e]
    have := h.step1 (q := none) h1 he (p' := p.exit (some 1)) (by rw [ha]; exact .failed rfl rfl)
    rw [← h2] at this
    exact this
  | @main0 p o d ha =>
    have : ∀ a, s.p0.pc ≠ .main a := by
      intro a e
      rcases h.parent with h | h | h | h | h | h <;> first | (rw [e] at h; cases h) | (simp [Proc.ended, e] at h)
    cases ha with
    | ok hh _ _ => exact absurd hh (this _)
    | report hh => exact absurd hh (this _)
    | closePipe hh => exact absurd hh (this _)
    | fail hh _ => exact absurd hh (this _)
    | over hh _ => exact absurd hh (this _)
  | @main2 p p' o d h2 ha =>
    obtain ⟨q, h1, he, hw, hl, hpr⟩ := h.second h2
    obtain ⟨g1, g2, g3, g4⟩ := hpr.step ha
    have hacts : ∀ t : Sys, t.done = note s.done 2 o → t.acts = s.acts ++ o.toList := by
      intro t ht
      unfold Sys.acts
      rw [ht]
      cases o <;> simp [note]
    have hp1 : s.p1 ≠ none := by rw [h1]; simp
    have hb : ¬ (s.p0.pc = .pipe ∨ s.p0.pc = .fork ∨ (s.p1 = none ∧ s.p0.ended = true)) := fun hb => hp1 (h.before hb).1
    have hrep : o = some .report → .report ∉ s.acts := by
      rintro rfl hm
      have hnd := acts_nodup c
      have : ∃ t, Life.acts c = (s.acts ++ [.report]) ++ t := by
        revert g1
        cases p'.pc <;> intro g1 <;> cases g1 <;> exact ⟨_, ‹_›⟩
      obtain ⟨t, ht⟩ := this
      rw [ht, List.nodup_append, List.nodup_append] at hnd
      exact hnd.1.2.2 _ hm _ (by simp) rfl
    refine ⟨?_, fun e => (hb e).elim, ?_, h.parent, h.some1, h.w0, h.read, ?_, ?_, ?_, ?_, h.killed⟩
    · intro x hx
      cases o with
      | none => exact h.who x hx
      | some a =>
        rcases List.mem_append.1 hx with hx | hx
        · exact h.who x hx
        · simp at hx; rw [hx]
    · intro _
      rw [hacts _ rfl]
      show Child c s.p1 (some p') _
      rw [h1]
      exact .daemon he hw (g4.trans hl) g1
    · intro hn
      rw [hacts _ rfl] at hn
      simp only [List.mem_append, not_or] at hn
      show d = []
      rw [g2, h.noData hn.1]
      rw [if_neg]
      rintro rfl
      simp at hn
    · intro hm
      rw [hacts _ rfl] at hm
      show d = [0] ∨ d = [] ∧ s.p0.ended = true
      rw [g2]
      by_cases ho : o = some .report
      · rw [if_pos ho, h.noData (hrep ho)]
        exact .inl rfl
      · rw [if_neg ho]
        refine h.data ?_
        rcases List.mem_append.1 hm with hm | hm
        · exact hm
        · cases o with
          | none => cases hm
          | some a => simp at hm; exact absurd (by rw [hm]) ho
    · intro e
      rw [hacts _ rfl]
      exact List.mem_append_left _ (h.success e)
    · intro n e hf hn
      obtain ⟨_, r, e1, e2, e3⟩ := h.failure n e hf hn
      have := e3 p h2
      rw [g3] at this; cases this
  | kill0 he =>
    by_cases hp1 : s.p1 = none
    · refine h.end0 ?_ (by simp)
      rcases h.parent with e | e | e | e | e | e
      · exact .inl e
      · exact .inr e
      · exact absurd hp1 (h.some1 (.inl e))
      · exact absurd hp1 (h.some1 (.inr (.inl e)))
      · exact absurd hp1 (h.some1 (.inr (.inr e)))
      · rw [e] at he; cases he
    · exact h.step0 (d := s.data) hp1 he (.inr (.inr rfl)) rfl (by simp [Proc.exit]) (.inl rfl) (by simp [Proc.exit]) (by simp) (by simp)
  | @kill1 p h1 he =>
    have hch := h.after (by rw [h1]; simp)
    refine h.step1 h1 he ?_
    rw [h1] at hch
    generalize s.acts = l at hch
    generalize s.p2 = q at hch
    cases hch with
    | early => exact .failed rfl rfl
    | failed he' => rw [he] at he'; cases he'
    | daemon he' => rw [he] at he'; cases he'
  | @kill2 p h2 he =>
    obtain ⟨q, h1, heq, hw, hl, hpr⟩ := h.second h2
    have hp1 : s.p1 ≠ none := by rw [h1]; simp
    have hb : ¬ (s.p0.pc = .pipe ∨ s.p0.pc = .fork ∨ (s.p1 = none ∧ s.p0.ended = true)) := fun hb => hp1 (h.before hb).1
    refine ⟨h.who, fun e => (hb e).elim, fun _ => ?_, h.parent, h.some1, h.w0, h.read, h.noData, h.data, h.success, ?_, h.killed⟩
    · show Child c s.p1 (some _) s.acts
      rw [h1]
      refine .daemon heq hw hl ?_
      obtain ⟨t, ht⟩ := hpr.split
      exact .over ht rfl
    · intro n e hf hn
      obtain ⟨h3, r, e1, e2, e3⟩ := h.failure n e hf hn
      have := e3 p h2
      rw [he] at this; cases this

end Fastd.Life
