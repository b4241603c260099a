import Verif.Main.LifeLemmas

/-!
# C90: the start and the end of the process
-/

namespace Fastd.Life

/-! ## What is expected -/

/-- `(a, b)`: whenever `b` is done, `a` has been done before. -/
def order (c : Conf) : List (Act × Act) :=
  -- the status is reported when all addresses are bound, the interface exists and the PID file has been written
  [(.check, .report), (.bindAll, .report), (.statusInit, .report), (.preUp, .report), (.writePid, .report)] ++
  (if c.tap then [(.ifaceOpen, .report)] else []) ++
  -- pre-up, interface, up, main loop, down, interface, post-down
  [(.check, .preUp), (.preUp, .ifaceOpen), (.ifaceOpen, .up), (.preUp, .loop), (.configurePeers, .loop), (.peerDirs, .loop), (.loop, .deletePeers), (.loop, .down),
    (.up, .down), (.deletePeers, .down), (.down, .ifaceClose), (.preUp, .postDown), (.deletePeers, .postDown), (.closeSockets, .postDown)] ++
  (if c.tap then [(.up, .loop), (.ifaceClose, .postDown)] else []) ++
  -- privileges are acquired first, and given up before the main loop
  [(.capAcquire, .bindAll), (.capAcquire, .preUp)] ++ (if c.early then [(.dropEarly, .up), (.dropEarly, .configurePeers), (.dropEarly, .loop)] else [(.drop, .loop)])

/-- No process is killed in a step. -/
def Quiet (s s' : Sys) : Prop :=
  (s'.p0.pc = .over none → s.p0.pc = .over none) ∧ (s'.p1.map Proc.pc = some (.over none) → s.p1.map Proc.pc = some (.over none)) ∧
  (s'.p2.map Proc.pc = some (.over none) → s.p2.map Proc.pc = some (.over none))

/-- Runs of a given length -/
inductive Steps (c : Conf) : Nat → Sys → Sys → Prop
  | refl {s : Sys} : Steps c 0 s s
  | step {n : Nat} {s s' s'' : Sys} (h : Steps c n s s') (hs : Step c s' s'') : Steps c (n + 1) s s''

/-! ## Proofs -/

theorem Run.j {c : Conf} (hc : c.daemon = true) {s : Sys} (h : Run c s) : J c s := by
  induction h with
  | start => exact .start hc _
  | step _ hs ih => exact ih.step hc hs

/-- The invariant without `daemonize` -/
structure J0 (c : Conf) (s : Sys) : Prop where
  who : ∀ x ∈ s.done, x.1 = 0
  p1 : s.p1 = none
  p2 : s.p2 = none
  prog : Progress c s.acts s.p0.w s.p0.pc

theorem Run.j0 {c : Conf} (hc : c.daemon = false) {s : Sys} (h : Run c s) : J0 c s := by
  induction h with
  | start =>
    refine ⟨by simp [Life.start], rfl, rfl, ?_⟩
    simp only [Life.start, hc, Bool.false_eq_true, if_false]
    exact .main rfl (by simp [(acts_plain hc).2])
  | @step s s' _ hs ih =>
    obtain ⟨hw, h1, h2, hp⟩ := ih
    have hno : ∀ pc, s.p0.pc = pc → (∃ l, pc = .main l) ∨ ∃ n, pc = .over n := by
      rintro pc rfl
      generalize s.p0.pc = pc at hp
      cases hp with
      | main => exact .inl ⟨_, rfl⟩
      | over => exact .inr ⟨_, rfl⟩
    cases hs with
    | main0 ha =>
      rename_i p o d
      have hg := (hp.step ha).1
      refine ⟨?_, h1, h2, ?_⟩
      · intro x hx
        cases o with
        | none => exact hw x hx
        | some a =>
          rcases List.mem_append.1 hx with hx | hx
          · exact hw x hx
          · simp at hx; rw [hx]
      · have : (Sys.acts { s with p0 := p, data := d, done := note s.done 0 o }) = s.acts ++ o.toList := by
          unfold Sys.acts
          cases o <;> simp [note]
        rw [this]
        exact hg
    | kill0 he =>
      obtain ⟨t, ht⟩ := hp.split
      exact ⟨hw, h1, h2, .over ht rfl⟩
    | main2 e => rw [h2] at e; cases e
    | kill1 e => rw [h1] at e; cases e
    | kill2 e => rw [h2] at e; cases e
    | childClose e => rw [h1] at e; cases e
    | setsid e => rw [h1] at e; cases e
    | setsidFails e => rw [h1] at e; cases e
    | fork2 e => rw [h1] at e; cases e
    | fork2Fails e => rw [h1] at e; cases e
    | wait e => rcases hno _ e with ⟨l, e⟩ | ⟨n, e⟩ <;> cases e
    | read e => rcases hno _ e with ⟨l, e⟩ | ⟨n, e⟩ <;> cases e
    | readEnd e => rcases hno _ e with ⟨l, e⟩ | ⟨n, e⟩ <;> cases e
    | pipe e => rcases hno _ e with ⟨l, e⟩ | ⟨n, e⟩ <;> cases e
    | pipeFails e => rcases hno _ e with ⟨l, e⟩ | ⟨n, e⟩ <;> cases e
    | fork e => rcases hno _ e with ⟨l, e⟩ | ⟨n, e⟩ <;> cases e
    | forkFails e => rcases hno _ e with ⟨l, e⟩ | ⟨n, e⟩ <;> cases e
    | parentClose e => rcases hno _ e with ⟨l, e⟩ | ⟨n, e⟩ <;> cases e
    | parentCloseFails e => rcases hno _ e with ⟨l, e⟩ | ⟨n, e⟩ <;> cases e
    | waitFails e => rcases hno _ e with ⟨l, e⟩ | ⟨n, e⟩ <;> cases e
    | readFails e => rcases hno _ e with ⟨l, e⟩ | ⟨n, e⟩ <;> cases e

theorem Run.prefix {c : Conf} {s : Sys} (h : Run c s) : ∃ t, acts c = s.acts ++ t := by
  cases hc : c.daemon with
  | false => exact (h.j0 hc).prog.split
  | true =>
    have hj := h.j hc
    cases h2 : s.p2 with
    | some p =>
      obtain ⟨_, _, _, _, _, hp⟩ := hj.second h2
      exact hp.split
    | none =>
      refine ⟨acts c, ?_⟩
      have : s.acts = [] := by
        by_cases h1 : s.p1 = none
        · have : s.done = [] := by
            rcases hj.parent with e' | e' | e' | e' | e' | e'
            · exact (hj.before (.inl e')).2.2.1
            · exact (hj.before (.inr (.inl e'))).2.2.1
            · exact absurd h1 (hj.some1 (.inl e'))
            · exact absurd h1 (hj.some1 (.inr (.inl e')))
            · exact absurd h1 (hj.some1 (.inr (.inr e')))
            · exact (hj.before (.inr (.inr ⟨h1, e'⟩))).2.2.1
          simp [Sys.acts, this]
        · have hch := hj.after h1
          rw [h2] at hch
          generalize s.acts = l at hch
          generalize s.p1 = q at hch
          cases hch <;> rfl
      rw [this]; rfl

/-! ## Properties -/

/-- If `fastd --daemon` exits with status 0, then the daemon has been initialised. -/
theorem C90_success {c : Conf} (hc : c.daemon = true) {s : Sys} (h : Run c s) (h0 : s.p0.pc = .over (some 0)) :
    .report ∈ s.acts ∧ .bindAll ∈ s.acts ∧ .writePid ∈ s.acts ∧ .preUp ∈ s.acts ∧ (c.tap = true → .ifaceOpen ∈ s.acts) := by
  have hr := (h.j hc).success h0
  obtain ⟨l1, l2, hl⟩ := List.append_of_mem hr
  obtain ⟨t, ht⟩ := h.prefix
  have key : ∀ a : Act, a ∈ (acts c).takeWhile (· ≠ .report) → a ∈ s.acts := by
    intro a ha
    have := precedes ha (l1 := l1) (l2 := l2 ++ t) (by rw [ht, hl]; simp)
    rw [hl]
    exact List.mem_append_left _ this
  have e : ∀ c : Conf, c.daemon = true → .bindAll ∈ (acts c).takeWhile (· ≠ .report) ∧ .writePid ∈ (acts c).takeWhile (· ≠ .report) ∧
      .preUp ∈ (acts c).takeWhile (· ≠ .report) ∧ (c.tap = true → .ifaceOpen ∈ (acts c).takeWhile (· ≠ .report)) := by
    rintro ⟨d, t, l, e⟩
    revert d t l e
    decide
  obtain ⟨e1, e2, e3, e4⟩ := e c hc
  exact ⟨hr, key _ e1, key _ e2, key _ e3, fun h => key _ (e4 h)⟩

/-- If it exits with another status, and none of its own system calls failed, then nothing has been reported, and all processes have ended. -/
theorem C90_failure {c : Conf} (hc : c.daemon = true) {s : Sys} (h : Run c s) {n : Nat} (hn : s.p0.pc = .over (some n)) (h0 : n ≠ 0) (hf : s.failed = false) :
    .report ∉ s.acts ∧ (∃ p, s.p1 = some p ∧ p.ended = true) ∧ ∀ p, s.p2 = some p → p.ended = true := by
  obtain ⟨h1, p, h2, h3, h4⟩ := (h.j hc).failure n hn hf h0
  exact ⟨h1, ⟨p, h2, h3⟩, h4⟩

/-- Everything is done at most once, and by one process: the one that was started, or with `--daemon` its grandchild, which isn't the leader of a session. -/
theorem C90_once {c : Conf} {s : Sys} (h : Run c s) :
    (∀ x ∈ s.done, x.1 = if c.daemon then 2 else 0) ∧ s.acts.Nodup ∧ ∀ p, s.p2 = some p → p.leader = false := by
  obtain ⟨t, ht⟩ := h.prefix
  have hnd := acts_nodup c
  rw [ht] at hnd
  refine ⟨?_, (List.nodup_append.1 hnd).1, ?_⟩
  · cases hc : c.daemon with
    | false => exact (h.j0 hc).who
    | true => exact (h.j hc).who
  · intro p hp
    cases hc : c.daemon with
    | false => rw [(h.j0 hc).p2] at hp; cases hp
    | true =>
      obtain ⟨_, _, _, _, hl, _⟩ := (h.j hc).second hp
      exact hl

/-- Everything is done in order. -/
theorem C90_order {c : Conf} {s : Sys} (h : Run c s) {a b : Act} (hab : (a, b) ∈ order c) {l1 l2 : List Act} (hl : s.acts = l1 ++ b :: l2) : a ∈ l1 := by
  obtain ⟨t, ht⟩ := h.prefix
  have e : ∀ c : Conf, ∀ x ∈ order c, x.2 ∈ acts c → x.1 ∈ (acts c).takeWhile (· ≠ x.2) := by
    rintro ⟨d, t, l, e⟩
    revert d t l e
    decide
  refine precedes (e c _ hab ?_) (l2 := l2 ++ t) (by rw [ht, hl]; simp)
  rw [ht, hl]
  simp

/-- The main loop is only entered when all of the initialisation is done. -/
theorem C90_complete {c : Conf} {s : Sys} (h : Run c s) (hl : .loop ∈ s.acts) : ∀ a ∈ initActs c, a ∈ s.acts := by
  intro a ha
  obtain ⟨l1, l2, hl⟩ := List.append_of_mem hl
  obtain ⟨t, ht⟩ := h.prefix
  have e : ∀ c : Conf, ∀ a ∈ initActs c, a ∈ (acts c).takeWhile (· ≠ .loop) := by
    rintro ⟨d, t, l, e⟩
    revert d t l e
    decide
  have := precedes (e c a ha) (l1 := l1) (l2 := l2 ++ t) (by rw [ht, hl]; simp)
  rw [hl]
  exact List.mem_append_left _ this

/-- How much a process can still do -/
def leftPc : Pc → Nat
  | .pipe => 200
  | .fork => 199
  | .parentClose => 5
  | .parentWait => 4
  | .parentRead => 3
  | .childClose => 100
  | .setsid => 99
  | .fork2 => 98
  | .main l => l.length + 1
  | .over _ => 0

def leftOpt : Option Proc → Nat
  | none => 0
  | some p => leftPc p.pc

def left (s : Sys) : Nat := leftPc s.p0.pc + leftOpt s.p1 + leftOpt s.p2

theorem acts_length (c : Conf) : (acts c).length ≤ 33 := by
  obtain ⟨d, t, l, e⟩ := c
  revert d t l e
  decide

theorem left_acts {p p' : Proc} {d d' : List Nat} {o : Option Act} (h : Acts p d o p' d') : leftPc p'.pc < leftPc p.pc := by
  cases h with
  | ok e _ _ => rw [e]; simp [leftPc]
  | report e => rw [e]; simp [leftPc]
  | closePipe e => rw [e]; simp [leftPc]
  | fail e _ => rw [e]; simp [leftPc, Proc.exit]
  | over e _ => rw [e]; simp [leftPc, Proc.exit]

theorem left_kill {p : Proc} (h : p.ended = false) : 0 < leftPc p.pc := by
  unfold Proc.ended at h
  cases e : p.pc <;> simp [leftPc] <;> (rw [e] at h; cases h)

theorem left_exit (p : Proc) (n : Option Nat) : leftPc (p.exit n).pc = 0 := rfl

theorem left_some (p : Proc) : leftOpt (some p) = leftPc p.pc := rfl

theorem left_step {c : Conf} {s s' : Sys} (hj : ∀ p, s.p1 = some p → p.pc = .fork2 → s.p2 = none) (hj0 : s.p0.pc = .fork → s.p1 = none) (h : Step c s s') :
    left s' < left s := by
  have hlen := acts_length c
  cases h with
  | fork e => simp [left, e, leftPc, hj0 e, leftOpt]
  | @fork2 p h1 e =>
    have := hj p h1 e
    simp only [left, h1, this, leftOpt, e, leftPc, Proc.exit]
    omega
  | main0 ha => have := left_acts ha; simp only [left]; omega
  | main2 h2 ha => have := left_acts ha; simp only [left, h2, leftOpt]; omega
  | kill0 he => have := left_kill he; simp only [left, left_exit]; omega
  | kill1 h1 he => have := left_kill he; simp only [left, left_some, left_exit, h1]; omega
  | kill2 h1 he => have := left_kill he; simp only [left, left_some, left_exit, h1]; omega
  | pipe e => simp [left, e, leftPc]
  | pipeFails e => simp [left, e, leftPc, Proc.exit]
  | forkFails e => simp [left, e, leftPc, Proc.exit]
  | parentClose e => simp [left, e, leftPc]
  | parentCloseFails e => simp [left, e, leftPc, Proc.exit]
  | wait e _ _ => simp [left, e, leftPc]
  | waitFails e => simp [left, e, leftPc, Proc.exit]
  | read e _ => simp [left, e, leftPc, Proc.exit]
  | readEnd e _ _ => simp [left, e, leftPc, Proc.exit]
  | readFails e => simp [left, e, leftPc, Proc.exit]
  | childClose h1 e => simp [left, e, leftPc, leftOpt, h1]
  | setsid h1 e => simp [left, e, leftPc, leftOpt, h1]
  | setsidFails h1 e => simp [left, e, leftPc, leftOpt, h1]
  | fork2Fails h1 e => simp [left, e, leftPc, leftOpt, h1, Proc.exit]

/-- Everything ends: there is no infinite run (the main loop counts as one action). -/
theorem C90_finite {c : Conf} {s s' : Sys} {n : Nat} (h : Run c s) (hs : Steps c n s s') : n ≤ 200 := by
  have key : Run c s' ∧ left s' + n ≤ left s := by
    induction hs with
    | refl => exact ⟨h, Nat.le_refl _⟩
    | @step n s s' s'' hs hst ih =>
      obtain ⟨hr, hl⟩ := ih h
      have := left_step (c := c) ?_ ?_ hst
      · exact ⟨.step hr hst, by omega⟩
      · intro p h1 e
        cases hc : c.daemon with
        | false => exact (hr.j0 hc).p2
        | true => exact ((hr.j hc).early h1 (.inr (.inr e))).1
      · intro e
        cases hc : c.daemon with
        | false => exact (hr.j0 hc).p1
        | true => exact ((hr.j hc).before (.inr (.inl e))).1
  have hb : ∀ s, Run c s → left s ≤ 200 := by
    intro s hr
    induction hr with
    | start =>
      have := acts_length c
      simp only [left, Life.start, leftOpt]
      cases c.daemon <;> simp [leftPc] <;> omega
    | @step s s' hr hst ih =>
      have := left_step (c := c) ?_ ?_ hst
      · omega
      · intro p h1 e
        cases hc : c.daemon with
        | false => exact (hr.j0 hc).p2
        | true => exact ((hr.j hc).early h1 (.inr (.inr e))).1
      · intro e
        cases hc : c.daemon with
        | false => exact (hr.j0 hc).p1
        | true => exact ((hr.j hc).before (.inr (.inl e))).1
  have := hb s h
  omega

/-- `fastd --daemon` never hangs: as long as it has not ended, one of the processes can go on without a failure, and not in the daemon once that has
reported its status. -/
theorem C90_progress {c : Conf} (hc : c.daemon = true) {s : Sys} (h : Run c s) (h0 : s.p0.ended = false) :
    ∃ s', Step c s s' ∧ Quiet s s' ∧ s'.failed = s.failed ∧ (.report ∈ s.acts → s'.p2 = s.p2) := by
  have hj := h.j hc
  have q0 : ∀ {p : Proc} {d : List Nat}, p.pc ≠ .over none → Quiet s { s with p0 := p, data := d } := fun hp => ⟨fun e => absurd e hp, id, id⟩
  have first : ∀ p, s.p1 = some p → p.ended = false → ∃ s', Step c s s' ∧ Quiet s s' ∧ s'.failed = s.failed ∧ (.report ∈ s.acts → s'.p2 = s.p2) := by
    intro p h1 he
    have hch := hj.after (by rw [h1]; simp)
    rw [h1] at hch
    have hsub : (p.pc = .childClose ∨ p.pc = .setsid ∨ p.pc = .fork2) := by
      generalize s.acts = l at hch
      generalize s.p2 = q at hch
      cases hch with
      | early hpc _ => exact hpc
      | failed he' => rw [he] at he'; cases he'
      | daemon he' => rw [he] at he'; cases he'
    have ha := (hj.early h1 hsub).2.1
    rcases hsub with e | e | e
    · exact ⟨_, .childClose h1 e, ⟨id, by simp, id⟩, rfl, fun _ => rfl⟩
    · exact ⟨_, .setsid h1 e, ⟨id, by simp, id⟩, rfl, fun _ => rfl⟩
    · exact ⟨_, .fork2 h1 e, ⟨id, by simp [Proc.exit], by simp⟩, rfl, fun hm => by rw [ha] at hm; cases hm⟩
  rcases hj.parent with e | e | e | e | e | e
  · exact ⟨_, .pipe e, q0 (by simp), rfl, fun _ => rfl⟩
  · exact ⟨_, .fork e, ⟨by simp, by simp, id⟩, rfl, fun _ => rfl⟩
  · exact ⟨_, .parentClose e, q0 (by simp), rfl, fun _ => rfl⟩
  · cases h1 : s.p1 with
    | none => exact absurd h1 (hj.some1 (.inr (.inl e)))
    | some p =>
      cases he : p.ended with
      | true => exact ⟨_, .wait e h1 he, q0 (by simp), rfl, fun _ => rfl⟩
      | false => exact first p h1 he
  · obtain ⟨p, h1, he⟩ := hj.read e
    cases hd : s.data with
    | cons b d => exact ⟨_, .read e hd, q0 (by simp [Proc.exit]), rfl, fun _ => rfl⟩
    | nil =>
      have hm : .report ∉ s.acts := by
        intro hm
        rcases hj.data hm with h1 | h1
        · rw [hd] at h1; cases h1
        · rw [h0] at h1; cases h1.2
      cases hw : s.writer with
      | false => exact ⟨_, .readEnd e hd hw, q0 (by simp [Proc.exit]), rfl, fun _ => rfl⟩
      | true =>
        have hw0 := hj.w0 (.inr (.inl e))
        cases h2 : s.p2 with
        | none =>
          have hch := hj.after (by rw [h1]; simp)
          rw [h1, h2] at hch
          have : p.w = false := by
            generalize s.acts = l at hch
            cases hch with
            | early hpc _ => rcases hpc with e | e | e <;> simp [Proc.ended, e] at he
            | failed _ hw => exact hw
          simp [Sys.writer, hw0, h1, h2, writes, this] at hw
        | some q =>
          obtain ⟨p', h1', _, hpw, _, hpr⟩ := hj.second h2
          rw [h1] at h1'
          cases h1'
          have hqw : q.w = true := by simpa [Sys.writer, hw0, h1, h2, writes, hpw] using hw
          have : ∃ a l, q.pc = .main (a :: l) := by
            cases hpc : q.pc with
            | main l =>
              rw [hpc] at hpr
              cases hpr with
              | main _ hw' =>
                cases l with
                | nil => rw [hqw] at hw'; simp at hw'
                | cons a l => exact ⟨a, l, rfl⟩
            | over =>
              rw [hpc] at hpr
              cases hpr with
              | over _ hw' => rw [hqw] at hw'; cases hw'
            | _ => rw [hpc] at hpr; cases hpr
          obtain ⟨a, l, hpc⟩ := this
          by_cases ha : a = .report
          · subst ha
            exact ⟨_, .main2 h2 (.report hpc), ⟨id, id, by simp⟩, rfl, fun h => absurd h hm⟩
          · by_cases hb : a = .closePipe
            · subst hb
              exact ⟨_, .main2 h2 (.closePipe hpc), ⟨id, id, by simp⟩, rfl, fun h => absurd h hm⟩
            · exact ⟨_, .main2 h2 (.ok hpc ha hb), ⟨id, id, by simp⟩, rfl, fun h => absurd h hm⟩
  · rw [h0] at e; cases e

theorem run_acts {c : Conf} {s : Sys} (h : Run c s) {p : Proc} (h2 : s.p2 = some p) {todo : List Act} : ∀ {l : List Act}, p.pc = .main (l ++ todo) →
    ∃ s', Run c s' ∧ s'.p0 = s.p0 ∧ s'.p1 = s.p1 ∧ s'.acts = s.acts ++ l ∧ s'.failed = s.failed ∧ ∃ p', s'.p2 = some p' ∧ p'.pc = .main todo := by
  intro l
  induction l generalizing s p with
  | nil => intro e; exact ⟨s, h, rfl, rfl, by simp, rfl, p, h2, e⟩
  | cons a l ih =>
    intro e
    have key : ∃ p' d, Acts p s.data (some a) p' d ∧ p'.pc = .main (l ++ todo) := by
      by_cases ha : a = .report
      · subst ha; exact ⟨_, _, .report e, rfl⟩
      · by_cases hb : a = .closePipe
        · subst hb; exact ⟨_, _, .closePipe e, rfl⟩
        · exact ⟨_, _, .ok e ha hb, rfl⟩
    obtain ⟨p', d, hacts, e'⟩ := key
    have hs : Step c s { s with p2 := some p', data := d, done := note s.done 2 (some a) } := .main2 h2 hacts
    obtain ⟨s', g1, g2, g3, g4, g5⟩ := ih (.step h hs) rfl e'
    refine ⟨s', g1, g2, g3, ?_, g5⟩
    rw [g4]
    simp [Sys.acts, note]

/-- The claim that a daemon is running whenever `fastd --daemon` exits with status 0 and nobody ended it is false: the status is written before the peers are
configured and privileges are given up, and fastd may exit because of both. -/
theorem C90_running_false : ¬ ∀ (c : Conf) (s : Sys), c.daemon = true → Run c s → s.p0.pc = .over (some 0) → s.failed = false →
    ∀ p, s.p2 = some p → p.pc = .over (some 1) → .loop ∈ s.acts := by
  intro hall
  let c : Conf := { daemon := true, tap := true, l2tp := false, early := false }
  have r0 : Run c (start c false) := .start
  have r1 := r0.step (.pipe rfl)
  have r2 := r1.step (.fork rfl)
  have r3 := r2.step (.parentClose rfl)
  have r4 := r3.step (.childClose rfl rfl)
  have r5 := r4.step (.setsid rfl rfl)
  have r6 := r5.step (.fork2 rfl rfl)
  have r7 := r6.step (.wait rfl rfl rfl)
  obtain ⟨s, hr, e0, e1, ea, ef, p, hp, hpc⟩ := run_acts r7 rfl (l := (acts c).takeWhile (· ≠ .configurePeers)) (todo := (acts c).dropWhile (· ≠ .configurePeers)) (by decide)
  have ea' : s.acts = (acts c).takeWhile (· ≠ .configurePeers) := by rw [ea]; rfl
  have r8 := hr.step (.main2 hp (.fail (n := some 1) (a := .configurePeers) (l := ((acts c).dropWhile (· ≠ .configurePeers)).tail) (by rw [hpc]; decide) (by simp)))
  have hd : s.data = [0] := by
    rcases (hr.j rfl).data (by rw [ea']; decide) with h | h
    · exact h
    · rw [e0] at h; cases h.2
  have r9 := r8.step (.read (by rw [e0]) hd)
  have := hall c _ rfl r9 rfl ef _ rfl rfl
  have h2 : Act.loop ∈ s.acts := this
  rw [ea'] at h2
  revert h2
  decide

/-- All the same, a daemon that enters its main loop has been reported. -/
theorem C90_running_partial {c : Conf} (hc : c.daemon = true) {s : Sys} (h : Run c s) (hl : .loop ∈ s.acts) : .report ∈ s.acts ∧ .closePipe ∈ s.acts := by
  have e : ∀ c : Conf, c.daemon = true → .report ∈ initActs c ∧ .closePipe ∈ initActs c := by
    rintro ⟨d, t, l, e⟩
    revert d t l e
    decide
  exact ⟨C90_complete h hl _ (e c hc).1, C90_complete h hl _ (e c hc).2⟩

/-! ## Examples -/

example : acts { daemon := true, tap := true, l2tp := false, early := true } =
    [.check, .capAcquire, .pollInit, .initSockets, .statusInit, .asyncInit, .bindAll, .preUp, .ifaceOpen, .setGroups, .writePid, .hashtable, .notify, .report,
      .closePipe, .dropEarly, .up, .configurePeers, .initBuffers, .peerDirs, .loop, .deletePeers, .cleanupBuffers, .down, .ifaceClose, .statusClose,
      .closeSockets, .pollFree, .postDown, .release] := by decide

/-- A run in which the interface cannot be opened: the original process exits with status 1. On-pre-up has been run, on-post-down will never be. -/
example : ∃ s, Run { daemon := true, tap := true, l2tp := false, early := false } s ∧ s.p0.pc = .over (some 1) ∧ s.failed = false ∧ .preUp ∈ s.acts ∧
    .postDown ∉ s.acts ∧ s.p2.map Proc.pc = some (.over (some 1)) := by
  let c : Conf := { daemon := true, tap := true, l2tp := false, early := false }
  have r0 : Run c (start c false) := .start
  have r7 := ((((((r0.step (.pipe rfl)).step (.fork rfl)).step (.parentClose rfl)).step (.childClose rfl rfl)).step (.setsid rfl rfl)).step (.fork2 rfl rfl)).step
    (.wait rfl rfl rfl)
  obtain ⟨s, hr, e0, e1, ea, ef, p, hp, hpc⟩ := run_acts r7 rfl (l := (acts c).takeWhile (· ≠ .ifaceOpen)) (todo := (acts c).dropWhile (· ≠ .ifaceOpen)) (by decide)
  have ea' : s.acts = (acts c).takeWhile (· ≠ .ifaceOpen) := by rw [ea]; rfl
  have hn : .report ∉ s.acts := by rw [ea']; decide
  have r8 := hr.step (.main2 hp (.fail (n := some 1) (a := .ifaceOpen) (l := ((acts c).dropWhile (· ≠ .ifaceOpen)).tail) (by rw [hpc]; decide) (by simp)))
  have r9 := r8.step (.readEnd (by rw [e0]) ((hr.j rfl).noData hn) (by simp [Sys.writer, e0, e1, writes, Proc.exit]))
  refine ⟨_, r9, rfl, ef, ?_, ?_, rfl⟩
  · show Act.preUp ∈ s.acts
    rw [ea']; decide
  · show Act.postDown ∉ s.acts
    rw [ea']; decide

end Fastd.Life
