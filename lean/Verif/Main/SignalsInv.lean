import Verif.Spec.Signals

/-!
# Signals: invariants
-/

namespace Fastd.Main

theorem since_append_self (e : Ev) (es : List Ev) : since e (es ++ [e]) = [] := by simp [since]

theorem since_append {e f : Ev} (es : List Ev) (h : f ≠ e) : since e (es ++ [f]) = f :: since e es := by
  simp [since, h]

theorem count_ne {e f : Ev} (es : List Ev) (h : f ≠ e) : (es ++ [f]).count e = es.count e := by
  rw [List.count_append, List.count_singleton, if_neg (by simpa using h)]; rfl

theorem count_self (e : Ev) (es : List Ev) : (es ++ [e]).count e = es.count e + 1 := by
  rw [List.count_append, List.count_singleton_self]

theorem since_nil (e : Ev) : since e [] = [] := rfl

/-- Where the flag of a signal may be set. -/
def flagAt : Sig → Pc → Bool
  | .hup, .wait | .hup, .events | .hup, .ifReload => true
  | .usr2, .wait | .usr2, .events | .usr2, .ifReload | .usr2, .reload | .usr2, .ifReset => true
  | .chld, .wait | .chld, .events | .chld, .ifReload | .chld, .reload | .chld, .ifReset | .chld, .reset | .chld, .ifChild => true
  | _, .raise | _, .exited | _, .killed _ => true
  | _, _ => false

/-- After the main loop. -/
def Pc.late : Pc → Bool
  | .cleanup | .unblock | .raise | .exited | .killed _ => true
  | _ => false

/-- Before signals could be delivered. -/
def Pc.loop : Pc → Bool
  | .init | .tasks => false
  | _ => true

structure J (p : Proc) (es : List Ev) : Prop where
  pend : ∀ s e, s.answer = some e → .sent s ∈ since e es → p.alive → p.pending s ∨ p.flag s
  deliv : ∀ s e, s.answer = some e → .delivered s ∈ since e es → p.flag s
  cause : ∀ s e, s.answer = some e → p.flag s → .delivered s ∈ since e es
  count : ∀ s, es.count (.delivered s) + (if p.pending s then 1 else 0) ≤ es.count (.sent s)
  answers : ∀ s e, s.answer = some e → es.count e + (if p.flag s then 1 else 0) ≤ es.count (.delivered s)
  at_ : ∀ s e, s.answer = some e → p.flag s → flagAt s p.pc
  fatal : ∀ s, .delivered s ∈ es → s.fatal → p.sigTerminate ≠ none
  term : ∀ s, p.sigTerminate = some s → s.fatal ∧ .delivered s ∈ es
  early : p.sigTerminate ≠ none → p.pc.loop
  late : p.pc.late → p.sigTerminate ≠ none ∧ .cleanup ∈ es
  notlate : p.pc.late = false → .cleanup ∉ es
  dflt : ∀ s, p.dflt = some s → s.fatal ∧ .delivered s ∈ es ∧ p.pc.late
  dflt' : p.pc = .raise ∨ p.pc = .exited ∨ (∃ s, p.pc = .killed s) → ∃ s, p.dflt = some s ∧
    (p.sigTerminate = some s ∨ ∃ s', p.sigTerminate = some s' ∧ s' ≠ s ∧ .delivered s' ∈ since .cleanup es)
  exited : p.pc = .exited → p.sigTerminate ≠ p.dflt
  killed : ∀ s, p.pc = .killed s → p.dflt = some s

theorem J.start : J {} [] := by
  constructor
  case answers => intro s e he; cases s <;> simp [Proc.flag]
  case at_ => intro s e he; cases s <;> simp [Proc.flag, Sig.answer] at *
  case cause => intro s e he; cases s <;> simp [Proc.flag, Sig.answer] at *
  all_goals intros; simp_all [since, Pc.late]

theorem flag_pc (p : Proc) (x : Pc) (s : Sig) : ({ p with pc := x } : Proc).flag s = p.flag s := by
  cases s <;> rfl

/-- Going on without an event. -/
theorem J.move {p : Proc} {es : List Ev} (h : J p es) (x : Pc) (ha : p.alive)
    (h1 : ∀ s e, s.answer = some e → p.flag s → flagAt s x) (h2 : p.sigTerminate ≠ none → x.loop)
    (h3 : x.late = p.pc.late) (h4 : x ≠ .raise ∧ x ≠ .exited ∧ ∀ s, x ≠ .killed s) : J { p with pc := x } es where
  pend s e he hm _ := by rw [flag_pc]; exact h.pend s e he hm ha
  deliv s e he hm := by rw [flag_pc]; exact h.deliv s e he hm
  cause s e he hm := h.cause s e he (by rwa [flag_pc] at hm)
  count := h.count
  answers s e he := by rw [flag_pc]; exact h.answers s e he
  at_ s e he hf := h1 s e he (by rwa [flag_pc] at hf)
  fatal := h.fatal
  term := h.term
  early := h2
  late hl := h.late (by rw [← h3]; exact hl)
  notlate hl := h.notlate (by rw [← h3]; exact hl)
  dflt s hs := by
    obtain ⟨a, b, c⟩ := h.dflt s hs
    exact ⟨a, b, by rw [← h3] at c; exact c⟩
  dflt' hx := by
    rcases hx with hx | hx | ⟨s, hx⟩
    · exact absurd hx h4.1
    · exact absurd hx h4.2.1
    · exact absurd hx (h4.2.2 s)
  exited hx := absurd hx h4.2.1
  killed s hx := absurd hx (h4.2.2 s)

/-- A signal is sent. -/
theorem J.send {p : Proc} {es : List Ev} (h : J p es) (t : Sig) : J (setPending t true p) (es ++ [.sent t]) := by
  have hne : ∀ s e, Sig.answer s = some e → Ev.sent t ≠ e := by
    intro s e; cases s <;> simp [Sig.answer] <;> rintro rfl <;> simp
  have hfl : ∀ s, (setPending t true p).flag s = p.flag s := by intro s; cases s <;> rfl
  constructor
  · intro s e he hm ha
    rw [since_append _ (hne s e he)] at hm
    rw [hfl]
    by_cases hst : s = t
    · exact .inl (by simp [setPending, hst])
    · have hm' : Ev.sent s ∈ since e es := by
        rcases List.mem_cons.1 hm with hm | hm
        · exact absurd (by simpa using hm) hst
        · exact hm
      rcases h.pend s e he hm' ha with h | h
      · exact .inl (by simp [setPending, h])
      · exact .inr h
  · intro s e he hm
    rw [since_append _ (hne s e he)] at hm
    rw [hfl]
    exact h.deliv s e he (by simpa using hm)
  · intro s e he hm
    rw [since_append _ (hne s e he)]
    rw [hfl] at hm
    exact List.mem_cons_of_mem _ (h.cause s e he hm)
  · intro s
    have := h.count s
    rw [count_ne _ (by simp)]
    by_cases hst : s = t
    · subst hst
      simp only [setPending, if_true]
      rw [count_self]
      split at this <;> omega
    · simp only [setPending, if_neg hst]
      rw [count_ne _ (by simpa using fun h => hst h.symm)]
      exact this
  · intro s e he
    have := h.answers s e he
    rw [hfl, count_ne _ (hne s e he), count_ne _ (by simp)]
    exact this
  · intro s e he hf
    rw [hfl] at hf
    exact h.at_ s e he hf
  · intro s hm
    exact h.fatal s (by simpa using hm)
  · intro s hs
    obtain ⟨a, b⟩ := h.term s hs
    exact ⟨a, List.mem_append_left _ b⟩
  · exact h.early
  · intro hl
    obtain ⟨a, b⟩ := h.late hl
    exact ⟨a, List.mem_append_left _ b⟩
  · intro hl
    have := h.notlate hl
    simpa using this
  · intro s hs
    obtain ⟨a, b, c⟩ := h.dflt s hs
    exact ⟨a, List.mem_append_left _ b, c⟩
  · intro hx
    obtain ⟨s, hd, hs⟩ := h.dflt' hx
    refine ⟨s, hd, ?_⟩
    rw [since_append _ (by simp)]
    rcases hs with hs | ⟨s', a, b, c⟩
    · exact .inl hs
    · exact .inr ⟨s', a, b, List.mem_cons_of_mem _ c⟩
  · exact h.exited
  · exact h.killed

theorem flag_onSignal (p : Proc) (s : Sig) : (onSignal s p).flag s = true := by cases s <;> simp [onSignal, Proc.flag]

theorem flag_onSignal_of {p : Proc} {s t : Sig} (h : s ≠ t) (hs : s.fatal = false) : (onSignal t p).flag s = p.flag s := by
  cases s <;> cases t <;> simp_all [onSignal, Proc.flag, Sig.fatal]

theorem onSignal_term (p : Proc) (s : Sig) :
    (onSignal s p).sigTerminate = if s.fatal then some s else p.sigTerminate := by
  cases s <;> rfl

theorem answer_fatal {s : Sig} {e : Ev} (h : s.answer = some e) : s.fatal = false := by
  cases s <;> simp [Sig.answer, Sig.fatal] at *

theorem onSignal_pc (p : Proc) (s : Sig) : (onSignal s p).pc = p.pc ∧ (onSignal s p).dflt = p.dflt ∧
    (onSignal s p).pending = p.pending := by cases s <;> exact ⟨rfl, rfl, rfl⟩

theorem flagAt_unmasked {p : Proc} (h : p.masked = false) {s : Sig} {e : Ev} (he : s.answer = some e) : flagAt s p.pc = true := by
  unfold Proc.masked at h
  split at h <;> rename_i hp <;> simp_all
  all_goals cases s <;> simp [Sig.answer, flagAt] at *

/-- The handler runs for a signal. -/
theorem J.handled {p : Proc} {es : List Ev} (h : J p es) {t : Sig} (ha : p.alive) (hm : p.masked = false)
    (hp : p.pending t) (hd : p.dflt ≠ some t) : J (onSignal t (setPending t false p)) (es ++ [.delivered t]) := by
  have hne : ∀ s e, Sig.answer s = some e → Ev.delivered t ≠ e := by
    intro s e; cases s <;> simp [Sig.answer] <;> rintro rfl <;> simp
  obtain ⟨e1, e2, e3⟩ := onSignal_pc (setPending t false p) t
  have e4 := onSignal_term (setPending t false p) t
  have hfl : ∀ s, (setPending t false p).flag s = p.flag s := by intro s; cases s <;> rfl
  have hpc : p.pc = .wait ∨ p.pc = .raise := by
    unfold Proc.masked at hm
    split at hm <;> simp_all
  have hmem : Ev.delivered t ∈ es ++ [.delivered t] := by simp
  constructor
  · intro s e he hmm _
    rw [since_append _ (hne s e he)] at hmm
    have hmm' : Ev.sent s ∈ since e es := by simpa using hmm
    by_cases hst : s = t
    · subst hst
      exact .inr (flag_onSignal _ _)
    · rw [flag_onSignal_of hst (answer_fatal he), hfl, e3]
      rcases h.pend s e he hmm' ha with h | h
      · exact .inl (by simp [setPending, hst, h])
      · exact .inr h
  · intro s e he hmm
    rw [since_append _ (hne s e he)] at hmm
    by_cases hst : s = t
    · subst hst
      exact flag_onSignal _ _
    · rw [flag_onSignal_of hst (answer_fatal he), hfl]
      exact h.deliv s e he (by
        rcases List.mem_cons.1 hmm with hmm | hmm
        · exact absurd (by simpa using hmm) hst
        · exact hmm)
  · intro s e he hf
    rw [since_append _ (hne s e he)]
    by_cases hst : s = t
    · subst hst; exact List.mem_cons_self
    · rw [flag_onSignal_of hst (answer_fatal he), hfl] at hf
      exact List.mem_cons_of_mem _ (h.cause s e he hf)
  · intro s
    rw [e3, count_ne (e := .sent s) _ (by simp)]
    have := h.count s
    by_cases hst : s = t
    · subst hst
      rw [count_self, if_neg (by simp [setPending])]
      rw [if_pos hp] at this
      omega
    · rw [count_ne _ (by simpa using fun h => hst h.symm)]
      simp only [setPending, if_neg hst]
      exact this
  · intro s e he
    have := h.answers s e he
    rw [count_ne _ (hne s e he)]
    by_cases hst : s = t
    · subst hst
      rw [count_self, flag_onSignal]
      simp only [if_true]
      split at this <;> omega
    · rw [count_ne _ (by simpa using fun h => hst h.symm), flag_onSignal_of hst (answer_fatal he), hfl]
      exact this
  · intro s e he _
    rw [e1]
    exact flagAt_unmasked (p := p) hm he
  · intro s hmm hf
    rw [e4]
    by_cases hst : s = t
    · subst hst; rw [if_pos hf]; simp
    · have : Ev.delivered s ∈ es := by simpa [hst] using hmm
      split
      · simp
      · exact h.fatal s this hf
  · intro s hs
    rw [e4] at hs
    split at hs
    · cases hs
      exact ⟨by assumption, hmem⟩
    · obtain ⟨a, b⟩ := h.term s hs
      exact ⟨a, List.mem_append_left _ b⟩
  · intro _
    rw [e1]
    show p.pc.loop = true
    rcases hpc with hpc | hpc <;> rw [hpc] <;> rfl
  · rw [e1]
    intro hl
    obtain ⟨a, b⟩ := h.late hl
    refine ⟨?_, List.mem_append_left _ b⟩
    rw [e4]
    split
    · simp
    · exact a
  · rw [e1]
    intro hl
    have := h.notlate hl
    simpa using this
  · intro s hs
    rw [e2] at hs
    rw [e1]
    obtain ⟨a, b, c⟩ := h.dflt s hs
    exact ⟨a, List.mem_append_left _ b, c⟩
  · rw [e1, e2]
    intro hx
    obtain ⟨s, hsd, hs⟩ := h.dflt' hx
    refine ⟨s, hsd, ?_⟩
    rw [since_append _ (by simp), e4]
    have hts : t ≠ s := fun h => hd (by rw [h]; exact hsd)
    by_cases hf : t.fatal
    · rw [if_pos hf]
      exact .inr ⟨t, rfl, hts, List.mem_cons_self⟩
    · rw [if_neg hf]
      rcases hs with hs | ⟨s', a, b, c⟩
      · exact .inl hs
      · exact .inr ⟨s', a, b, List.mem_cons_of_mem _ c⟩
  · rw [e1]
    intro hx
    have hx : p.pc = .exited := hx
    rcases hpc with hpc | hpc <;> rw [hpc] at hx <;> cases hx
  · rw [e1]
    intro s hx
    have hx : p.pc = .killed s := hx
    rcases hpc with hpc | hpc <;> rw [hpc] at hx <;> cases hx

/-- Events that don't matter for the answers. -/
def Ev.plain : Ev → Bool
  | .iteration | .cleanup | .killed _ | .exited => true
  | _ => false

theorem plain_ne {f : Ev} (hf : f.plain) {s : Sig} {e : Ev} (he : s.answer = some e) : f ≠ e := by
  cases s <;> cases f <;> simp_all [Sig.answer, Ev.plain] <;> rintro rfl <;> simp_all

/-- Going on with an event. -/
theorem J.event {p : Proc} {es : List Ev} (h : J p es) (x : Pc) (f : Ev) (hf : f.plain)
    (ha : p.alive) (h1 : ∀ s e, s.answer = some e → p.flag s → flagAt s x) (h2 : p.sigTerminate ≠ none → x.loop)
    (h3 : x.late → p.sigTerminate ≠ none ∧ .cleanup ∈ es ++ [f]) (h3' : x.late = false → .cleanup ∉ es ++ [f])
    (h4 : p.pc.late → x.late)
    (h5 : x = .raise ∨ x = .exited ∨ (∃ s, x = .killed s) → ∃ s, p.dflt = some s ∧
      (p.sigTerminate = some s ∨ ∃ s', p.sigTerminate = some s' ∧ s' ≠ s ∧ .delivered s' ∈ since .cleanup (es ++ [f])))
    (h6 : x = .exited → p.sigTerminate ≠ p.dflt) (h7 : ∀ s, x = .killed s → p.dflt = some s) :
    J { p with pc := x } (es ++ [f]) where
  pend s e he hm _ := by
    rw [since_append _ (plain_ne hf he)] at hm
    rw [flag_pc]
    rcases List.mem_cons.1 hm with hm | hm
    · subst hm; cases hf
    · exact h.pend s e he hm ha
  deliv s e he hm := by
    rw [since_append _ (plain_ne hf he)] at hm
    rw [flag_pc]
    rcases List.mem_cons.1 hm with hm | hm
    · subst hm; cases hf
    · exact h.deliv s e he hm
  cause s e he hm := by
    rw [since_append _ (plain_ne hf he)]
    rw [flag_pc] at hm
    exact List.mem_cons_of_mem _ (h.cause s e he hm)
  count s := by
    rw [count_ne _ (by rintro rfl; cases hf), count_ne _ (by rintro rfl; cases hf)]
    exact h.count s
  answers s e he := by
    rw [count_ne _ (plain_ne hf he), count_ne _ (by rintro rfl; cases hf), flag_pc]
    exact h.answers s e he
  at_ s e he hfl := h1 s e he (by rwa [flag_pc] at hfl)
  fatal s hm := by
    rcases List.mem_append.1 hm with hm | hm
    · exact h.fatal s hm
    · simp only [List.mem_singleton] at hm; subst hm; cases hf
  term s hs := by
    obtain ⟨a, b⟩ := h.term s hs
    exact ⟨a, List.mem_append_left _ b⟩
  early := h2
  late := h3
  notlate := h3'
  dflt s hs := by
    obtain ⟨a, b, c⟩ := h.dflt s hs
    exact ⟨a, List.mem_append_left _ b, h4 c⟩
  dflt' := h5
  exited := h6
  killed := h7

/-- A signal is answered. -/
theorem J.answer {p q : Proc} {es : List Ev} (h : J p es) {t : Sig} {f : Ev} (ht : t.answer = some f) (ha : p.alive)
    (hp : p.flag t) (hfl : q.flag t = false) (hfl' : ∀ s, s ≠ t → q.flag s = p.flag s) (e1 : q.pending = p.pending)
    (e2 : q.sigTerminate = p.sigTerminate) (e3 : q.dflt = p.dflt)
    (h1 : ∀ s e, s.answer = some e → s ≠ t → p.flag s → flagAt s q.pc) (h2 : q.pc.loop) (h3 : q.pc.late = false)
    (h4 : p.pc.late = false) : J q (es ++ [f]) := by
  have hf : f ≠ .cleanup ∧ (∀ s, f ≠ .sent s) ∧ ∀ s, f ≠ .delivered s := by
    cases t <;> simp [Sig.answer] at ht <;> subst ht <;> simp
  have hinj : ∀ s, s.answer = some f → s = t := by
    intro s hs; cases s <;> cases t <;> simp [Sig.answer] at * <;> subst ht <;> simp at hs
  have hne : ∀ s e, s.answer = some e → s ≠ t → f ≠ e := fun s e hs hst he => hst (hinj s (by rw [hs, he]))
  constructor
  · intro s e he hm _
    by_cases hst : s = t
    · subst hst
      obtain rfl : e = f := by rw [he] at ht; exact Option.some.inj ht
      rw [since_append_self] at hm; cases hm
    · rw [since_append _ (hne s e he hst)] at hm
      rw [e1, hfl' s hst]
      rcases List.mem_cons.1 hm with hm | hm
      · exact absurd hm.symm (hf.2.1 s)
      · exact h.pend s e he hm ha
  · intro s e he hm
    by_cases hst : s = t
    · subst hst
      obtain rfl : e = f := by rw [he] at ht; exact Option.some.inj ht
      rw [since_append_self] at hm; cases hm
    · rw [since_append _ (hne s e he hst)] at hm
      rw [hfl' s hst]
      rcases List.mem_cons.1 hm with hm | hm
      · exact absurd hm.symm (hf.2.2 s)
      · exact h.deliv s e he hm
  · intro s e he hm
    by_cases hst : s = t
    · subst hst
      rw [hfl] at hm; cases hm
    · rw [since_append _ (hne s e he hst)]
      rw [hfl' s hst] at hm
      exact List.mem_cons_of_mem _ (h.cause s e he hm)
  · intro s
    rw [count_ne _ (hf.2.2 s), count_ne _ (hf.2.1 s), e1]
    exact h.count s
  · intro s e he
    have := h.answers s e he
    rw [count_ne (e := .delivered s) _ (hf.2.2 s)]
    by_cases hst : s = t
    · subst hst
      obtain rfl : e = f := by rw [he] at ht; exact Option.some.inj ht
      rw [count_self, hfl]
      rw [hp] at this
      simpa using this
    · rw [count_ne _ (hne s e he hst), hfl' s hst]
      exact this
  · intro s e he hfs
    by_cases hst : s = t
    · subst hst
      rw [hfl] at hfs; cases hfs
    · exact h1 s e he hst (by rw [← hfl' s hst]; exact hfs)
  · intro s hm
    rw [e2]
    rcases List.mem_append.1 hm with hm | hm
    · exact h.fatal s hm
    · simp only [List.mem_singleton] at hm; exact absurd hm.symm (hf.2.2 s)
  · intro s hs
    rw [e2] at hs
    obtain ⟨a, b⟩ := h.term s hs
    exact ⟨a, List.mem_append_left _ b⟩
  · exact fun _ => h2
  · intro hl; rw [h3] at hl; cases hl
  · intro _ hm
    rcases List.mem_append.1 hm with hm | hm
    · exact h.notlate h4 hm
    · simp only [List.mem_singleton] at hm; exact absurd hm.symm hf.1
  · intro s hs
    rw [e3] at hs
    have := (h.dflt s hs).2.2
    rw [h4] at this; cases this
  · rintro (hx | hx | ⟨s, hx⟩) <;> rw [hx] at h3 <;> cases h3
  · intro hx; rw [hx] at h3; cases h3
  · intro s hx; rw [hx] at h3; cases h3

/-- The main thread goes on. -/
theorem J.go {p : Proc} {es : List Ev} (h : J p es) (ha : p.alive) : J (go p).1 (es ++ (go p).2) := by
  have hat := h.at_
  have hat' : ∀ s e, s.answer = some e → p.flag s → flagAt s p.pc := h.at_
  unfold Main.go
  cases hpc : p.pc <;> simp only [hpc] at hat ⊢
  case init =>
    rw [List.append_nil]
    refine h.move .cond ha (fun s e he hf => ?_) (fun _ => rfl) (by rw [hpc]; rfl) (by simp)
    have := hat s e he hf
    cases s <;> simp [Sig.answer, flagAt] at *
  case cond =>
    have hn : ∀ s e, s.answer = some e → p.flag s → False := by
      intro s e he hf
      have := hat s e he hf
      cases s <;> simp [Sig.answer, flagAt] at *
    have hnl := h.notlate (by rw [hpc]; rfl)
    cases ht : p.sigTerminate with
    | none =>
      have hh := h.event .tasks .iteration rfl ha (fun s e he hf => (hn s e he hf).elim) (fun h => absurd ht h)
        (fun hl => by cases hl) (fun _ => by simpa using hnl) (fun hl => by rw [hpc] at hl; cases hl)
        (by rintro (hx | hx | ⟨s, hx⟩) <;> cases hx) (fun hx => by cases hx) (fun s hx => by cases hx)
      simpa only [ht] using hh
    | some t =>
      have hh := h.event .cleanup .cleanup rfl ha (fun s e he hf => (hn s e he hf).elim) (fun _ => rfl)
        (fun _ => ⟨by rw [ht]; simp, by simp⟩) (fun hl => by cases hl) (fun _ => rfl)
        (by rintro (hx | hx | ⟨s, hx⟩) <;> cases hx) (fun hx => by cases hx) (fun s hx => by cases hx)
      simpa only [ht] using hh
  case tasks =>
    rw [List.append_nil]
    refine h.move .wait ha (fun s e he hf => ?_) (fun _ => rfl) (by rw [hpc]; rfl) (by simp)
    have := hat s e he hf
    cases s <;> simp [Sig.answer, flagAt] at *
  case wait =>
    rw [List.append_nil]
    refine h.move .events ha (fun s e he hf => ?_) (fun _ => rfl) (by rw [hpc]; rfl) (by simp)
    have := hat s e he hf
    cases s <;> simp [Sig.answer, flagAt] at *
  case events =>
    rw [List.append_nil]
    refine h.move .ifReload ha (fun s e he hf => ?_) (fun _ => rfl) (by rw [hpc]; rfl) (by simp)
    have := hat s e he hf
    cases s <;> simp [Sig.answer, flagAt] at *
  case ifReload =>
    by_cases hf : p.sigReload = true
    · rw [if_pos hf]
      refine h.answer (t := .hup) rfl ha hf rfl (fun s hs => by cases s <;> first | rfl | exact absurd rfl hs) rfl rfl rfl
        (fun s e he hs hf => ?_) rfl rfl (by rw [hpc]; rfl)
      have := hat s e he hf
      cases s <;> simp [Sig.answer, flagAt] at *
    · rw [if_neg hf]
      simp only [List.append_nil]
      refine h.move .ifReset ha (fun s e he hf' => ?_) (fun _ => rfl) (by rw [hpc]; rfl) (by simp)
      have := hat s e he hf'
      cases s <;> simp [Sig.answer, flagAt, Proc.flag] at *
      simp [hf] at hf'
  case reload =>
    rw [List.append_nil]
    refine h.move .ifReset ha (fun s e he hf => ?_) (fun _ => rfl) (by rw [hpc]; rfl) (by simp)
    have := hat s e he hf
    cases s <;> simp [Sig.answer, flagAt] at *
  case ifReset =>
    by_cases hf : p.sigReset = true
    · rw [if_pos hf]
      refine h.answer (t := .usr2) rfl ha hf rfl (fun s hs => by cases s <;> first | rfl | exact absurd rfl hs) rfl rfl rfl
        (fun s e he hs hf => ?_) rfl rfl (by rw [hpc]; rfl)
      have := hat s e he hf
      cases s <;> simp [Sig.answer, flagAt] at *
    · rw [if_neg hf]
      simp only [List.append_nil]
      refine h.move .ifChild ha (fun s e he hf' => ?_) (fun _ => rfl) (by rw [hpc]; rfl) (by simp)
      have := hat s e he hf'
      cases s <;> simp [Sig.answer, flagAt, Proc.flag] at *
      simp [hf] at hf'
  case reset =>
    rw [List.append_nil]
    refine h.move .ifChild ha (fun s e he hf => ?_) (fun _ => rfl) (by rw [hpc]; rfl) (by simp)
    have := hat s e he hf
    cases s <;> simp [Sig.answer, flagAt] at *
  case ifChild =>
    by_cases hf : p.sigChild = true
    · rw [if_pos hf]
      refine h.answer (t := .chld) rfl ha hf rfl (fun s hs => by cases s <;> first | rfl | exact absurd rfl hs) rfl rfl rfl
        (fun s e he hs hf => ?_) rfl rfl (by rw [hpc]; rfl)
      have := hat s e he hf
      cases s <;> simp [Sig.answer, flagAt] at *
    · rw [if_neg hf]
      simp only [List.append_nil]
      refine h.move .cond ha (fun s e he hf' => ?_) (fun _ => rfl) (by rw [hpc]; rfl) (by simp)
      have := hat s e he hf'
      cases s <;> simp [Sig.answer, flagAt, Proc.flag] at *
      simp [hf] at hf'
  case reap =>
    rw [List.append_nil]
    refine h.move .cond ha (fun s e he hf => ?_) (fun _ => rfl) (by rw [hpc]; rfl) (by simp)
    have := hat s e he hf
    cases s <;> simp [Sig.answer, flagAt] at *
  case cleanup =>
    rw [List.append_nil]
    refine h.move .unblock ha (fun s e he hf => ?_) (fun _ => rfl) (by rw [hpc]; rfl) (by simp)
    have := hat s e he hf
    cases s <;> simp [Sig.answer, flagAt] at *
  case unblock =>
    rw [List.append_nil]
    obtain ⟨hl1, hl2⟩ := h.late (by rw [hpc]; rfl)
    obtain ⟨t, ht⟩ := Option.ne_none_iff_exists'.1 hl1
    have hfl : ∀ s, ({ p with pc := .raise, dflt := p.sigTerminate } : Proc).flag s = p.flag s := by
      intro s; cases s <;> rfl
    exact {
      pend := fun s e he hm _ => by rw [hfl]; exact h.pend s e he hm ha
      deliv := fun s e he hm => by rw [hfl]; exact h.deliv s e he hm
      cause := fun s e he hm => h.cause s e he (by rwa [hfl] at hm)
      count := h.count
      answers := fun s e he => by rw [hfl]; exact h.answers s e he
      at_ := fun s e he _ => by cases s <;> simp [Sig.answer, flagAt] at *
      fatal := h.fatal
      term := h.term
      early := fun _ => rfl
      late := fun _ => ⟨hl1, hl2⟩
      notlate := fun hx => by cases hx
      dflt := fun s hs => ⟨(h.term s hs).1, (h.term s hs).2, rfl⟩
      dflt' := fun _ => ⟨t, ht, .inl ht⟩
      exited := fun hx => by cases hx
      killed := fun s hx => by cases hx }
  case raise =>
    obtain ⟨hl1, hl2⟩ := h.late (by rw [hpc]; rfl)
    obtain ⟨t, ht⟩ := Option.ne_none_iff_exists'.1 hl1
    have hd' := h.dflt' (.inl hpc)
    simp only [ht, act]
    by_cases hd : p.dflt = some t
    · rw [if_pos hd]
      simp only [Proc.alive, Bool.false_eq_true, if_false]
      have hh := h.event (.killed t) (.killed t) rfl ha
        (fun s e he hf => by cases s <;> simp [Sig.answer, flagAt] at *) (fun _ => rfl)
        (fun _ => ⟨hl1, List.mem_append_left _ hl2⟩) (fun hx => by cases hx) (fun _ => rfl) (fun _ => ⟨t, hd, .inl ht⟩)
        (fun hx => by cases hx) (fun s hx => by cases hx; exact hd)
      simpa only [ht, hd] using hh
    · rw [if_neg hd]
      have halive : (onSignal t p).alive = true := by
        unfold Proc.alive; rw [(onSignal_pc p t).1, hpc]
      have hsame : onSignal t p = p := by
        have hft := (h.term t ht).1
        cases t <;> simp [Sig.fatal] at hft <;> simp [onSignal, ← ht]
      simp only [halive, if_true, List.nil_append]
      rw [hsame]
      refine h.event .exited .exited rfl ha (fun s e he hf => ?_) (fun _ => rfl)
        (fun _ => ⟨hl1, List.mem_append_left _ hl2⟩) (fun hx => by cases hx) (fun _ => rfl) (fun _ => ?_)
        (fun _ => by rw [ht]; exact fun h => hd h.symm) (fun s hx => by cases hx)
      · cases s <;> simp [Sig.answer, flagAt] at *
      · obtain ⟨s, hs, hs'⟩ := hd'
        refine ⟨s, hs, ?_⟩
        rw [since_append _ (by simp)]
        rcases hs' with hs' | ⟨s', a, b, c⟩
        · exact .inl hs'
        · exact .inr ⟨s', a, b, List.mem_cons_of_mem _ c⟩
  case exited => simp [Proc.alive, hpc] at ha
  case killed => simp [Proc.alive, hpc] at ha

theorem J.unpended {p : Proc} {es : List Ev} (h : J p es) {t : Sig} (hp : p.pending t) (hd : p.dflt = some t) :
    J (setPending t false p) (es ++ [.delivered t]) := by
  have hft := (h.dflt t hd).1
  have hne : ∀ s e, Sig.answer s = some e → Ev.delivered t ≠ e := by
    intro s e; cases s <;> simp [Sig.answer] <;> rintro rfl <;> simp
  have hst : ∀ s e, Sig.answer s = some e → s ≠ t := by
    rintro s e he rfl
    rw [answer_fatal he] at hft; cases hft
  have hfl : ∀ s, (setPending t false p).flag s = p.flag s := by intro s; cases s <;> rfl
  exact {
    pend := fun s e he hm ha => by
      rw [since_append _ (hne s e he)] at hm
      rw [hfl]
      simp only [setPending, if_neg (hst s e he)]
      exact h.pend s e he (by simpa using hm) ha
    deliv := fun s e he hm => by
      rw [since_append _ (hne s e he)] at hm
      rw [hfl]
      exact h.deliv s e he (by simpa [hst s e he] using hm)
    cause := fun s e he hm => by
      rw [since_append _ (hne s e he)]
      rw [hfl] at hm
      exact List.mem_cons_of_mem _ (h.cause s e he hm)
    count := fun s => by
      have := h.count s
      rw [count_ne (e := .sent s) _ (by simp)]
      by_cases hst : s = t
      · subst hst
        rw [count_self, if_neg (by simp [setPending])]
        rw [if_pos hp] at this
        omega
      · rw [count_ne _ (by simpa using fun h => hst h.symm)]
        simp only [setPending, if_neg hst]
        exact this
    answers := fun s e he => by
      have := h.answers s e he
      rw [hfl, count_ne _ (hne s e he), count_ne _ (by simpa using fun h => hst s e he h.symm)]
      exact this
    at_ := fun s e he hf => h.at_ s e he (by rwa [hfl] at hf)
    fatal := fun s hm hf => by
      obtain ⟨s', h', _⟩ := h.dflt t hd
      exact (h.late (h.dflt t hd).2.2).1
    term := fun s hs => ⟨(h.term s hs).1, List.mem_append_left _ (h.term s hs).2⟩
    early := h.early
    late := fun hl => ⟨(h.late hl).1, List.mem_append_left _ (h.late hl).2⟩
    notlate := fun hl => by simpa using h.notlate hl
    dflt := fun s hs => ⟨(h.dflt s hs).1, List.mem_append_left _ (h.dflt s hs).2.1, (h.dflt s hs).2.2⟩
    dflt' := fun hx => by
      obtain ⟨s, hs, hs'⟩ := h.dflt' hx
      refine ⟨s, hs, ?_⟩
      rw [since_append _ (by simp)]
      rcases hs' with hs' | ⟨s', a, b, c⟩
      · exact .inl hs'
      · exact .inr ⟨s', a, b, List.mem_cons_of_mem _ c⟩
    exited := h.exited
    killed := h.killed }

/-- What is known about an event from those before it. -/
structure Good (as : List Ev) (x : Ev) : Prop where
  next : x = .iteration → ∀ s e, s.answer = some e → .delivered s ∉ since e as
  cause : ∀ s, s.answer = some x → .delivered s ∈ since x as
  fatal : x = .iteration → ∀ s, s.fatal → .delivered s ∉ as
  killed : ∀ s, x = .killed s → s.fatal ∧ .delivered s ∈ as ∧ .cleanup ∈ as
  cleanup : x = .cleanup → .cleanup ∉ as ∧ ∃ s, s.fatal ∧ .delivered s ∈ as
  exited : x = .exited → .cleanup ∈ as ∧ ∃ s s', s.fatal ∧ s'.fatal ∧ s ≠ s' ∧ .delivered s ∈ as ∧ .delivered s' ∈ since .cleanup as
  sent : ∀ s, x = .delivered s → .sent s ∈ as
  over : .exited ∉ as ∧ ∀ s, .killed s ∉ as

/-- An event about which nothing is to be said. -/
theorem Good.other {as : List Ev} {x : Ev} (h : .exited ∉ as ∧ ∀ s, .killed s ∉ as) (hx : x.plain = false)
    (ha : ∀ s, Sig.answer s ≠ some x) (hd : ∀ s, x = .delivered s → .sent s ∈ as) : Good as x where
  next := by rintro rfl; cases hx
  cause s hs := absurd hs (ha s)
  fatal := by rintro rfl; cases hx
  killed := by rintro s rfl; cases hx
  cleanup := by rintro rfl; cases hx
  exited := by rintro rfl; cases hx
  sent := hd
  over := h

/-- What holds along runs. -/
structure Along (p : Proc) (es : List Ev) : Prop where
  inv : J p es
  alive : p.alive → .exited ∉ es ∧ ∀ s, .killed s ∉ es
  good : ∀ as x bs, es = as ++ x :: bs → Good as x

theorem good_append {es fs : List Ev} (h : ∀ as x bs, es = as ++ x :: bs → Good as x)
    (h' : ∀ as x bs, fs = as ++ x :: bs → Good (es ++ as) x) : ∀ as x bs, es ++ fs = as ++ x :: bs → Good as x := by
  intro as x bs he
  rcases List.append_eq_append_iff.1 he with ⟨cs, h1, h2⟩ | ⟨cs, h1, h2⟩
  · rw [h1]; exact h' cs x bs h2
  · cases cs with
    | nil =>
      simp only [List.append_nil, List.nil_append] at h1 h2
      rw [← h1]
      have := h' [] x bs (by simpa using h2.symm)
      simpa using this
    | cons c cs =>
      simp only [List.cons_append, List.cons.injEq] at h2
      rw [h2.1]
      exact h as c cs h1

theorem good_one {es : List Ev} {f : Ev} (h : Good es f) : ∀ as x bs, [f] = as ++ x :: bs → Good (es ++ as) x := by
  intro as x bs he
  cases as with
  | nil => simp only [List.nil_append, List.cons.injEq] at he; rw [List.append_nil, ← he.1]; exact h
  | cons a as => simp at he

theorem good_none {es : List Ev} : ∀ as x bs, [] = as ++ x :: bs → Good (es ++ as) x := by
  intro as x bs he
  simp at he

theorem good_two {es : List Ev} {f g : Ev} (h : Good es f) (h' : Good (es ++ [f]) g) :
    ∀ as x bs, [f, g] = as ++ x :: bs → Good (es ++ as) x := by
  intro as x bs he
  cases as with
  | nil => simp only [List.nil_append, List.cons.injEq] at he; rw [List.append_nil, ← he.1]; exact h
  | cons a as =>
    cases as with
    | nil =>
      simp only [List.cons_append, List.nil_append, List.cons.injEq] at he
      obtain ⟨rfl, rfl, -⟩ := he
      exact h'
    | cons b as => simp at he

theorem Along.step {p q : Proc} {es fs : List Ev} {o : Op} (h : Along p es) (hs : Main.step p o = some (q, fs)) :
    Along q (es ++ fs) := by
  cases o with
  | send t =>
    simp only [Main.step] at hs
    split at hs
    case isFalse => cases hs
    rename_i ha
    cases hs
    have ho := h.alive ha
    refine ⟨h.inv.send t, fun _ => by simpa using ho, good_append h.good (good_one (.other ho rfl (fun s => ?_) (by rintro _ ⟨⟩)))⟩
    cases s <;> simp [Sig.answer]
  | deliver t =>
    simp only [Main.step] at hs
    split at hs
    case isFalse => cases hs
    rename_i hc
    simp only [Bool.and_eq_true, Bool.not_eq_true'] at hc
    obtain ⟨⟨ha, hm⟩, hp⟩ := hc
    have ho := h.alive ha
    have hg : Good es (.delivered t) := by
      refine .other ho rfl (fun s => by cases s <;> simp [Sig.answer]) fun s hs => ?_
      cases hs
      have := h.inv.count t
      rw [if_pos hp] at this
      exact List.count_pos_iff.1 (by omega)
    unfold act at hs
    by_cases hd : p.dflt = some t
    · rw [if_pos (show (setPending t false p).dflt = some t from hd)] at hs
      cases hs
      have hu := h.inv.unpended hp hd
      have ⟨hl1, hl2⟩ := hu.late (h.inv.dflt t hd).2.2
      have hpc : p.pc = .raise := by
        have := (h.inv.dflt t hd).2.2
        unfold Proc.masked at hm
        split at hm <;> simp_all [Pc.late]
      have hj := hu.event (.killed t) (.killed t) rfl ha
        (fun s e he hf => by cases s <;> simp [Sig.answer, flagAt] at *) (fun _ => rfl)
        (fun _ => ⟨hl1, List.mem_append_left _ hl2⟩) (fun hx => by cases hx) (fun _ => rfl) (fun _ => ?_)
        (fun hx => by cases hx) (fun s hx => by cases hx; exact hd)
      · refine ⟨by simpa using hj, fun hx => (by cases hx), good_append h.good (good_two hg ?_)⟩
        exact {
          next := by rintro ⟨⟩
          cause := fun s hs => by cases s <;> simp [Sig.answer] at hs
          fatal := by rintro ⟨⟩
          killed := by
            rintro s hs
            cases hs
            exact ⟨(h.inv.dflt t hd).1, by simp, hl2⟩
          cleanup := by rintro ⟨⟩
          exited := by rintro ⟨⟩
          sent := by rintro _ ⟨⟩
          over := by simpa using ho }
      · obtain ⟨s, a, b⟩ := hu.dflt' (.inl hpc)
        refine ⟨s, a, ?_⟩
        rw [since_append _ (by simp)]
        rcases b with b | ⟨s', b, c, d⟩
        · exact .inl b
        · exact .inr ⟨s', b, c, List.mem_cons_of_mem _ d⟩
    · rw [if_neg (show (setPending t false p).dflt ≠ some t from hd)] at hs
      cases hs
      exact ⟨h.inv.handled ha hm hp hd, fun _ => by simpa using ho, good_append h.good (good_one hg)⟩
  | go =>
    simp only [Main.step] at hs
    split at hs
    case isFalse => cases hs
    rename_i ha
    obtain ⟨hq, hf⟩ : (go p).1 = q ∧ (go p).2 = fs := by
      have := Option.some.inj hs
      exact ⟨by rw [this], by rw [this]⟩
    have hj := h.inv.go ha
    have ho := h.alive ha
    rw [hq, hf] at hj
    refine ⟨hj, ?_, good_append h.good ?_⟩
    · intro hqa
      have hn : Ev.exited ∉ fs ∧ ∀ s, Ev.killed s ∉ fs := by
        rw [← hf]; rw [← hq] at hqa
        unfold go at hqa ⊢
        cases hpc : p.pc <;> simp only [hpc] at hqa ⊢
        case cond => split <;> simp
        case ifReload => split <;> simp
        case ifReset => split <;> simp
        case ifChild => split <;> simp
        case raise =>
          exfalso
          revert hqa
          cases p.sigTerminate <;> simp only
          · simp [Proc.alive]
          · split <;> simp_all [Proc.alive]
        all_goals simp
      simp only [List.mem_append, not_or]
      exact ⟨⟨ho.1, hn.1⟩, fun s => ⟨ho.2 s, hn.2 s⟩⟩
    · rw [← hf]
      have hat : ∀ s e, s.answer = some e → p.flag s → flagAt s p.pc := h.inv.at_
      unfold go
      cases hpc : p.pc <;> simp only [hpc] at hat ⊢
      case cond =>
        have hn : ∀ s e, s.answer = some e → p.flag s = false := by
          intro s e he
          cases hfs : p.flag s with
          | false => rfl
          | true =>
            have := hat s e he hfs
            cases s <;> simp [Sig.answer, flagAt] at *
        cases ht : p.sigTerminate with
        | none =>
          refine good_one ⟨fun _ s e he hm => ?_, fun s hs => ?_, fun _ s hf hm => ?_, ?_, ?_, ?_, ?_, ho⟩
          · have := h.inv.deliv s e he hm
            rw [hn s e he] at this; cases this
          · cases s <;> simp [Sig.answer] at hs
          · exact h.inv.fatal s hm hf ht
          all_goals intros; contradiction
        | some t =>
          refine good_one ⟨by rintro ⟨⟩, fun s hs => ?_, by rintro ⟨⟩, ?_, fun _ => ?_, ?_, by rintro _ ⟨⟩, ho⟩
          · cases s <;> simp [Sig.answer] at hs
          · intros; contradiction
          · obtain ⟨a, b⟩ := h.inv.term t ht
            exact ⟨h.inv.notlate (by rw [hpc]; rfl), t, a, b⟩
          · intros; contradiction
      case ifReload =>
        split
        · rename_i hf
          refine good_one ⟨by rintro ⟨⟩, fun s hs => ?_, by rintro ⟨⟩, by rintro _ ⟨⟩, by rintro ⟨⟩, by rintro ⟨⟩, by rintro _ ⟨⟩, ho⟩
          obtain rfl : s = .hup := by cases s <;> simp [Sig.answer] at hs; rfl
          exact h.inv.cause .hup _ hs hf
        · exact good_none
      case ifReset =>
        split
        · rename_i hf
          refine good_one ⟨by rintro ⟨⟩, fun s hs => ?_, by rintro ⟨⟩, by rintro _ ⟨⟩, by rintro ⟨⟩, by rintro ⟨⟩, by rintro _ ⟨⟩, ho⟩
          obtain rfl : s = .usr2 := by cases s <;> simp [Sig.answer] at hs; rfl
          exact h.inv.cause .usr2 _ hs hf
        · exact good_none
      case ifChild =>
        split
        · rename_i hf
          refine good_one ⟨by rintro ⟨⟩, fun s hs => ?_, by rintro ⟨⟩, by rintro _ ⟨⟩, by rintro ⟨⟩, by rintro ⟨⟩, by rintro _ ⟨⟩, ho⟩
          obtain rfl : s = .chld := by cases s <;> simp [Sig.answer] at hs; rfl
          exact h.inv.cause .chld _ hs hf
        · exact good_none
      case raise =>
        obtain ⟨hl1, hl2⟩ := h.inv.late (by rw [hpc]; rfl)
        obtain ⟨t, ht⟩ := Option.ne_none_iff_exists'.1 hl1
        obtain ⟨s, hd, hs⟩ := h.inv.dflt' (.inl hpc)
        simp only [ht, act]
        by_cases hdt : p.dflt = some t
        · rw [if_pos hdt]
          simp only [Proc.alive, Bool.false_eq_true, if_false]
          refine good_one ⟨by rintro ⟨⟩, fun s hs => ?_, by rintro ⟨⟩, ?_, by rintro ⟨⟩, by rintro ⟨⟩, by rintro _ ⟨⟩, ho⟩
          · cases s <;> simp [Sig.answer] at hs
          · intro u hu
            cases hu
            exact ⟨(h.inv.term t ht).1, (h.inv.term t ht).2, hl2⟩
        · rw [if_neg hdt]
          have halive : (onSignal t p).alive = true := by
            unfold Proc.alive; rw [(onSignal_pc p t).1, hpc]
          simp only [halive, if_true, List.nil_append]
          refine good_one ⟨by rintro ⟨⟩, fun s hs => ?_, by rintro ⟨⟩, by rintro _ ⟨⟩, by rintro ⟨⟩, fun _ => ?_, by rintro _ ⟨⟩, ho⟩
          · cases s <;> simp [Sig.answer] at hs
          · refine ⟨hl2, ?_⟩
            rcases hs with hs | ⟨s', b, c, d⟩
            · rw [ht] at hs; cases hs; exact absurd hd hdt
            · exact ⟨s, s', (h.inv.dflt s hd).1, (h.inv.term s' b).1, fun h => c h.symm, (h.inv.dflt s hd).2.1, d⟩
      all_goals exact good_none

theorem along {p : Proc} {es : List Ev} (h : Run p es) : Along p es := by
  induction h with
  | start => exact ⟨J.start, fun _ => by simp, by intro as x bs h; simp at h⟩
  | step o _ hs ih => exact ih.step hs

/-- `n` steps of the main thread alone. -/
def goes : Nat → Proc → Proc × List Ev
  | 0, p => (p, [])
  | n + 1, p =>
    let (q, es) := go p
    let (r, fs) := goes n q
    (r, es ++ fs)

theorem run_goes {p : Proc} {es : List Ev} (h : Run p es) (n : Nat) : Run (goes n p).1 (es ++ (goes n p).2) := by
  induction n generalizing p es with
  | zero => simpa [goes] using h
  | succ n ih =>
    simp only [goes]
    rw [← List.append_assoc]
    refine ih ?_
    by_cases ha : p.alive
    · exact .step .go h (by simp [Main.step, ha])
    · have : go p = (p, []) := by
        unfold Proc.alive at ha
        unfold go
        split at ha <;> simp_all
      rw [this]; simpa using h

/-- A signal that is delivered was sent before. -/
theorem sent_before {p : Proc} {as bs : List Ev} {s : Sig} (h : Run p (as ++ bs)) (hm : .delivered s ∈ as) : .sent s ∈ as := by
  obtain ⟨a1, a2, rfl⟩ := List.append_of_mem hm
  exact List.mem_append_left _ (((along h).good a1 (.delivered s) (a2 ++ bs) (by simp)).sent s rfl)

/-- A run by its steps. -/
def runs : Proc → List Op → Option (Proc × List Ev)
  | p, [] => some (p, [])
  | p, o :: os =>
    match step p o with
    | none => none
    | some (q, es) =>
      match runs q os with
      | none => none
      | some (r, fs) => some (r, es ++ fs)

theorem run_runs {p r : Proc} {es fs : List Ev} (h : Run p es) {os : List Op} (ho : runs p os = some (r, fs)) :
    Run r (es ++ fs) := by
  induction os generalizing p es fs with
  | nil => simp only [runs, Option.some.injEq, Prod.mk.injEq] at ho; obtain ⟨rfl, rfl⟩ := ho; simpa using h
  | cons o os ih =>
    simp only [runs] at ho
    split at ho
    · cases ho
    · rename_i q e1 hs
      split at ho
      · cases ho
      · rename_i r' f1 hr
        simp only [Option.some.injEq, Prod.mk.injEq] at ho
        obtain ⟨rfl, rfl⟩ := ho
        rw [← List.append_assoc]
        exact ih (.step o h hs) hr

end Fastd.Main
