import Verif.Main.SignalsInv

/-!
# C87: signals are answered, and end the process

* `C87_pending`: a SIGHUP that hasn't been followed by a reload is still on its way (the same for SIGUSR2 and SIGCHLD).
* `C87_next`: a signal that has been delivered is answered before the next iteration of the main loop.
* `C87_cause`, `C87_count`: there is no answer without a signal.
* `C87_fatal`: after a signal that ends the process has been delivered, no iteration begins.
* `C87_killed`: the process is only ended by a signal that was sent to it, after it has cleaned up.
* `C87_ends`: once such a signal has been delivered, the main thread gets to the end by itself.
* `C87_exit_false`, `C87_exit_partial`: that the process always ends by a signal isn't true: if a second signal arrives
  while it cleans up, it exits with status -1 instead ("Should not be reached", src/main.c).
-/

namespace Fastd.Main

/-- **C87** A signal that asks for something – SIGHUP for a reload, SIGUSR2 for a reset, SIGCHLD for collecting
children – isn't lost: as long as nothing of that kind has begun since it was sent, it is pending or noted. -/
theorem C87_pending {p : Proc} {es : List Ev} (h : Run p es) {s : Sig} {e : Ev} (he : s.answer = some e)
    (hs : .sent s ∈ since e es) (ha : p.alive) : p.pending s ∨ p.flag s :=
  (along h).inv.pend s e he hs ha

/-- **C87** A signal that has been delivered is answered before the next iteration of the main loop. -/
theorem C87_next {p : Proc} {as bs : List Ev} (h : Run p (as ++ .iteration :: bs)) {s : Sig} {e : Ev}
    (he : s.answer = some e) : .delivered s ∉ since e as :=
  ((along h).good as _ bs rfl).next rfl s e he

/-- **C87** Each reload has a cause: a SIGHUP delivered since the reload before. -/
theorem C87_cause {p : Proc} {as bs : List Ev} {e : Ev} (h : Run p (as ++ e :: bs)) {s : Sig}
    (he : s.answer = some e) : .delivered s ∈ since e as :=
  ((along h).good as e bs rfl).cause s he

/-- **C87** There are not more reloads than there were signals. -/
theorem C87_count {p : Proc} {es : List Ev} (h : Run p es) {s : Sig} {e : Ev} (he : s.answer = some e) :
    es.count e ≤ es.count (.sent s) := by
  have h1 := (along h).inv.answers s e he
  have h2 := (along h).inv.count s
  omega

/-- **C87** No iteration of the main loop begins after a signal to end has been delivered. -/
theorem C87_fatal {p : Proc} {as bs : List Ev} (h : Run p (as ++ .iteration :: bs)) {s : Sig} (hs : s.fatal) :
    .delivered s ∉ as :=
  ((along h).good as _ bs rfl).fatal rfl s hs

/-- **C87** The process cleans up once, and only after it was told to end. -/
theorem C87_cleanup {p : Proc} {as bs : List Ev} (h : Run p (as ++ .cleanup :: bs)) :
    .cleanup ∉ as ∧ ∃ s : Sig, s.fatal ∧ .sent s ∈ as := by
  obtain ⟨h1, s, h2, h3⟩ := ((along h).good as _ bs rfl).cleanup rfl
  exact ⟨h1, s, h2, sent_before h h3⟩

/-- **C87** Only a signal that was sent to it ends the process, after it has cleaned up; nothing happens afterwards. -/
theorem C87_killed {p : Proc} {as bs : List Ev} {s : Sig} (h : Run p (as ++ .killed s :: bs)) :
    s.fatal ∧ .sent s ∈ as ∧ .cleanup ∈ as ∧ bs = [] := by
  obtain ⟨h1, h2, h3⟩ := ((along h).good as _ bs rfl).killed s rfl
  refine ⟨h1, sent_before h h2, h3, ?_⟩
  rcases List.eq_nil_or_concat bs with h0 | ⟨cs, x, rfl⟩
  · exact h0
  · exfalso
    have := ((along h).good (as ++ .killed s :: cs) x [] (by simp)).over.2 s
    simp at this

/-- **C87** When a signal to end has been noted, the main thread gets to the end without any help: it cleans up and ends
by that signal, if no other signal is delivered on the way. -/
theorem C87_ends {p : Proc} {es : List Ev} (h : Run p es) {s : Sig} (hs : p.sigTerminate = some s) (hp : p.dflt = none) :
    ∃ n q fs, Run q (es ++ fs) ∧ goes n p = (q, fs) ∧ q.pc = .killed s ∧ .killed s ∈ fs := by
  have hj := (along h).inv
  have hlate : p.pc ≠ .raise ∧ p.pc ≠ .exited ∧ ∀ t, p.pc ≠ .killed t := by
    refine ⟨fun hx => ?_, fun hx => ?_, fun t hx => ?_⟩
    · obtain ⟨t, ht, _⟩ := hj.dflt' (.inl hx); rw [hp] at ht; cases ht
    · obtain ⟨t, ht, _⟩ := hj.dflt' (.inr (.inl hx)); rw [hp] at ht; cases ht
    · obtain ⟨u, hu, _⟩ := hj.dflt' (.inr (.inr ⟨t, hx⟩)); rw [hp] at hu; cases hu
  have hloop := hj.early (by rw [hs]; simp)
  suffices hh : ∃ n, (goes n p).1.pc = .killed s ∧ .killed s ∈ (goes n p).2 by
    obtain ⟨n, h1, h2⟩ := hh
    exact ⟨n, _, _, run_goes h n, rfl, h1, h2⟩
  refine ⟨12, ?_⟩
  obtain ⟨pc, pend, r, t, c, term, d⟩ := p
  simp only at hs hp hlate hloop
  subst hs hp
  cases pc <;> simp [Pc.loop] at hloop hlate <;> cases r <;> cases t <;> cases c <;>
    simp [goes, go, act, Proc.alive]

/-- The end of a run in which the user presses Ctrl-C while the process, having got SIGTERM, cleans up. -/
def twice : List Op :=
  [.go, .go, .go, .send .term, .deliver .term, .go, .go, .go, .go, .go, .go, .send .int, .go, .go, .deliver .int, .go]

/-- **C87** It is not true that a process that was told to end always ends by that signal: if another such signal arrives
while it cleans up, `terminate` raises that one – for which there still is a handler –, and returns; the process exits
with status -1, where "Should not be reached" stands in the code. -/
theorem C87_exit_false : ¬ ∀ p es, Run p es → .exited ∉ es := by
  intro h
  have hr : ((runs {} twice).map (·.2)) = some [.iteration, .sent .term, .delivered .term, .cleanup, .sent .int,
      .delivered .int, .exited] := by decide +kernel
  cases hx : runs {} twice with
  | none => rw [hx] at hr; cases hr
  | some qf =>
    obtain ⟨q, fs⟩ := qf
    rw [hx] at hr
    simp only [Option.map_some, Option.some.injEq] at hr
    refine h q _ (run_runs .start hx) ?_
    rw [hr]
    decide

/-- **C87** This is the only way for it to happen: two different signals to end were sent, the second of them delivered
after the process had begun to clean up. -/
theorem C87_exit_partial {p : Proc} {as bs : List Ev} (h : Run p (as ++ .exited :: bs)) :
    ∃ s s' : Sig, s.fatal ∧ s'.fatal ∧ s ≠ s' ∧ .sent s ∈ as ∧ .sent s' ∈ as ∧ .delivered s' ∈ since .cleanup as := by
  obtain ⟨-, s, s', h1, h2, h3, h4, h5⟩ := ((along h).good as _ bs rfl).exited rfl
  refine ⟨s, s', h1, h2, h3, sent_before h h4, sent_before h ?_, h5⟩
  have := (List.takeWhile_sublist _).mem h5
  simpa using this

-- a reload is asked for twice, the second time while the first one is going on; then the process is ended
example : (runs {} [.go, .send .hup, .go, .go, .deliver .hup, .go, .go, .go, .send .hup, .go, .go, .go, .go, .go, .deliver .hup, .send .term,
    .deliver .term, .go, .go, .go, .go, .go, .go, .go, .go, .go, .go]).map (·.2) =
    some [.sent .hup, .iteration, .delivered .hup, .reload, .sent .hup, .iteration, .delivered .hup, .sent .term,
      .delivered .term, .reload, .cleanup, .killed .term] := by decide +kernel

-- signals are blocked while a reload is going on, and no signal is delivered that wasn't sent
example : runs {} [.go, .send .hup, .go, .go, .deliver .hup, .go, .go, .go, .send .hup, .deliver .hup] = none := by rfl
example : runs {} [.go, .go, .go, .deliver .term] = none := by rfl

-- two signals sent before the first is delivered are answered once
example : (runs {} [.go, .send .usr2, .send .usr2, .go, .go, .deliver .usr2, .go, .go, .go, .go, .go, .go, .go]).map (·.2) =
    some [.sent .usr2, .sent .usr2, .iteration, .delivered .usr2, .resetAll, .iteration] := by decide +kernel

end Fastd.Main
