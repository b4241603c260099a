import Verif.Shell.Children
import Mathlib.Data.List.Nodup

/-!
# C81: all child processes are collected, each by whom it belongs to

* `C81_owner`: every child belongs to exactly one of: the list of asynchronous commands, the main thread waiting
  for it, a thread waiting for it; and all of these are children.
* `C81_no_error`: `waitpid` never fails; no thread's child is taken by another.
* `C81_collected`: a child of an asynchronous command that has ended is noticed.
* `C81_quiet`: without a signal on its way there are no ended children of asynchronous commands.
* `C81_reap`: collecting them comes to an end and removes only ended ones.
-/

namespace Fastd.Children

/-- States that can be reached. -/
def Reachable (s : State) : Prop := ∃ ops, runOps .init ops = some s

/-- The process the main thread has just started or is waiting for. -/
def mainKid : Pc → List Nat
  | .forked pid => [pid]
  | .waiting pid => [pid]
  | _ => []

/-- All processes somebody feels responsible for. -/
def owned (s : State) : List Nat := s.async ++ (mainKid s.pc ++ s.threads)

structure Inv (s : State) : Prop where
  nodup : (owned s).Nodup
  kids : ∀ p, s.kids p ≠ .absent ↔ p ∈ owned s
  seen : ∀ i p, s.async[i]? = some p → s.kids p = .ended →
    s.pending = true ∨ s.flag = true ∨ ∃ j, s.pc = .reaping j ∧ j ≤ i
  main : ∀ p, s.pc = .forked p → s.kids p = .ended → s.pending = true
  errors : s.errors = 0

theorem inv_init : Inv .init := by
  refine ⟨by simp [owned, State.init, mainKid], ?_, ?_, ?_, rfl⟩
  · intro p; simp [State.init, owned, mainKid]
  · intro i p h; simp [State.init] at h
  · intro p h; simp [State.init] at h

theorem owned_nodup {s : State} : (owned s).Nodup ↔
    s.async.Nodup ∧ (mainKid s.pc).Nodup ∧ s.threads.Nodup ∧ (∀ p ∈ mainKid s.pc, p ∉ s.threads) ∧
      ∀ p ∈ s.async, p ∉ mainKid s.pc ∧ p ∉ s.threads := by
  unfold owned
  rw [List.nodup_append, List.nodup_append]
  constructor
  · rintro ⟨h1, ⟨h2, h3, h4⟩, h5⟩
    refine ⟨h1, h2, h3, fun p hp ht => h4 p hp p ht rfl, fun p hp => ⟨fun h => ?_, fun h => ?_⟩⟩
    · exact h5 p hp p (List.mem_append_left _ h) rfl
    · exact h5 p hp p (List.mem_append_right _ h) rfl
  · rintro ⟨h1, h2, h3, h4, h5⟩
    refine ⟨h1, ⟨h2, h3, ?_⟩, ?_⟩
    · rintro p hp q hq rfl
      exact h4 p hp hq
    · rintro p hp q hq rfl
      rcases List.mem_append.mp hq with h | h
      · exact (h5 p hp).1 h
      · exact (h5 p hp).2 h

theorem mem_owned {s : State} {p : Nat} : p ∈ owned s ↔ p ∈ s.async ∨ p ∈ mainKid s.pc ∨ p ∈ s.threads := by
  simp [owned]

theorem mem_eraseIdx_nodup {l : List Nat} (hn : l.Nodup) {i p : Nat} (h : l[i]? = some p) (q : Nat) :
    q ∈ l.eraseIdx i ↔ q ∈ l ∧ q ≠ p := by
  rw [List.mem_eraseIdx_iff_getElem?]
  constructor
  · rintro ⟨j, hj, hq⟩
    refine ⟨List.mem_of_getElem? hq, ?_⟩
    rintro rfl
    obtain ⟨h1, h2⟩ := List.getElem?_eq_some_iff.mp h
    obtain ⟨h3, h4⟩ := List.getElem?_eq_some_iff.mp hq
    exact hj ((List.Nodup.getElem_inj_iff hn).mp (h4.trans h2.symm))
  · rintro ⟨hq, hne⟩
    obtain ⟨j, hj⟩ := List.mem_iff_getElem?.mp hq
    refine ⟨j, ?_, hj⟩
    rintro rfl
    rw [h] at hj
    cases hj
    exact hne rfl

/-- Every step keeps the invariant. -/
theorem inv_step {s s' : State} {o : Op} (hi : Inv s) (h : step s o = some s') : Inv s' := by
  obtain ⟨hn, hk, hs, hm, he⟩ := hi
  rw [owned_nodup] at hn
  obtain ⟨n1, n2, n3, n4, n5⟩ := hn
  have nin : ∀ p, s.kids p = .absent → p ∉ s.async ∧ p ∉ mainKid s.pc ∧ p ∉ s.threads := by
    intro p hp
    have : p ∉ owned s := fun h => (hk p).mpr h hp
    rw [mem_owned] at this
    simpa [not_or] using this
  cases o with
  | forkAsync pid =>
    simp only [step] at h
    split at h
    · rename_i hc
      obtain ⟨hc, ha⟩ := hc
      cases h
      obtain ⟨a1, a2, a3⟩ := nin pid ha
      refine ⟨?_, ?_, ?_, ?_, he⟩
      · rw [owned_nodup]
        refine ⟨n1, by simp [mainKid], n3, by simpa [mainKid, setKid] using a3, ?_⟩
        intro p hp
        refine ⟨?_, (n5 p hp).2⟩
        simp only [mainKid, List.mem_singleton]
        rintro rfl
        exact a1 hp
      · intro p
        rw [mem_owned]
        simp only [setKid, mainKid, List.mem_singleton]
        have := hk p
        rw [mem_owned, hc] at this
        by_cases hp : p = pid
        · simp [hp]
        · simpa [hp, mainKid] using this
      · intro i p hp hp2
        have hne : p ≠ pid := by rintro rfl; exact a1 (List.mem_of_getElem? hp)
        simp only [setKid, hne, if_false] at hp2
        rcases hs i p hp hp2 with h | h | ⟨j, h, _⟩
        · exact .inl h
        · exact .inr (.inl h)
        · rw [hc] at h; cases h
      · intro p hp hp2
        cases hp
        simp [setKid] at hp2
    · cases h
  | add =>
    simp only [step] at h
    split at h
    · rename_i pid hc
      cases h
      have hin : pid ∈ mainKid s.pc := by simp [hc, mainKid]
      refine ⟨?_, ?_, ?_, ?_, he⟩
      · rw [owned_nodup]
        refine ⟨?_, by simp [mainKid], n3, by simp [mainKid], ?_⟩
        · rw [List.nodup_append]
          refine ⟨n1, by simp, ?_⟩
          rintro p hp q hq rfl
          rw [List.mem_singleton] at hq
          subst hq
          exact (n5 _ hp).1 hin
        · intro p hp
          rcases List.mem_append.mp hp with hp | hp
          · exact ⟨by simp [mainKid], (n5 p hp).2⟩
          · rw [List.mem_singleton] at hp
            subst hp
            exact ⟨by simp [mainKid], n4 _ hin⟩
      · intro p
        have := hk p
        rw [mem_owned, hc] at this
        rw [mem_owned]
        simp only [mainKid, List.mem_append, List.mem_singleton, List.not_mem_nil, false_or] at this ⊢
        rw [this, or_assoc]
      · intro i p hp hp2
        simp only at hp hp2
        rw [List.getElem?_append] at hp
        split at hp
        · rcases hs i p hp hp2 with h | h | ⟨j, h, _⟩
          · exact .inl h
          · exact .inr (.inl h)
          · rw [hc] at h; cases h
        · have : p = pid := by
            have := List.mem_of_getElem? hp
            simpa using this
          subst this
          exact .inl (hm _ hc hp2)
      · intro p hp; cases hp
    · cases h
  | forkSync pid =>
    simp only [step] at h
    split at h
    · rename_i hc
      obtain ⟨hc, ha⟩ := hc
      cases h
      obtain ⟨a1, a2, a3⟩ := nin pid ha
      refine ⟨?_, ?_, ?_, ?_, he⟩
      · rw [owned_nodup]
        refine ⟨n1, by simp [mainKid], n3, by simpa [mainKid, setKid] using a3, ?_⟩
        intro p hp
        refine ⟨?_, (n5 p hp).2⟩
        simp only [mainKid, List.mem_singleton]
        rintro rfl
        exact a1 hp
      · intro p
        rw [mem_owned]
        simp only [setKid, mainKid, List.mem_singleton]
        have := hk p
        rw [mem_owned, hc] at this
        by_cases hp : p = pid
        · simp [hp]
        · simpa [hp, mainKid] using this
      · intro i p hp hp2
        have hne : p ≠ pid := by rintro rfl; exact a1 (List.mem_of_getElem? hp)
        simp only [setKid, hne, if_false] at hp2
        rcases hs i p hp hp2 with h | h | ⟨j, h, _⟩
        · exact .inl h
        · exact .inr (.inl h)
        · rw [hc] at h; cases h
      · intro p hp; cases hp
    · cases h
  | waited =>
    simp only [step] at h
    split at h
    · rename_i pid hc
      have hin : pid ∈ mainKid s.pc := by simp [hc, mainKid]
      have hna : s.kids pid ≠ .absent := (hk pid).mpr (mem_owned.mpr (.inr (.inl hin)))
      unfold waitStep at h
      cases hx : s.kids pid with
      | running => rw [hx] at h; cases h
      | absent => exact absurd hx hna
      | ended =>
        rw [hx] at h
        cases h
        have a1 : pid ∉ s.async := fun h => (n5 _ h).1 hin
        refine ⟨?_, ?_, ?_, ?_, he⟩
        · rw [owned_nodup]
          exact ⟨n1, by simp [mainKid], n3, by simp [mainKid], fun p hp => ⟨by simp [mainKid], (n5 p hp).2⟩⟩
        · intro p
          have := hk p
          rw [mem_owned, hc] at this
          rw [mem_owned]
          simp only [setKid, mainKid, List.mem_singleton, List.not_mem_nil, false_or] at this ⊢
          by_cases hp : p = pid
          · subst hp
            have := n4 _ hin
            simp [a1, this]
          · simpa [hp] using this
        · intro i p hp hp2
          have hne : p ≠ pid := by rintro rfl; exact a1 (List.mem_of_getElem? hp)
          simp only [setKid, hne, if_false] at hp2
          rcases hs i p hp hp2 with h | h | ⟨j, h, _⟩
          · exact .inl h
          · exact .inr (.inl h)
          · rw [hc] at h; cases h
        · intro p hp; cases hp
    · cases h
  | forkThread pid =>
    simp only [step] at h
    split at h
    · rename_i ha
      cases h
      obtain ⟨a1, a2, a3⟩ := nin pid ha
      refine ⟨?_, ?_, ?_, ?_, he⟩
      · rw [owned_nodup]
        refine ⟨n1, n2, List.nodup_cons.mpr ⟨a3, n3⟩, ?_, ?_⟩
        · intro p hp
          simp only [List.mem_cons, not_or]
          exact ⟨by rintro rfl; exact a2 hp, n4 p hp⟩
        · intro p hp
          simp only [List.mem_cons, not_or]
          exact ⟨(n5 p hp).1, by rintro rfl; exact a1 hp, (n5 p hp).2⟩
      · intro p
        have := hk p
        rw [mem_owned] at this
        rw [mem_owned]
        simp only [setKid, List.mem_cons]
        by_cases hp : p = pid
        · simp [hp]
        · simpa [hp] using this
      · intro i p hp hp2
        have hne : p ≠ pid := by rintro rfl; exact a1 (List.mem_of_getElem? hp)
        simp only [setKid, hne, if_false] at hp2
        exact hs i p hp hp2
      · intro p hp hp2
        have hp' : s.pc = .forked p := hp
        have hne : p ≠ pid := by rintro rfl; exact a2 (by simp [hp', mainKid])
        simp only [setKid, hne, if_false] at hp2
        exact hm p hp' hp2
    · cases h
  | threadWaited pid =>
    simp only [step] at h
    split at h
    · rename_i hin
      have hna : s.kids pid ≠ .absent := (hk pid).mpr (mem_owned.mpr (.inr (.inr hin)))
      unfold waitStep at h
      cases hx : s.kids pid with
      | running => rw [hx] at h; cases h
      | absent => exact absurd hx hna
      | ended =>
        rw [hx] at h
        cases h
        have a1 : pid ∉ s.async := fun h => (n5 _ h).2 hin
        have a2 : pid ∉ mainKid s.pc := fun h => n4 _ h hin
        refine ⟨?_, ?_, ?_, ?_, he⟩
        · rw [owned_nodup]
          refine ⟨n1, n2, n3.erase _, ?_, ?_⟩
          · intro p hp hq
            exact n4 p hp (List.mem_of_mem_erase hq)
          · intro p hp
            exact ⟨(n5 p hp).1, fun hq => (n5 p hp).2 (List.mem_of_mem_erase hq)⟩
        · intro p
          have := hk p
          rw [mem_owned] at this
          rw [mem_owned]
          simp only [setKid, n3.mem_erase_iff]
          by_cases hp : p = pid
          · subst hp
            simp [a1, a2]
          · simpa [hp] using this
        · intro i p hp hp2
          have hne : p ≠ pid := by rintro rfl; exact a1 (List.mem_of_getElem? hp)
          simp only [setKid, hne, if_false] at hp2
          exact hs i p hp hp2
        · intro p hp hp2
          have hp' : s.pc = .forked p := hp
          have hne : p ≠ pid := by rintro rfl; exact a2 (by simp [hp', mainKid])
          simp only [setKid, hne, if_false] at hp2
          exact hm p hp' hp2
    · cases h
  | exit pid =>
    simp only [step] at h
    split at h
    · rename_i hr
      cases h
      refine ⟨owned_nodup.mpr ⟨n1, n2, n3, n4, n5⟩, ?_, fun _ _ _ _ => .inl rfl, fun _ _ _ => rfl, he⟩
      intro p
      have := hk p
      rw [mem_owned] at this
      rw [mem_owned]
      simp only [setKid]
      by_cases hp : p = pid
      · subst hp
        simpa [hr] using this
      · simpa [hp] using this
    · cases h
  | signal =>
    simp only [step] at h
    split at h
    · rename_i hc
      obtain ⟨hc, _⟩ := hc
      cases h
      refine ⟨owned_nodup.mpr ⟨n1, n2, n3, n4, n5⟩, hk, fun _ _ _ _ => .inr (.inl rfl), ?_, he⟩
      intro p hp
      have hp : s.pc = .forked p := hp
      rw [hc] at hp
      cases hp
    · cases h
  | handle =>
    simp only [step] at h
    split at h
    · rename_i hc
      obtain ⟨hc, _⟩ := hc
      cases h
      have hm0 : mainKid s.pc = [] := by simp [hc, mainKid]
      refine ⟨?_, ?_, fun i _ _ _ => .inr (.inr ⟨0, rfl, Nat.zero_le i⟩), fun p hp => (by cases hp), he⟩
      · rw [owned_nodup]
        exact ⟨n1, by simp [mainKid], n3, by simp [mainKid], fun p hp => ⟨by simp [mainKid], (n5 p hp).2⟩⟩
      · intro p
        have := hk p
        rw [mem_owned, hm0] at this
        rw [mem_owned]
        exact this
    · cases h
  | reap =>
    simp only [step] at h
    split at h
    · rename_i i hc
      cases h
      have hm0 : mainKid s.pc = [] := by simp [hc, mainKid]
      unfold reapStep
      cases hx : s.async[i]? with
      | none =>
        refine ⟨?_, ?_, ?_, fun p hp => (by cases hp), he⟩
        · rw [owned_nodup]
          exact ⟨n1, by simp [mainKid], n3, by simp [mainKid], fun p hp => ⟨by simp [mainKid], (n5 p hp).2⟩⟩
        · intro p
          have := hk p
          rw [mem_owned, hm0] at this
          rw [mem_owned]
          exact this
        · intro j p hp hp2
          rcases hs j p hp hp2 with h | h | ⟨l, h, hl⟩
          · exact .inl h
          · exact .inr (.inl h)
          · rw [hc] at h
            cases h
            have hp : s.async[j]? = some p := hp
            have h1 := List.getElem?_eq_none_iff.mp hx
            obtain ⟨h2, _⟩ := List.getElem?_eq_some_iff.mp hp
            omega
      | some pid =>
        have hin : pid ∈ s.async := List.mem_of_getElem? hx
        have hna : s.kids pid ≠ .absent := (hk pid).mpr (mem_owned.mpr (.inl hin))
        simp only
        cases hq : s.kids pid with
        | absent => exact absurd hq hna
        | running =>
          simp only
          refine ⟨?_, ?_, ?_, fun p hp => (by cases hp), he⟩
          · rw [owned_nodup]
            exact ⟨n1, by simp [mainKid], n3, by simp [mainKid], fun p hp => ⟨by simp [mainKid], (n5 p hp).2⟩⟩
          · intro p
            have := hk p
            rw [mem_owned, hm0] at this
            rw [mem_owned]
            exact this
          · intro j p hp hp2
            rcases hs j p hp hp2 with h | h | ⟨l, h, hl⟩
            · exact .inl h
            · exact .inr (.inl h)
            · rw [hc] at h
              cases h
              refine .inr (.inr ⟨i + 1, rfl, ?_⟩)
              have hp : s.async[j]? = some p := hp
              rcases Nat.eq_or_lt_of_le hl with rfl | hl
              · rw [hx] at hp
                cases hp
                have hp2 : s.kids pid = .ended := hp2
                rw [hq] at hp2
                cases hp2
              · exact hl
        | ended =>
          simp only
          have a2 := (n5 pid hin).2
          refine ⟨?_, ?_, ?_, ?_, he⟩
          · rw [owned_nodup]
            refine ⟨n1.eraseIdx i, n2, n3, n4, fun p hp => n5 p ?_⟩
            exact List.mem_of_mem_eraseIdx hp
          · intro p
            have := hk p
            rw [mem_owned, hm0] at this
            rw [mem_owned]
            show (if p = pid then Kid.absent else s.kids p) ≠ .absent ↔ p ∈ s.async.eraseIdx i ∨ p ∈ mainKid s.pc ∨ p ∈ s.threads
            rw [mem_eraseIdx_nodup n1 hx, hm0]
            by_cases hp : p = pid
            · subst hp
              simp [a2]
            · simpa [hp] using this
          · intro j p hp hp2
            have hp : (s.async.eraseIdx i)[j]? = some p := hp
            have hne : p ≠ pid := by
              have := List.mem_of_getElem? hp
              rw [mem_eraseIdx_nodup n1 hx] at this
              exact this.2
            have hp2 : (if p = pid then Kid.absent else s.kids p) = .ended := hp2
            rw [if_neg hne] at hp2
            rw [List.getElem?_eraseIdx] at hp
            split at hp
            · rcases hs j p hp hp2 with h | h | ⟨l, h, hl⟩
              · exact .inl h
              · exact .inr (.inl h)
              · exact .inr (.inr ⟨l, h, hl⟩)
            · rename_i hij
              exact .inr (.inr ⟨i, hc, by omega⟩)
          · intro p hp
            have hp : s.pc = .forked p := hp
            rw [hc] at hp
            cases hp
    · cases h

theorem inv_runOps (ops : List Op) : ∀ {s s' : State}, Inv s → runOps s ops = some s' → Inv s' := by
  induction ops with
  | nil => intro s s' hi h; cases h; exact hi
  | cons o r ih =>
    intro s s' hi h
    unfold runOps at h
    cases hx : step s o with
    | none => rw [hx] at h; cases h
    | some t =>
      rw [hx] at h
      exact ih (inv_step hi hx) h

theorem Reachable.inv {s : State} (h : Reachable s) : Inv s := by
  obtain ⟨ops, h⟩ := h
  exact inv_runOps ops inv_init h

/-- **C81** Every child of fastd, running or not, is in the care of exactly one: it is listed once as an asynchronous
command, or the main thread is just listing or waiting for it, or one thread is waiting for it. And whatever they
care for is a child. -/
theorem C81_owner {s : State} (h : Reachable s) (p : Nat) :
    (s.kids p ≠ .absent ↔ p ∈ s.async ∨ s.pc = .forked p ∨ s.pc = .waiting p ∨ p ∈ s.threads) ∧
    s.async.Nodup ∧ s.threads.Nodup ∧
    (p ∈ s.async → p ∉ s.threads ∧ s.pc ≠ .forked p ∧ s.pc ≠ .waiting p) ∧
    (p ∈ s.threads → s.pc ≠ .forked p ∧ s.pc ≠ .waiting p) := by
  have hi := h.inv
  obtain ⟨n1, n2, n3, n4, n5⟩ := owned_nodup.mp hi.nodup
  have hm : p ∈ mainKid s.pc ↔ s.pc = .forked p ∨ s.pc = .waiting p := by
    cases s.pc <;> simp [mainKid, eq_comm]
  refine ⟨?_, n1, n3, ?_, ?_⟩
  · rw [hi.kids, mem_owned, hm, or_assoc]
  · intro hp
    have h1 := (n5 p hp).1
    rw [hm, not_or] at h1
    exact ⟨(n5 p hp).2, h1.1, h1.2⟩
  · intro hp
    refine not_or.mp fun h1 => ?_
    exact n4 p (hm.mpr h1) hp

/-- **C81** `waitpid` never fails: nobody collects the child that another waits for, and the list contains no process
that isn't (any longer) a child of fastd, although the IDs of collected children are used again. So the exit status of
an `on verify` command always reaches the thread that ran it. -/
theorem C81_no_error {s : State} (h : Reachable s) :
    s.errors = 0 ∧ (∀ p ∈ s.threads, s.kids p = .running ∨ ∃ s', step s (.threadWaited p) = some s' ∧ s'.kids p = .absent ∧ s'.errors = 0) ∧
    (∀ p, s.pc = .waiting p → s.kids p = .running ∨ ∃ s', step s .waited = some s' ∧ s'.kids p = .absent ∧ s'.errors = 0) := by
  have hi := h.inv
  refine ⟨hi.errors, ?_, ?_⟩
  · intro p hp
    have hna := (hi.kids p).mpr (mem_owned.mpr (.inr (.inr hp)))
    cases hx : s.kids p with
    | absent => exact absurd hx hna
    | running => exact .inl rfl
    | ended =>
      refine .inr ⟨{ setKid s p .absent with threads := s.threads.erase p }, ?_, by simp [setKid], hi.errors⟩
      simp only [step, if_pos hp, waitStep, hx, Option.map_some]
      rfl
  · intro p hp
    have hna := (hi.kids p).mpr (mem_owned.mpr (.inr (.inl (by simp [hp, mainKid]))))
    cases hx : s.kids p with
    | absent => exact absurd hx hna
    | running => exact .inl rfl
    | ended =>
      refine .inr ⟨{ setKid s p .absent with pc := .idle }, ?_, by simp [setKid], hi.errors⟩
      simp only [step, hp, waitStep, hx, Option.map_some]

/-- **C81** An asynchronous command that has ended is never forgotten: as long as it hasn't been collected, a signal is
pending or noted, or the loop collecting ended children has yet to come to it. -/
theorem C81_collected {s : State} (h : Reachable s) {i p : Nat} (hp : s.async[i]? = some p) (he : s.kids p = .ended) :
    s.pending = true ∨ s.flag = true ∨ ∃ j, s.pc = .reaping j ∧ j ≤ i := h.inv.seen i p hp he

/-- **C81** When no signal is on its way and the main thread does something else, the listed processes are exactly
the children still running that no thread waits for, and there is no ended child except for those of threads. -/
theorem C81_quiet {s : State} (h : Reachable s) (hp : s.pending = false) (hf : s.flag = false) (hc : s.pc = .idle) (p : Nat) :
    (p ∈ s.async ↔ s.kids p = .running ∧ p ∉ s.threads) ∧ (s.kids p = .ended → p ∈ s.threads) := by
  obtain ⟨ho, -, -, ha, -⟩ := C81_owner h p
  have hnot : p ∈ s.async → s.kids p ≠ .ended := by
    intro hp1 hp2
    obtain ⟨i, hi⟩ := List.mem_iff_getElem?.mp hp1
    rcases C81_collected h hi hp2 with h | h | ⟨j, h, _⟩
    · rw [hp] at h; cases h
    · rw [hf] at h; cases h
    · rw [hc] at h; cases h
  simp only [hc, reduceCtorEq, false_or] at ho
  constructor
  · constructor
    · intro h1
      refine ⟨?_, (ha h1).1⟩
      cases hx : s.kids p with
      | absent => exact absurd hx (ho.mpr (.inl h1))
      | running => rfl
      | ended => exact absurd hx (hnot h1)
    · rintro ⟨h1, h2⟩
      rcases ho.mp (by rw [h1]; decide) with h | h
      · exact h
      · exact absurd h h2
  · intro h1
    rcases ho.mp (by rw [h1]; decide) with h | h
    · exact absurd h1 (hnot h)
    · exact h

/-- Rounds of the loop still to come. -/
def left (s : State) : Nat := match s.pc with
  | .reaping i => s.async.length - i + 1
  | _ => 0

/-- **C81** Collecting ended children never blocks and comes to an end, whatever the threads and children do meanwhile;
each round removes at most one process, and only one that has ended. -/
theorem C81_reap {s : State} (h : Reachable s) {i : Nat} (hc : s.pc = .reaping i) :
    ∃ s', step s .reap = some s' ∧ left s' < left s ∧
      (∀ p, s.kids p ≠ .ended → s'.kids p = s.kids p ∧ (p ∈ s'.async ↔ p ∈ s.async)) ∧ s'.threads = s.threads ∧
      (∀ o s', step s o = some s' → left s' ≤ left s ∨ o = .reap) := by
  refine ⟨reapStep s i, by simp only [step, hc], ?_, ?_, ?_, ?_⟩
  · unfold reapStep left
    rw [hc]
    cases hx : s.async[i]? with
    | none => simp
    | some p =>
      obtain ⟨hl, _⟩ := List.getElem?_eq_some_iff.mp hx
      simp only
      cases s.kids p with
      | running => simp only; omega
      | ended => simp only [setKid, hc, List.length_eraseIdx, if_pos hl]; omega
      | absent => simp only [List.length_eraseIdx, if_pos hl]; omega
  · intro p hp
    unfold reapStep
    cases hx : s.async[i]? with
    | none => exact ⟨rfl, Iff.rfl⟩
    | some q =>
      have hin : q ∈ s.async := List.mem_of_getElem? hx
      simp only
      cases hq : s.kids q with
      | running => exact ⟨rfl, Iff.rfl⟩
      | absent => exact absurd hq ((h.inv.kids q).mpr (mem_owned.mpr (.inl hin)))
      | ended =>
        have hne : p ≠ q := by rintro rfl; exact hp hq
        refine ⟨by simp [setKid, hne], ?_⟩
        show p ∈ s.async.eraseIdx i ↔ _
        rw [mem_eraseIdx_nodup (owned_nodup.mp h.inv.nodup).1 hx]
        simp [hne]
  · unfold reapStep
    cases s.async[i]? with
    | none => rfl
    | some q => simp only; cases s.kids q <;> rfl
  · intro o s' hs
    cases o with
    | reap => exact .inr rfl
    | forkAsync p => simp [step, hc] at hs
    | add => simp [step, hc] at hs
    | forkSync p => simp [step, hc] at hs
    | waited => simp [step, hc] at hs
    | signal => simp [step, hc] at hs
    | handle => simp [step, hc] at hs
    | forkThread p =>
      simp only [step] at hs
      split at hs
      · cases hs; exact .inl (Nat.le_refl _)
      · cases hs
    | exit p =>
      simp only [step] at hs
      split at hs
      · cases hs; exact .inl (Nat.le_refl _)
      · cases hs
    | threadWaited p =>
      simp only [step] at hs
      split at hs
      · unfold waitStep at hs
        cases hx : s.kids p with
        | running => rw [hx] at hs; cases hs
        | ended => rw [hx] at hs; cases hs; exact .inl (Nat.le_refl _)
        | absent => rw [hx] at hs; cases hs; exact .inl (Nat.le_refl _)
      · cases hs

/-! ### Examples -/

/-- What can be compared of a state: children among the first IDs. -/
structure View where
  kids : List Kid
  async : List Nat
  threads : List Nat
  pc : Pc
  pending : Bool
  flag : Bool
  errors : Nat
deriving DecidableEq

def view (n : Nat) (s : State) : View :=
  ⟨(List.range n).map s.kids, s.async, s.threads, s.pc, s.pending, s.flag, s.errors⟩

-- two asynchronous commands and one of a thread; one of the former ends in the middle of the loop after its turn,
-- and is collected after the next signal; its ID is used again at once
example : (runOps .init [.forkAsync 1, .add, .forkAsync 2, .exit 2, .add, .forkThread 3, .exit 3, .signal, .handle, .reap,
    .exit 1, .reap, .reap]).map (view 4) =
    some ⟨[.absent, .ended, .absent, .ended], [1], [3], .idle, true, false, 0⟩ := by decide +kernel
example : (runOps .init [.forkAsync 1, .add, .forkAsync 2, .exit 2, .add, .forkThread 3, .exit 3, .signal, .handle, .reap,
    .exit 1, .reap, .reap, .signal, .handle, .reap, .reap, .forkSync 1, .threadWaited 3, .exit 1, .waited]).map (view 4) =
    some ⟨[.absent, .absent, .absent, .absent], [], [], .idle, true, false, 0⟩ := by decide +kernel
-- waiting for a running child blocks
example : (runOps .init [.forkSync 1, .waited]).map (view 2) = none := by decide +kernel
example : ∃ s, Reachable s ∧ s.pc = .reaping 1 ∧ s.async = [1] ∧ s.kids 1 = .ended ∧ s.pending = true :=
  ⟨_, ⟨[.forkAsync 1, .add, .forkAsync 2, .exit 2, .add, .signal, .handle, .reap, .exit 1, .reap], rfl⟩, rfl, rfl, rfl, rfl⟩

end Fastd.Children
