import Verif.Main.StatusSock

/-!
# Property C102: the status socket belongs to one process

However many instances of fastd are started with the same status socket, and however they end: at most one of them uses it, the path leads to this one as long
as it listens, nothing is left by a process that exits, and what a killed process has left does not prevent the next start.
-/

namespace Fastd.StatusSock

/-- The process has the lock and has not ended. -/
def Using (p : Phase) : Prop := p ≠ .idle ∧ p ≠ .gone

/-- There is a socket of this process. -/
def Owns (p : Phase) : Prop := p = .bound ∨ p = .registered ∨ p = .listening

/-- The invariant -/
structure Inv (s : St) : Prop where
  lock : ∀ i, Using (s.phase i) → s.lock = some i
  own : ∀ i, Owns (s.phase i) → s.path = some i

theorem Owns.using {p : Phase} (h : Owns p) : Using p := by
  rcases h with rfl | rfl | rfl <;> exact ⟨by decide, by decide⟩

theorem to_self (s : St) (i : Nat) (p : Phase) : (s.to i p).phase i = p := if_pos rfl

theorem to_other (s : St) {i j : Nat} (p : Phase) (h : j ≠ i) : (s.to i p).phase j = s.phase j := if_neg h

/-- The process `i` has the lock: it may do with the path what it likes. -/
theorem inv_using {s : St} (h : Inv s) (i : Nat) (hu : Using (s.phase i)) (path : Option Nat) (p : Phase)
    (hp : Owns p → path = some i) : Inv ({ s with path := path }.to i p) := by
  have hl := h.lock i hu
  have only : ∀ j, j ≠ i → ¬ Using (s.phase j) := by
    intro j hj hu'
    have := h.lock j hu'
    rw [hl] at this
    cases this
    exact hj rfl
  refine ⟨fun j hj => ?_, fun j hj => ?_⟩
  · by_cases hji : j = i
    · subst hji; exact hl
    · rw [to_other _ _ hji] at hj
      exact absurd hj (only j hji)
  · by_cases hji : j = i
    · subst hji; rw [to_self] at hj; exact hp hj
    · rw [to_other _ _ hji] at hj
      exact absurd hj.using (only j hji)

theorem inv_keep {s : St} (h : Inv s) (i : Nat) (hu : Using (s.phase i)) (p : Phase) (hp : Owns p → s.path = some i) : Inv (s.to i p) :=
  inv_using h i hu s.path p hp

theorem inv_gone {s : St} (h : Inv s) (i : Nat) : Inv (s.to i .gone) := by
  refine ⟨fun j hj => ?_, fun j hj => ?_⟩
  · by_cases hji : j = i
    · subst hji; rw [to_self] at hj; exact absurd rfl hj.2
    · rw [to_other _ _ hji] at hj; exact h.lock j hj
  · by_cases hji : j = i
    · subst hji; rw [to_self] at hj; rcases hj with hj | hj | hj <;> cases hj
    · rw [to_other _ _ hji] at hj; exact h.own j hj

theorem not_owns {p : Phase} (h1 : p ≠ .bound) (h2 : p ≠ .registered) (h3 : p ≠ .listening) : ¬ Owns p := by
  rintro (h | h | h)
  · exact h1 h
  · exact h2 h
  · exact h3 h

theorem inv_step {i : Nat} {s s' : St} (h : Inv s) (st : Step i s s') : Inv s' := by
  cases st with
  | lock hp hl =>
    have none_ : ∀ j, ¬ Using (s.phase j) := by
      intro j hj
      have := h.lock j hj
      rw [hl] at this
      cases this
    refine ⟨fun j hj => ?_, fun j hj => ?_⟩
    · by_cases hji : j = i
      · subst hji; rfl
      · rw [to_other _ _ hji] at hj
        exact absurd hj (none_ j)
    · by_cases hji : j = i
      · subst hji; rw [to_self] at hj; exact absurd hj (not_owns (by decide) (by decide) (by decide))
      · rw [to_other _ _ hji] at hj
        exact absurd hj.using (none_ j)
  | lockFails hp => exact inv_gone h i
  | unlink hp => exact inv_using h i (by rw [hp]; exact ⟨by decide, by decide⟩) none _ (fun h => absurd h (not_owns (by decide) (by decide) (by decide)))
  | unlinkFails hp => exact inv_keep h i (by rw [hp]; exact ⟨by decide, by decide⟩) _ (fun h => absurd h (not_owns (by decide) (by decide) (by decide)))
  | socket hp => exact inv_keep h i (by rw [hp]; exact ⟨by decide, by decide⟩) _ (fun h => absurd h (not_owns (by decide) (by decide) (by decide)))
  | socketFails hp => exact inv_gone h i
  | bind hp hn => exact inv_using h i (by rw [hp]; exact ⟨by decide, by decide⟩) (some i) _ (fun _ => rfl)
  | bindFails hp => exact inv_gone h i
  | atexit hp => exact inv_keep h i (by rw [hp]; exact ⟨by decide, by decide⟩) _ (fun _ => h.own i (by rw [hp]; exact .inl rfl))
  | atexitFails hp => exact inv_using h i (by rw [hp]; exact ⟨by decide, by decide⟩) none _ (fun h => absurd h (not_owns (by decide) (by decide) (by decide)))
  | atexitFails' hp => exact inv_gone h i
  | listen hp => exact inv_keep h i (by rw [hp]; exact ⟨by decide, by decide⟩) _ (fun _ => h.own i (by rw [hp]; exact .inr (.inl rfl)))
  | close hp => exact inv_using h i (by rw [hp]; exact ⟨by decide, by decide⟩) none _ (fun h => absurd h (not_owns (by decide) (by decide) (by decide)))
  | closeFails hp => exact inv_keep h i (by rw [hp]; exact ⟨by decide, by decide⟩) _ (fun h => absurd h (not_owns (by decide) (by decide) (by decide)))
  | exit hg hb =>
    cases hu : unlinksAtExit (s.phase i) with
    | false => exact inv_gone h i
    | true =>
      refine inv_using h i ?_ none _ (fun h => absurd h (not_owns (by decide) (by decide) (by decide)))
      refine ⟨fun he => ?_, hg⟩
      rw [he] at hu
      cases hu
  | kill hg => exact inv_gone h i
  | release hg hl =>
    refine ⟨fun j hj => ?_, h.own⟩
    have := h.lock j hj
    rw [hl] at this
    cases this
    exact absurd hg hj.2

theorem inv_reach {path : Option Nat} {s : St} (h : Reach path s) : Inv s := by
  induction h with
  | init =>
    have hp : ∀ i, (init path).phase i = .gone ∨ (init path).phase i = .idle := by
      intro i
      by_cases hi : path = some i
      · exact .inl (if_pos hi)
      · exact .inr (if_neg hi)
    have hu : ∀ i, ¬ Using ((init path).phase i) := by
      intro i h
      rcases hp i with he | he
      · exact h.2 he
      · exact h.1 he
    exact ⟨fun i h => absurd h (hu i), fun i h => absurd h.using (hu i)⟩
  | step _ st ih => exact inv_step ih st

/-- **C102, at most one**: two processes are never at the same time between taking the lock and their end. -/
theorem C102_one {path : Option Nat} {s : St} (h : Reach path s) (i j : Nat) (hi : s.phase i ≠ .idle) (hi' : s.phase i ≠ .gone)
    (hj : s.phase j ≠ .idle) (hj' : s.phase j ≠ .gone) : i = j := by
  have h1 := (inv_reach h).lock i ⟨hi, hi'⟩
  have h2 := (inv_reach h).lock j ⟨hj, hj'⟩
  rw [h1] at h2
  cases h2
  rfl

/-- **C102, the path leads to the running process**: nothing that other instances do, starting or ending, takes it away. -/
theorem C102_own {path : Option Nat} {s : St} (h : Reach path s) (i : Nat) (hi : s.phase i = .listening) : s.path = some i :=
  (inv_reach h).own i (.inr (.inr hi))

/-- **C102, a refused instance changes nothing**: if another process uses the socket, a new instance can only end. -/
theorem C102_refused {path : Option Nat} {s s' : St} (h : Reach path s) (i j : Nat) (hj : s.phase j ≠ .idle) (hj' : s.phase j ≠ .gone)
    (hi : s.phase i = .idle) (st : Step i s s') : s'.phase i = .gone ∧ s'.path = s.path ∧ s'.lock = s.lock := by
  have hl := (inv_reach h).lock j ⟨hj, hj'⟩
  cases st with
  | lock hp h0 => rw [hl] at h0; cases h0
  | lockFails _ => exact ⟨to_self _ _ _, rfl, rfl⟩
  | exit _ _ => rw [hi]; exact ⟨to_self _ _ _, rfl, rfl⟩
  | kill _ => exact ⟨to_self _ _ _, rfl, rfl⟩
  | unlink hp | unlinkFails hp | socket hp | socketFails hp | bind hp | bindFails hp | atexit hp | atexitFails hp | atexitFails' hp
  | listen hp | close hp | closeFails hp | release hp => rw [hi] at hp; cases hp

/-- **C102, nothing is left**: when a listening process exits, or closes the socket, the path is gone; nothing of it comes back later. -/
theorem C102_removed {path : Option Nat} {s : St} (_h : Reach path s) (i : Nat) (hi : s.phase i = .listening) :
    Step i s ({ s with path := none }.to i .gone) ∧ Step i s ({ s with path := none }.to i .closed) := by
  refine ⟨?_, .close hi⟩
  have := Step.exit (i := i) (s := s) (by rw [hi]; decide) (by rw [hi]; decide)
  rw [hi] at this
  exact this

theorem C102_no_return {path : Option Nat} {s s' : St} {i j : Nat} (hg : s.phase i = .gone ∨ s.phase i = .closed) (hp : s.path ≠ some i)
    (st : Step j s s') (_h : Reach path s) : (s'.phase i = .gone ∨ s'.phase i = .closed) ∧ s'.path ≠ some i := by
  have ne : ∀ {p}, s.phase j = p → p ≠ .gone → p ≠ .closed → i ≠ j := by
    rintro p hj h1 h2 rfl
    rw [hj] at hg
    rcases hg with hg | hg
    · exact h1 hg
    · exact h2 hg
  have keep : ∀ {p}, i ≠ j → ((s.to j p).phase i = .gone ∨ (s.to j p).phase i = .closed) := by
    intro p hij
    rw [to_other _ _ hij]
    exact hg
  have gone : (s.to j .gone).phase i = .gone ∨ (s.to j .gone).phase i = .closed := by
    by_cases hij : i = j
    · subst hij; exact .inl (to_self _ _ _)
    · exact keep hij
  cases st with
  | lock hj _ => exact ⟨keep (ne hj (by decide) (by decide)), hp⟩
  | lockFails hj => exact ⟨gone, hp⟩
  | unlink hj => exact ⟨keep (ne hj (by decide) (by decide)), by show (none : Option Nat) ≠ some i; simp⟩
  | unlinkFails hj => exact ⟨keep (ne hj (by decide) (by decide)), hp⟩
  | socket hj => exact ⟨keep (ne hj (by decide) (by decide)), hp⟩
  | socketFails hj => exact ⟨gone, hp⟩
  | bind hj _ =>
    have := ne hj (by decide) (by decide)
    refine ⟨keep this, ?_⟩
    show some j ≠ some i
    intro h
    cases h
    exact this rfl
  | bindFails hj => exact ⟨gone, hp⟩
  | atexit hj => exact ⟨keep (ne hj (by decide) (by decide)), hp⟩
  | atexitFails hj => exact ⟨gone, by show (none : Option Nat) ≠ some i; simp⟩
  | atexitFails' hj => exact ⟨gone, hp⟩
  | listen hj => exact ⟨keep (ne hj (by decide) (by decide)), hp⟩
  | close hj => exact ⟨keep (ne hj (by decide) (by decide)), by show (none : Option Nat) ≠ some i; simp⟩
  | closeFails hj => exact ⟨keep (ne hj (by decide) (by decide)), hp⟩
  | exit _ _ =>
    refine ⟨gone, ?_⟩
    show (if unlinksAtExit (s.phase j) then none else s.path) ≠ some i
    split
    · simp
    · exact hp
  | kill _ => exact ⟨gone, hp⟩
  | release _ _ => exact ⟨hg, hp⟩

/-- **C102, restart**: if all processes have ended in whatever way and their descriptors are closed, a new one can start, though there may be an old socket. -/
theorem C102_restart {path : Option Nat} {s : St} (h : Reach path s) (i : Nat) (hi : s.phase i = .idle) (hl : s.lock = none) :
    ∃ s', Reach path s' ∧ s'.phase i = .listening ∧ s'.path = some i ∧ ∀ j, j ≠ i → s'.phase j = s.phase j := by
  have r1 := Reach.step h (.lock hi hl)
  have r2 := Reach.step r1 (.unlink (to_self _ i _))
  have r3 := Reach.step r2 (.socket (to_self _ i _))
  have r4 := Reach.step r3 (.bind (to_self _ i _) rfl)
  have r5 := Reach.step r4 (.atexit (to_self _ i _))
  have r6 := Reach.step r5 (.listen (to_self _ i _))
  refine ⟨_, r6, to_self _ i _, rfl, fun j hj => ?_⟩
  rw [to_other _ _ hj, to_other _ _ hj, to_other _ _ hj, to_other _ _ hj, to_other _ _ hj, to_other _ _ hj]

/-- **C102, user and group**: the process continues as the user and group it had before, provided that they are also the saved ones, as after `execve`. -/
theorem C102_ids (privileged : Nat → Bool) (conf : Option (Nat × Nat)) (u g : Ids) (hu : u.saved = u.effective) (hg : g.saved = g.effective) :
    statusIds privileged conf u g = (u, g) := by
  have back : ∀ (c c' : Bool) (ids : Ids) (n : Nat), ids.saved = ids.effective → setEffective c' (setEffective c ids n) ids.effective = ids := by
    intro c c' ids n h
    cases ids with
    | mk r e sv =>
    simp only at h
    subst h
    unfold setEffective
    split <;> simp
  have same : ∀ (c : Bool) (ids : Ids), setEffective c ids ids.effective = ids := by
    intro c ids
    unfold setEffective
    simp
  unfold statusIds
  cases conf with
  | none => simp only [same]
  | some ug => simp only [back _ _ _ _ hu, back _ _ _ _ hg]

/-- Process 1 is killed, process 2 takes over; process 3 is refused. -/
example : ∃ s, Reach none s ∧ s.phase 1 = .gone ∧ s.phase 2 = .listening ∧ s.phase 3 = .gone ∧ s.path = some 2 := by
  obtain ⟨s1, r1, h1, -, o1⟩ := C102_restart (Reach.init (path := none)) 1 rfl rfl
  have l1 := (inv_reach r1).lock 1 (by rw [h1]; exact ⟨by decide, by decide⟩)
  have r2 := r1.step (.kill (i := 1) (by rw [h1]; decide))
  have r3 := r2.step (.release (i := 1) (to_self _ _ _) l1)
  have i2 : ∀ j, j ≠ 1 → s1.phase j = .idle := fun j hj => o1 j hj
  obtain ⟨s4, r4, h4, p4, o4⟩ := C102_restart r3 2 (by show (s1.to 1 .gone).phase 2 = _; rw [to_other _ _ (by decide)]; exact i2 2 (by decide)) rfl
  have i3 : s4.phase 3 = .idle := by
    rw [o4 3 (by decide)]
    show (s1.to 1 .gone).phase 3 = _
    rw [to_other _ _ (by decide)]
    exact i2 3 (by decide)
  have g1 : s4.phase 1 = .gone := by
    rw [o4 1 (by decide)]
    exact to_self s1 1 .gone
  refine ⟨_, r4.step (.lockFails (i := 3) i3), ?_, ?_, to_self _ _ _, p4⟩
  · rw [to_other _ _ (by decide)]; exact g1
  · rw [to_other _ _ (by decide)]; exact h4

/-- Root, with a user in the configuration: IDs are changed in between, and restored. -/
example : setEffective true ⟨0, 0, 0⟩ 1000 = ⟨0, 1000, 0⟩ ∧
    statusIds (· = 0) (some (1000, 100)) ⟨0, 0, 0⟩ ⟨0, 0, 0⟩ = (⟨0, 0, 0⟩, ⟨0, 0, 0⟩) := by decide

end Fastd.StatusSock
