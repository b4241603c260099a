import Verif.Daemon.Verify

/-!
# C56: verification load is bounded
-/

namespace Fastd.Daemon.Verify

/-- Number of verification commands running. -/
def running (s : State) : Nat := s.threads.count .exec

/-- Number of verifications begun whose slot has not been returned. -/
def inProgress (s : State) : Nat :=
  (s.threads.filter (· ≠ .done)).length + (if s.main = .idle then 0 else 1)

theorem filter_set (l : List Thread) (i : Nat) (a b : Thread) (h : l[i]? = some a) :
    ((l.set i b).filter (· ≠ .done)).length + (if a ≠ .done then 1 else 0) =
      (l.filter (· ≠ .done)).length + (if b ≠ .done then 1 else 0) := by
  induction l generalizing i with
  | nil => simp at h
  | cons x xs ih =>
    cases i with
    | zero =>
      simp only [List.getElem?_cons_zero, Option.some.injEq] at h
      subst h
      simp only [List.set_cons_zero]
      cases x <;> cases b <;> simp
    | succ i =>
      simp only [List.getElem?_cons_succ] at h
      have := ih i h
      simp only [List.set_cons_succ]
      cases x <;> simp only [List.filter_cons, ne_eq, reduceCtorEq, not_false_eq_true, decide_true, if_true,
        not_true, decide_false, List.length_cons, Bool.false_eq_true, if_false] at this ⊢ <;> omega

/-- Conservation: free slots and verifications in progress add up to the limit. -/
theorem conserved {s : State} {es : List Event} (h : Steps init es s) : s.sem + inProgress s = VERIFY_LIMIT := by
  induction h with
  | nil => rfl
  | snoc _ hstep ih =>
    cases hstep with
    | begin h1 h2 => simp [inProgress, h1] at ih ⊢; omega
    | refused => exact ih
    | created h1 => simp [inProgress, h1] at ih ⊢; omega
    | createFailed h1 => simp [inProgress, h1] at ih ⊢; omega
    | failPost h1 => simp [inProgress, h1] at ih ⊢; omega
    | ended h1 =>
      have := filter_set _ _ _ .enqueue h1
      simp only [inProgress] at ih ⊢
      simp only [ne_eq, reduceCtorEq, not_false_eq_true, if_true] at this
      rw [← ih]
      simp only [ne_eq] at this ⊢
      omega
    | enqueued h1 =>
      have := filter_set _ _ _ .post h1
      simp only [inProgress] at ih ⊢
      simp only [ne_eq, reduceCtorEq, not_false_eq_true, if_true] at this
      rw [← ih]
      simp only [ne_eq] at this ⊢
      omega
    | posted h1 =>
      have := filter_set _ _ _ .done h1
      simp only [inProgress] at ih ⊢
      simp only [ne_eq, reduceCtorEq, not_false_eq_true, if_true, not_true, if_false] at this
      rw [← ih]
      simp only [ne_eq] at this ⊢
      omega

theorem running_le (s : State) : running s ≤ inProgress s := by
  unfold running inProgress
  have : s.threads.count .exec ≤ (s.threads.filter (· ≠ .done)).length := by
    generalize s.threads = l
    induction l with
    | nil => simp
    | cons x xs ih => cases x <;> simp at ih ⊢ <;> omega
  omega

/-- C56: in no interleaving do more than 32 verification commands run at the same time. -/
theorem C56_limit {s : State} {es : List Event} (h : Steps init es s) : running s ≤ 32 := by
  have h1 := conserved h
  have h2 := running_le s
  simp only [VERIFY_LIMIT] at h1
  omega

/-- C56: a verification is refused only if 32 verifications are in progress; as soon as fewer are, the next one
can begin. -/
theorem C56_refused {s : State} {es : List Event} (h : Steps init es s) (hm : s.main = .idle) :
    (Step s .refused s ↔ inProgress s = 32) ∧ ((∃ s', Step s .begin s') ↔ inProgress s < 32) := by
  have h1 := conserved h
  simp only [VERIFY_LIMIT] at h1
  constructor
  · constructor
    · rintro (_ | _ | _)
      omega
    · intro hi; exact .refused hm (by omega)
  · constructor
    · rintro ⟨s', hs⟩; cases hs; omega
    · intro hi; exact ⟨_, .begin hm (by omega)⟩

/-- C56: every verification in progress can always proceed to return its slot: a thread which is not done can take
a step, and after its last step one more slot is free. -/
theorem C56_release {s : State} {i : Nat} {t : Thread} (hi : s.threads[i]? = some t) (ht : t ≠ .done) :
    ∃ es s', Steps s es s' ∧ s'.threads[i]? = some .done ∧ s'.sem = s.sem + 1 ∧
      inProgress s' + 1 = inProgress s := by
  have hlt : i < s.threads.length := by
    rw [List.getElem?_eq_some_iff] at hi; exact hi.1
  have key : ∀ s : State, s.threads[i]? = some .post → i < s.threads.length →
      ∃ s', Step s .posted s' ∧ s'.threads[i]? = some .done ∧ s'.sem = s.sem + 1 ∧
        inProgress s' + 1 = inProgress s := by
    intro s h hl
    refine ⟨_, .posted h, by simp [hl], rfl, ?_⟩
    have := filter_set _ _ _ .done h
    simp only [inProgress]
    simp only [ne_eq, reduceCtorEq, not_false_eq_true, if_true, not_true, if_false] at this ⊢
    omega
  have key2 : ∀ s : State, s.threads[i]? = some .enqueue → i < s.threads.length →
      ∃ es s', Steps s es s' ∧ s'.threads[i]? = some .done ∧ s'.sem = s.sem + 1 ∧
        inProgress s' + 1 = inProgress s := by
    intro s h hl
    have hs := Step.enqueued h
    have hf := filter_set _ _ _ .post h
    generalize hs1 : ({ s with threads := s.threads.set i .post } : State) = s1 at hs
    obtain ⟨s', h1, h2, h3, h4⟩ := key s1 (by rw [← hs1]; simp [hl]) (by rw [← hs1]; simp [hl])
    refine ⟨_, s', .snoc (.snoc .nil hs) h1, h2, by rw [h3, ← hs1], ?_⟩
    rw [h4, ← hs1]
    simp only [inProgress]
    simp only [ne_eq, reduceCtorEq, not_false_eq_true, if_true] at hf ⊢
    omega
  cases t with
  | done => exact absurd rfl ht
  | post =>
    obtain ⟨s', h1, h2⟩ := key s hi hlt
    exact ⟨_, s', .snoc .nil h1, h2⟩
  | enqueue => exact key2 s hi hlt
  | exec =>
    have hs := Step.ended hi
    have hf := filter_set _ _ _ .enqueue hi
    generalize hs1 : ({ s with threads := s.threads.set i .enqueue } : State) = s1 at hs
    obtain ⟨es, s', h1, h2, h3, h4⟩ := key2 s1 (by rw [← hs1]; simp [hlt]) (by rw [← hs1]; simp [hlt])
    have hcons : ∀ {es s'}, Steps s1 es s' → ∃ es', Steps s es' s' := by
      intro es s' h
      induction h with
      | nil => exact ⟨_, .snoc .nil hs⟩
      | snoc _ h ih => obtain ⟨es', he⟩ := ih; exact ⟨_, .snoc he h⟩
    obtain ⟨es', h5⟩ := hcons h1
    refine ⟨es', s', h5, h2, by rw [h3, ← hs1], ?_⟩
    rw [h4, ← hs1]
    simp only [inProgress]
    simp only [ne_eq, reduceCtorEq, not_false_eq_true, if_true] at hf ⊢
    omega

/-- C56: whatever has happened, when no verification is in progress all slots are free. -/
theorem C56_all_free {s : State} {es : List Event} (h : Steps init es s) (hm : s.main = .idle)
    (ht : ∀ t ∈ s.threads, t = .done) : s.sem = 32 := by
  have h1 := conserved h
  have h2 : s.threads.filter (· ≠ .done) = [] := by
    rw [List.filter_eq_nil_iff]
    intro t htm
    simp [ht t htm]
  simp only [inProgress, h2, hm, VERIFY_LIMIT] at h1
  simpa using h1

/-! ## Example: two verifications, the second thread can not be created. -/

example : ∃ s, Steps init [.begin, .created, .begin, .createFailed, .ended, .failPost, .enqueued, .posted] s ∧
    s.sem = 32 ∧ s.threads = [.done] :=
  ⟨⟨32, .idle, [.done]⟩, .snoc (.snoc (.snoc (.snoc (.snoc (.snoc (.snoc (.snoc .nil
    (.begin rfl (by decide))) (.created rfl)) (.begin rfl (by decide))) (.createFailed rfl)) (.ended (i := 0) rfl))
    (.failPost rfl)) (.enqueued (i := 0) rfl)) (.posted (i := 0) rfl), rfl, rfl⟩

end Fastd.Daemon.Verify
