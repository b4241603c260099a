import Verif.Task.TasksLemmas

/-!
# Task queue: C12, C13, C14
-/

namespace Fastd.Task
open Spec

/-! ### C12 -/

/-- **C12**: after any sequence of operations the queue contains exactly the scheduled and not unscheduled
tasks with their due times, and its head is one with the earliest due time; the only way to abort is to
schedule a task that already is in the queue. Holds for both evaluation orders in `pqueue_merge_pairs`. -/
theorem C12_queue (rl : Bool) (ops : List Op) (fuel : Nat) (hf : ops.length ≤ fuel) :
    match steps empty ops with
    | none => runOps rl fuel Mem.empty ops = .error .bug
    | some q => ∃ m, runOps rl fuel Mem.empty ops = .ok m ∧
        (∀ e, (m.pprev e).isSome ↔ (q e).isSome) ∧
        (∀ e v, q e = some v → m.value e = v) ∧
        (m.ptr .root = none ↔ ∀ e, q e = none) ∧
        (∀ e, m.ptr .root = some e → First q e) := by
  have h := runOps_abs rl ops abs_empty (fuel := fuel) (by simpa [Forest.ids] using hf)
  cases hs : steps empty ops with
  | none => rw [hs] at h; exact h
  | some q =>
    rw [hs] at h
    obtain ⟨m, f, he, ha, _⟩ := h
    have hr := abs_root ha
    exact ⟨m, he, fun e => (rep_linked ha.1 e).trans (abs_mem ha e), fun e v hq => (abs_val ha hq).2, hr.1,
      fun e h => (hr.2 e h).1⟩

-- five tasks, one removed from the middle of the heap, then the head
example : (runOps false 9 Mem.empty [.schedule 1 50, .schedule 2 30, .schedule 3 40, .schedule 4 20, .schedule 5 60,
    .unschedule 2, .unschedule 4]).toOption.map (fun m => (m.ptr .root, m.value 3, m.pprev 2)) =
    some (some 3, 40, none) := by decide +kernel
example : (runOps false 9 Mem.empty [.schedule 1 50, .schedule 2 30, .schedule 1 40]).toOption.isNone := by decide +kernel

/-! ### C13 -/

/-- The pointer variables of the queue: its root and the fields of linked elements. -/
def inQueue (m : Mem) : Slot → Prop
  | .root => True
  | .next e => (m.pprev e).isSome
  | .child e => (m.pprev e).isSome

/-- Elements that can be reached by following pointers. -/
inductive Reachable (m : Mem) : Nat → Prop
  | root {e} : m.ptr .root = some e → Reachable m e
  | next {e n} : Reachable m e → m.ptr (.next e) = some n → Reachable m n
  | child {e n} : Reachable m e → m.ptr (.child e) = some n → Reachable m n

/-- All links are mutually consistent. -/
structure Consistent (m : Mem) : Prop where
  /-- the variable an element claims to be pointed to by does point to it -/
  back : ∀ e s, m.pprev e = some s → m.ptr s = some e
  /-- an element that is pointed to knows the variable that points to it -/
  fwd : ∀ s e, m.ptr s = some e → inQueue m s → m.pprev e = some s
  /-- elements that are not in the queue have no links at all -/
  unlinked : ∀ e, m.pprev e = none → m.ptr (.next e) = none ∧ m.ptr (.child e) = none
  /-- the elements of the queue are those reachable from the root -/
  reach : ∀ e, (m.pprev e).isSome ↔ Reachable m e
  /-- the root has no siblings -/
  single : ∀ e, m.ptr .root = some e → m.ptr (.next e) = none
  /-- no element has a smaller value than its parent -/
  order : ∀ e c, (m.pprev e).isSome → m.ptr (.child e) = some c → m.value e ≤ m.value c

theorem seg_consistent {m : Mem} {s : Slot} {f : Forest} (h : seg m s f) :
    (∀ e ∈ f.ids, ∃ t, m.pprev e = some t ∧ m.ptr t = some e) ∧
    (∀ t, (t = s ∨ ∃ y ∈ f.ids, owned t y) → ∀ e, m.ptr t = some e → e ∈ f.ids ∧ m.pprev e = some t) := by
  induction f generalizing s with
  | nil =>
    refine ⟨fun e he => (by cases he), fun t ht e he => ?_⟩
    rcases ht with rfl | ⟨y, hy, _⟩
    · rw [show m.ptr t = none from h] at he; cases he
    · cases hy
  | cons e c r ihc ihr =>
    obtain ⟨h1, h2, h3, h4⟩ := h
    obtain ⟨c1, c2⟩ := ihc h3
    obtain ⟨r1, r2⟩ := ihr h4
    constructor
    · intro x hx
      simp only [Forest.ids, List.mem_cons, List.mem_append] at hx
      rcases hx with rfl | hx | hx
      · exact ⟨s, h2, h1⟩
      · exact c1 x hx
      · exact r1 x hx
    · intro t ht x hx
      simp only [Forest.ids, List.mem_cons, List.mem_append] at ht ⊢
      have cc : ∀ t, (t = .child e ∨ ∃ y ∈ c.ids, owned t y) → m.ptr t = some x → (x = e ∨ x ∈ c.ids ∨ x ∈ r.ids) ∧ m.pprev x = some t :=
        fun t ht hx => ⟨.inr (.inl (c2 t ht x hx).1), (c2 t ht x hx).2⟩
      have rr : ∀ t, (t = .next e ∨ ∃ y ∈ r.ids, owned t y) → m.ptr t = some x → (x = e ∨ x ∈ c.ids ∨ x ∈ r.ids) ∧ m.pprev x = some t :=
        fun t ht hx => ⟨.inr (.inr (r2 t ht x hx).1), (r2 t ht x hx).2⟩
      rcases ht with rfl | ⟨y, rfl | hy | hy, ho⟩
      · rw [h1] at hx; injection hx with hx; subst hx
        exact ⟨.inl rfl, h2⟩
      · rcases ho with rfl | rfl
        · exact rr _ (.inl rfl) hx
        · exact cc _ (.inl rfl) hx
      · exact cc t (.inr ⟨y, hy, ho⟩) hx
      · exact rr t (.inr ⟨y, hy, ho⟩) hx

theorem seg_order {m : Mem} {s : Slot} {f : Forest} {lb : Int} (h : seg m s f) (ho : f.ordered m.value lb) :
    ∀ e ∈ f.ids, ∀ c, m.ptr (.child e) = some c → m.value e ≤ m.value c := by
  induction f generalizing s lb with
  | nil => intro e he; cases he
  | cons e c r ihc ihr =>
    obtain ⟨h1, h2, h3, h4⟩ := h
    obtain ⟨o1, o2, o3⟩ := ho
    intro x hx y hy
    simp only [Forest.ids, List.mem_cons, List.mem_append] at hx
    rcases hx with rfl | hx | hx
    · exact ordered_ge o2 y ((seg_consistent h3).2 _ (.inl rfl) y hy).1
    · exact ihc h3 o2 x hx y hy
    · exact ihr h4 o3 x hx y hy

theorem seg_reachable {m : Mem} {s : Slot} {f : Forest} (h : seg m s f) (hs : ∀ e, m.ptr s = some e → Reachable m e) :
    ∀ e ∈ f.ids, Reachable m e := by
  induction f generalizing s with
  | nil => intro e he; cases he
  | cons e c r ihc ihr =>
    obtain ⟨h1, h2, h3, h4⟩ := h
    have he := hs e h1
    intro x hx
    simp only [Forest.ids, List.mem_cons, List.mem_append] at hx
    rcases hx with rfl | hx | hx
    · exact he
    · exact ihc h3 (fun y hy => .child he hy) x hx
    · exact ihr h4 (fun y hy => .next he hy) x hx

theorem rep_consistent {m : Mem} {f : Forest} (h : Rep m f) : Consistent m := by
  obtain ⟨c1, c2⟩ := seg_consistent h.seg
  have hl := rep_linked h
  have hin : ∀ s, inQueue m s → s = .root ∨ ∃ y ∈ f.ids, owned s y := by
    intro s hs
    cases s with
    | root => exact .inl rfl
    | next e => exact .inr ⟨e, (hl e).1 hs, .inl rfl⟩
    | child e => exact .inr ⟨e, (hl e).1 hs, .inr rfl⟩
  refine ⟨?_, fun s e hp hs => (c2 s (hin s hs) e hp).2, ?_, ?_, ?_, ?_⟩
  · intro e s hp
    obtain ⟨t, ht, hx⟩ := c1 e ((hl e).1 (by simp [hp]))
    rw [hp] at ht; injection ht with ht; subst ht
    exact hx
  · intro e he
    exact (h.out e (fun hm => by have := (hl e).2 hm; rw [he] at this; cases this)).2
  · intro e
    constructor
    · intro he
      exact seg_reachable h.seg (fun x hx => .root hx) e ((hl e).1 he)
    · intro he
      induction he with
      | root hp => exact (hl _).2 (c2 _ (.inl rfl) _ hp).1
      | @next x n _ hp ih => exact (hl _).2 (c2 _ (hin (.next x) ih) _ hp).1
      | @child x n _ hp ih => exact (hl _).2 (c2 _ (hin (.child x) ih) _ hp).1
  · intro e he
    have h1 := h.one
    cases f with
    | nil => rw [show m.ptr .root = none from h.seg] at he; cases he
    | cons x c r =>
      cases r with
      | cons => simp [Forest.width] at h1
      | nil =>
        rw [h.seg.1] at he; injection he with he; subst he
        exact h.seg.2.2.2
  · obtain ⟨lb, ho⟩ := h.ord
    exact fun e c he hc => seg_order h.seg ho e ((hl e).1 he) c hc

/-- **C13**: after any sequence of operations all links are consistent; no operation runs into one of the
corruption checks (except the one for scheduling a task twice), dereferences a null pointer or recurses
deeper than the number of elements. -/
theorem C13_links (rl : Bool) (ops : List Op) (fuel : Nat) (hf : ops.length ≤ fuel) :
    match runOps rl fuel Mem.empty ops with
    | .ok m => Consistent m
    | .error d => d = .bug ∧ steps empty ops = none := by
  have h := runOps_abs rl ops abs_empty (fuel := fuel) (by simpa [Forest.ids] using hf)
  cases hs : steps empty ops with
  | none => rw [hs] at h; simp only [] at h; rw [h]; exact ⟨rfl, rfl⟩
  | some q =>
    rw [hs] at h
    obtain ⟨m, f, he, ha, _⟩ := h
    rw [he]
    exact rep_consistent ha.1

/-- After any such sequence every element, wherever it is in the heap, can be unlinked, and an element not
in the queue can be removed without effect. -/
theorem C13_unlink (rl : Bool) (ops : List Op) (fuel : Nat) (hf : ops.length ≤ fuel) (m : Mem)
    (h : runOps rl fuel Mem.empty ops = .ok m) (e : Nat) :
    ∃ m', remove rl fuel m e = .ok m' ∧ m'.pprev e = none ∧
      (∀ x, x ≠ e → ((m'.pprev x).isSome ↔ (m.pprev x).isSome)) ∧ m'.value = m.value := by
  have h1 := runOps_abs rl ops abs_empty (fuel := fuel) (by simpa [Forest.ids] using hf)
  cases hs : steps empty ops with
  | none => rw [hs] at h1; simp only [] at h1; rw [h1] at h; cases h
  | some q =>
    rw [hs] at h1
    obtain ⟨m1, f, he, ha, hl⟩ := h1
    rw [he] at h; injection h with h; subst h
    obtain ⟨m', f', he', ha', _, hv⟩ := abs_remove rl ha e (fuel := fuel) (by simp [Forest.ids] at hl; omega)
    refine ⟨m', he', ?_, fun x hx => ?_, hv⟩
    · have := (rep_linked ha'.1 e).trans (abs_mem ha' e)
      simp [Queue.set] at this
      exact this
    · have h2 := (rep_linked ha'.1 x).trans (abs_mem ha' x)
      have h3 := (rep_linked ha.1 x).trans (abs_mem ha x)
      rw [h2, h3]
      simp [Queue.set, hx]

-- a corrupted memory is not consistent
example : ¬ Consistent { Mem.empty with ptr := fun s => if s = .root then some 1 else none } := by
  intro h
  have := h.fwd .root 1 (by simp) trivial
  simp [Mem.empty] at this

/-! ### C14 -/

/-- The memories of the task queue that can arise with tasks below `n`, together with the queue they hold. -/
inductive Reach (rl : Bool) (qfuel n : Nat) : Mem → Queue → Prop
  | start : Reach rl qfuel n Mem.empty empty
  | op {m q o m' q'} : Reach rl qfuel n m q → opBelow n o → o.exec rl qfuel m = .ok m' → step q o = some q' →
      Reach rl qfuel n m' q'

theorem reach_below {rl : Bool} {qfuel n : Nat} {m : Mem} {q : Queue} (h : Reach rl qfuel n m q) :
    ∀ e, (q e).isSome → e < n := by
  induction h with
  | start => intro e he; cases he
  | op _ ho _ hs ih => exact step_below ih ho hs

theorem reach_abs {rl : Bool} {qfuel n : Nat} (hn : n ≤ qfuel) {m : Mem} {q : Queue} (h : Reach rl qfuel n m q) :
    ∃ f, Abs m q f := by
  induction h with
  | start => exact ⟨_, abs_empty⟩
  | @op m q o m' q' hr ho he hs ih =>
    obtain ⟨f, ha⟩ := ih
    have := runOps_below rl hn [o] ha (reach_below hr) (by simpa using ho)
    simp only [steps, runOps, hs, Option.bind, he, bind, Except.bind] at this
    obtain ⟨m1, f1, h1, h2⟩ := this
    injection h1 with h1; subst h1
    exact ⟨f1, h2⟩

theorem reach_ops {rl : Bool} {qfuel n : Nat} {ops : List Op} {m m' : Mem} {q q' : Queue} (h : Reach rl qfuel n m q)
    (ho : ∀ o ∈ ops, opBelow n o) (he : runOps rl qfuel m ops = .ok m') (hs : steps q ops = some q') :
    Reach rl qfuel n m' q' := by
  induction ops generalizing m q with
  | nil =>
    simp only [runOps, steps, Except.ok.injEq, Option.some.injEq] at he hs
    subst he; subst hs; exact h
  | cons o os ih =>
    simp only [steps, runOps] at he hs
    cases hs1 : step q o with
    | none => rw [hs1] at hs; cases hs
    | some q1 =>
      cases he1 : o.exec rl qfuel m with
      | error d => rw [he1] at he; cases he
      | ok m1 =>
        rw [hs1] at hs; rw [he1] at he
        exact ih (.op h (ho o (by simp)) he1 hs1) (fun o ho' => ho o (by simp [ho'])) he hs

theorem handle_reach {σ : Type} (rl : Bool) {n qfuel : Nat} (hn : n ≤ qfuel) {hd : Handler σ} {now : Int}
    (hh : ∀ st e v, e < n → ∀ o ∈ (hd st e v).2, opBelow n o) (lf : Nat) {st st' : σ} {m m' : Mem} {q : Queue}
    {log : List Ran} (h : Reach rl qfuel n m q) (hr : taskHandle rl qfuel hd now lf st m = .ok (st', m', log)) :
    ∃ q', Reach rl qfuel n m' q' ∧ Runs now q log q' := by
  induction lf generalizing st m q log with
  | zero => cases hr
  | succ lf ih =>
    obtain ⟨f, ha⟩ := reach_abs hn h
    have hb := reach_below h
    have hroot := abs_root ha
    unfold taskHandle at hr
    cases hp : m.ptr .root with
    | none =>
      rw [hp] at hr
      simp only [Except.ok.injEq, Prod.mk.injEq] at hr
      obtain ⟨_, rfl, rfl⟩ := hr
      exact ⟨q, h, .done (fun e v he => by rw [hroot.1.1 hp e] at he; cases he)⟩
    | some e =>
      obtain ⟨⟨v0, hv0, hmin⟩, hqe⟩ := hroot.2 e hp
      rw [hqe] at hv0; injection hv0 with hv0; subst hv0
      rw [hp] at hr
      simp only [] at hr
      split at hr
      · rename_i hdue
        have hen := hb e (by simp [hqe])
        obtain ⟨m1, f1, he1, ha1, _, hv1⟩ := abs_remove rl ha e (fuel := qfuel) (by have := below_len ha hb; omega)
        have hr1 : Reach rl qfuel n m1 (q.set e none) := .op (o := .unschedule e) h hen he1 rfl
        have ho1 := runOps_below rl hn (hd st e m1.value).2 ha1 (reach_below hr1) (hh st e m1.value hen)
        simp only [he1, bind, Except.bind] at hr
        cases hst : steps (q.set e none) (hd st e m1.value).2 with
        | none =>
          rw [hst] at ho1
          simp only [] at ho1
          rw [ho1] at hr; cases hr
        | some q2 =>
          rw [hst] at ho1
          obtain ⟨m2, f2, he2, ha2⟩ := ho1
          rw [he2] at hr
          simp only [] at hr
          have hr2 := reach_ops hr1 (hh st e m1.value hen) he2 hst
          cases hc : taskHandle rl qfuel hd now lf (hd st e m1.value).1 m2 with
          | error d => rw [hc] at hr; cases hr
          | ok r =>
            obtain ⟨st2, m3, log2⟩ := r
            rw [hc] at hr
            simp only [pure, Except.pure, Except.ok.injEq, Prod.mk.injEq] at hr
            obtain ⟨rfl, rfl, rfl⟩ := hr
            obtain ⟨q', k1, k2⟩ := ih hr2 hc
            exact ⟨q', k1, .run hqe hdue hmin hst k2⟩
      · rename_i hdue
        simp only [Except.ok.injEq, Prod.mk.injEq] at hr
        obtain ⟨_, rfl, rfl⟩ := hr
        exact ⟨q, h, .done (fun e' v' he' => by have := hmin e' v' he'; omega)⟩

/-- **C14**: handling the tasks is an execution of the specification: as long as a task is due, one with
the earliest due time is taken from the queue and run. -/
theorem C14_handling {σ : Type} (rl : Bool) {n qfuel : Nat} (hn : n ≤ qfuel) {hd : Handler σ} {now : Int}
    (hh : ∀ st e v, e < n → ∀ o ∈ (hd st e v).2, opBelow n o) (lf : Nat) {st st' : σ} {m m' : Mem} {q : Queue}
    {log : List Ran} (h : Reach rl qfuel n m q) (hr : taskHandle rl qfuel hd now lf st m = .ok (st', m', log)) :
    ∃ q', Reach rl qfuel n m' q' ∧ Runs now q log q' :=
  handle_reach rl hn hh lf h hr

/-- Handling never fails (other than by running on for more iterations than the model is given) if no
handler schedules a task that is in the queue. -/
theorem C14_no_abort {σ : Type} (rl : Bool) {n qfuel : Nat} (hn : n ≤ qfuel) {hd : Handler σ} {now : Int}
    (hh : ∀ st e v, e < n → ∀ o ∈ (hd st e v).2, opBelow n o)
    (hok : ∀ st e v (q : Queue), q e = none → (steps q (hd st e v).2).isSome) (lf : Nat) {st : σ} {m : Mem} {q : Queue}
    (h : Reach rl qfuel n m q) :
    (∃ r, taskHandle rl qfuel hd now lf st m = .ok r) ∨ taskHandle rl qfuel hd now lf st m = .error .fuel := by
  obtain ⟨f, ha⟩ := reach_abs hn h
  rcases taskHandle_abs rl hn hh lf ha (reach_below h) (now := now) (st := st) with ⟨st', m', log, _, _, h1, _⟩ | h1 | h1
  · exact .inl ⟨_, h1⟩
  · exact absurd h1 (taskHandle_no_bug rl hn hh hok lf ha (reach_below h))
  · exact .inr h1

/-- No task runs before its due time, and no due task is left when handling has finished. -/
theorem C14_not_early {now : Int} {q q' : Queue} {log : List Ran} (h : Runs now q log q') :
    (∀ r ∈ log, r.due ≤ now) ∧ ∀ e v, q' e = some v → now < v := by
  induction h with
  | done h => exact ⟨by simp, h⟩
  | run _ hd _ _ _ ih =>
    refine ⟨fun r hr => ?_, ih.2⟩
    rcases List.mem_cons.1 hr with rfl | hr
    · exact hd
    · exact ih.1 r hr

/-- A task not touched by the handlers of other tasks is run if it is due, at the time it is scheduled for,
and otherwise stays in the queue unchanged. -/
theorem C14_not_lost {now : Int} {q q' : Queue} {log : List Ran} (h : Runs now q log q') {e : Nat} {v : Int}
    (he : q e = some v) (ht : ∀ r ∈ log, r.task ≠ e → ∀ o ∈ r.ops, ¬ touches e o) :
    (v ≤ now → ∃ r ∈ log, r.task = e ∧ r.due = v) ∧
    (now < v → (∀ r ∈ log, r.task ≠ e) ∧ q' e = some v) := by
  induction h with
  | done h => exact ⟨fun hv => absurd (h e v he) (by omega), fun _ => ⟨by simp, he⟩⟩
  | @run q q1 q2 log x w ops hx hw hmin hs hr ih =>
    by_cases hxe : x = e
    · subst hxe
      rw [he] at hx; injection hx with hx; subst hx
      exact ⟨fun _ => ⟨_, List.mem_cons_self, rfl, rfl⟩, fun h => absurd h (by omega)⟩
    · have h1 : q1 e = some v := by
        rw [steps_untouched hs (ht _ List.mem_cons_self hxe)]
        unfold Queue.set
        rw [if_neg (fun h => hxe h.symm)]; exact he
      obtain ⟨i1, i2⟩ := ih h1 (fun r hr => ht r (List.mem_cons_of_mem _ hr))
      refine ⟨fun hv => ?_, fun hv => ⟨fun r hr => ?_, (i2 hv).2⟩⟩
      · obtain ⟨r, h1, h2⟩ := i1 hv
        exact ⟨r, List.mem_cons_of_mem _ h1, h2⟩
      · rcases List.mem_cons.1 hr with rfl | hr
        · exact hxe
        · exact (i2 hv).1 r hr

/-- Every task that is run was in the queue: it was scheduled before, or by a handler that ran earlier. -/
theorem C14_no_ghost {now : Int} {q q' : Queue} {log : List Ran} (h : Runs now q log q') :
    ∀ pre r post, log = pre ++ r :: post →
      q r.task = some r.due ∨ ∃ p ∈ pre, Op.schedule r.task r.due ∈ p.ops := by
  induction h with
  | done h => intro pre r post h; simp at h
  | @run q q1 q2 log x w ops hx hw hmin hs hr ih =>
    have key : ∀ ops (q q1 : Queue), steps q ops = some q1 → ∀ e v, q1 e = some v → q e = some v ∨ Op.schedule e v ∈ ops := by
      intro ops
      induction ops with
      | nil => intro q q1 h e v he; simp only [steps, Option.some.injEq] at h; subst h; exact .inl he
      | cons o os ih =>
        intro q q1 h e v he
        simp only [steps] at h
        cases hs : step q o with
        | none => rw [hs] at h; cases h
        | some q0 =>
          rw [hs] at h
          rcases ih q0 q1 h e v he with h0 | h0
          · cases o with
            | schedule y u =>
              simp only [step] at hs
              split at hs
              · cases hs
              · injection hs with hs; subst hs
                unfold Queue.set at h0
                split at h0
                · subst e; injection h0 with h0; subst h0; exact .inr (by simp)
                · exact .inl h0
            | unschedule y =>
              simp only [step] at hs
              injection hs with hs; subst hs
              unfold Queue.set at h0
              split at h0
              · cases h0
              · exact .inl h0
          · exact .inr (by simp [h0])
    intro pre r post hl
    cases pre with
    | nil =>
      simp only [List.nil_append, List.cons.injEq] at hl
      obtain ⟨rfl, _⟩ := hl
      exact .inl hx
    | cons p pre =>
      simp only [List.cons_append, List.cons.injEq] at hl
      obtain ⟨rfl, hl⟩ := hl
      rcases ih pre r post hl with h1 | ⟨p, hp, h1⟩
      · rcases key ops _ _ hs _ _ h1 with h2 | h2
        · unfold Queue.set at h2
          split at h2
          · cases h2
          · exact .inl h2
        · exact .inr ⟨_, List.mem_cons_self, h2⟩
      · exact .inr ⟨p, List.mem_cons_of_mem _ hp, h1⟩

/-- If handlers do not schedule tasks for times before the task being handled was due, tasks run in
non-decreasing order of their due times. -/
theorem C14_in_order {now : Int} {q q' : Queue} {log : List Ran} (h : Runs now q log q')
    (ho : ∀ r ∈ log, ∀ e v, Op.schedule e v ∈ r.ops → r.due ≤ v) : log.Pairwise (fun a b => a.due ≤ b.due) := by
  have lower : ∀ {now : Int} {q q' : Queue} {log : List Ran}, Runs now q log q' → ∀ lb : Int,
      (∀ e v, q e = some v → lb ≤ v) → (∀ r ∈ log, ∀ e v, Op.schedule e v ∈ r.ops → r.due ≤ v) →
      ∀ r ∈ log, lb ≤ r.due := by
    intro now q q' log h lb hlb ho r hr
    have : ∀ pre post, log = pre ++ r :: post → lb ≤ r.due := by
      intro pre
      induction hn : pre.length using Nat.strongRecOn generalizing pre r with
      | ind k ih =>
        intro post hl
        rcases C14_no_ghost h pre r post hl with h1 | ⟨p, hp, h1⟩
        · exact hlb _ _ h1
        · obtain ⟨a, b, rfl⟩ := List.append_of_mem hp
          have hpl : p ∈ log := by rw [hl]; simp
          have h2 := ho p hpl _ _ h1
          have h3 := ih a.length (by subst hn; simp) p hpl a rfl (b ++ r :: post) (by rw [hl]; simp)
          omega
    obtain ⟨a, b, hab⟩ := List.append_of_mem hr
    exact this a b hab
  induction h with
  | done => exact List.Pairwise.nil
  | @run q q1 q2 log x w ops hx hw hmin hs hr ih =>
    refine List.Pairwise.cons ?_ (ih (fun r hr => ho r (List.mem_cons_of_mem _ hr)))
    have hfull : Runs _ q (⟨x, w, ops⟩ :: log) q2 := .run hx hw hmin hs hr
    intro r hr'
    exact lower hfull w hmin ho r (List.mem_cons_of_mem _ hr')

/-- The poll timeout: after the due tasks have been handled, fastd waits without a limit only if no task is
scheduled, and never beyond the due time of any task. (Due times are below `FASTD_TIMEOUT_INV`, see
src/peer.c:236-241; `int` overflows only make it wake up too early.) -/
theorem C14_poll {rl : Bool} {qfuel n : Nat} (hn : n ≤ qfuel) {m : Mem} {q : Queue} (h : Reach rl qfuel n m q)
    {now : Int} (hnow : ∀ e v, q e = some v → now < v) (hinv : ∀ e v, q e = some v → v < timeoutInv) :
    (taskTimeout m now = -1 ↔ ∀ e, q e = none) ∧
    (taskTimeout m now ≠ -1 → 0 ≤ taskTimeout m now ∧ ∀ e v, q e = some v → now + taskTimeout m now ≤ v) ∧
    (∀ e v, q e = some v → v - now < 2 ^ 31 → ∃ e' v', q e' = some v' ∧ taskTimeout m now = v' - now) := by
  obtain ⟨f, ha⟩ := reach_abs hn h
  obtain ⟨h1, h2⟩ := abs_root ha
  cases hp : m.ptr .root with
  | none =>
    have h0 := h1.1 hp
    have : taskTimeout m now = -1 := by simp [taskTimeout, queueTimeout, hp]
    refine ⟨⟨fun _ => h0, fun _ => this⟩, fun h => absurd this h, fun e v he => by rw [h0 e] at he; cases he⟩
  | some x =>
    obtain ⟨⟨v0, hv0, hmin⟩, hqx⟩ := h2 x hp
    rw [hqx] at hv0; injection hv0 with hv0; subst hv0
    have hlt := hnow x _ hqx
    have hne := hinv x _ hqx
    have hT : taskTimeout m now = if toInt32 (m.value x - now) < 0 then 0 else toInt32 (m.value x - now) := by
      unfold taskTimeout queueTimeout
      rw [hp]
      simp only []
      rw [if_neg (by omega)]
    have hw : toInt32 (m.value x - now) ≤ m.value x - now := by unfold toInt32; omega
    have hge : 0 ≤ taskTimeout m now ∧ taskTimeout m now ≤ m.value x - now := by
      rw [hT]; split <;> omega
    refine ⟨⟨fun h => by omega, fun h => by rw [h x] at hqx; cases hqx⟩, fun _ => ⟨hge.1, fun e v he => ?_⟩,
      fun e v he hv => ⟨x, _, hqx, ?_⟩⟩
    · have := hmin e v he; omega
    · have := hmin e v he
      have hw' : toInt32 (m.value x - now) = m.value x - now := by unfold toInt32; omega
      rw [hT, hw', if_neg (by omega)]

/-- A handler for the examples: task 0 is repeated after 10, task 1 schedules task 2 for 25, others do nothing. -/
def exHandler : Handler Unit := fun st e v =>
  (st, if e = 0 then [.schedule 0 (v 0 + 10)] else if e = 1 then [.unschedule 2, .schedule 2 25] else [])

-- at time 30, task 0 (due 5) runs at 5, 15 and 25, task 1 at 20; task 2 is moved from 40 to 25; task 3 stays
example : ((runOps true 4 Mem.empty [.schedule 0 5, .schedule 1 20, .schedule 2 40, .schedule 3 31]).toOption.bind
    (fun m => (taskHandle true 4 exHandler 30 10 () m).toOption)).map
      (fun r => (r.2.2.map (fun x => (x.task, x.due)), r.2.1.ptr .root, taskTimeout r.2.1 30)) =
    some ([(0, 5), (0, 15), (1, 20), (0, 25), (2, 25)], some 3, 1) := by decide +kernel

end Fastd.Task
