import Verif.Task.PQueueLemmas
import Verif.Spec.Task
import Mathlib.Data.List.Perm.Subperm

namespace Fastd.Task
open Forest Spec

/-- The memory holds exactly the queue `q`, with at most `n` elements. -/
def Abs (m : Mem) (q : Queue) (f : Forest) : Prop :=
  Rep m f ∧ ∀ e, q e = if e ∈ f.ids then some (m.value e) else none

theorem abs_empty : Abs Mem.empty Spec.empty nil := ⟨rep_empty, fun _ => by simp [Spec.empty, ids]⟩

theorem abs_mem {m : Mem} {q : Queue} {f : Forest} (h : Abs m q f) (e : Nat) : e ∈ f.ids ↔ (q e).isSome := by
  rw [h.2 e]; split <;> simp_all

theorem abs_val {m : Mem} {q : Queue} {f : Forest} (h : Abs m q f) {e : Nat} {v : Int} (hq : q e = some v) :
    e ∈ f.ids ∧ m.value e = v := by
  rw [h.2 e] at hq
  split at hq
  · exact ⟨by assumption, by simpa using hq⟩
  · cases hq

theorem abs_remove (rl : Bool) {fuel : Nat} {m : Mem} {q : Queue} {f : Forest} (h : Abs m q f) (e : Nat)
    (hf : f.ids.length ≤ fuel) :
    ∃ m' f', remove rl fuel m e = .ok m' ∧ Abs m' (q.set e none) f' ∧ f'.ids.length ≤ f.ids.length ∧
      m'.value = m.value := by
  obtain ⟨m', he, hr, hv⟩ := remove_rep rl h.1 e hf
  refine ⟨m', _, he, ⟨hr, fun x => ?_⟩, ?_, hv⟩
  · rw [hv]
    unfold Queue.set
    by_cases hx : x = e
    · subst hx
      rw [if_pos rfl]
      by_cases hm : x ∈ f.ids
      · have := (removeF_perm m.value h.1.nodup hm).nodup_iff.2 h.1.nodup
        rw [if_neg (List.nodup_cons.1 this).1]
      · rw [removeF_notMem hm, if_neg hm]
    · rw [if_neg hx, h.2 x]
      by_cases hm : e ∈ f.ids
      · have hp := (removeF_perm m.value h.1.nodup hm).mem_iff (a := x)
        simp only [List.mem_cons, hx, false_or] at hp
        simp only [hp]
      · rw [removeF_notMem hm]
  · by_cases hm : e ∈ f.ids
    · have := (removeF_perm m.value h.1.nodup hm).length_eq
      simp at this; omega
    · rw [removeF_notMem hm]; exact Nat.le_refl _

theorem abs_schedule {m : Mem} {q : Queue} {f : Forest} (h : Abs m q f) (e : Nat) (v : Int) :
    match step q (.schedule e v) with
    | none => reschedule m e v = .error .bug
    | some q' => ∃ m' f', reschedule m e v = .ok m' ∧ Abs m' q' f' ∧ f'.ids.length = f.ids.length + 1 := by
  simp only [step]
  by_cases hm : e ∈ f.ids
  · rw [if_pos ((abs_mem h e).1 hm)]
    exact insert_linked h.1 e v hm
  · rw [if_neg (fun h' => hm ((abs_mem h e).2 h'))]
    obtain ⟨m', f', he, hr, hp, hv⟩ := insert_rep h.1 e v hm
    refine ⟨m', f', he, ⟨hr, fun x => ?_⟩, by simpa using hp.length_eq⟩
    unfold Queue.set
    have := hp.mem_iff (a := x)
    simp only [List.mem_cons] at this
    rw [hv]
    by_cases hx : x = e
    · subst hx; simp [this]
    · simp only [this, hx, false_or, if_false]
      exact h.2 x

/-- As long as the queue can not outgrow the fuel, operations behave as specified. -/
theorem runOps_abs (rl : Bool) {fuel : Nat} (ops : List Op) {m : Mem} {q : Queue} {f : Forest} (h : Abs m q f)
    (hf : f.ids.length + ops.length ≤ fuel) :
    match steps q ops with
    | none => runOps rl fuel m ops = .error .bug
    | some q' => ∃ m' f', runOps rl fuel m ops = .ok m' ∧ Abs m' q' f' ∧ f'.ids.length ≤ f.ids.length + ops.length := by
  induction ops generalizing m q f with
  | nil => exact ⟨m, f, rfl, h, by simp⟩
  | cons o os ih =>
    simp only [List.length_cons] at hf ⊢
    cases o with
    | schedule e v =>
      have hs := abs_schedule h e v
      simp only [steps, runOps, Op.exec]
      cases hst : step q (.schedule e v) with
      | none => rw [hst] at hs; simp only [] at hs; simp [hs, bind, Except.bind]
      | some q' =>
        rw [hst] at hs
        obtain ⟨m', f', he, ha, hl⟩ := hs
        have := ih ha (by omega)
        simp only [Option.bind, he, bind, Except.bind]
        cases hss : steps q' os with
        | none => rw [hss] at this; exact this
        | some q'' =>
          rw [hss] at this
          obtain ⟨m'', f'', h1, h2, h3⟩ := this
          exact ⟨m'', f'', h1, h2, by omega⟩
    | unschedule e =>
      obtain ⟨m', f', he, ha, hl, _⟩ := abs_remove rl h e (fuel := fuel) (by omega)
      have := ih ha (by omega)
      simp only [steps, step, Option.bind, runOps, Op.exec, he, bind, Except.bind]
      cases hss : steps (q.set e none) os with
      | none => rw [hss] at this; exact this
      | some q'' =>
        rw [hss] at this
        obtain ⟨m'', f'', h1, h2, h3⟩ := this
        exact ⟨m'', f'', h1, h2, by omega⟩

/-! ### A fixed set of tasks -/

theorem length_le_of_lt {l : List Nat} {n : Nat} (hn : l.Nodup) (h : ∀ x ∈ l, x < n) : l.length ≤ n := by
  have : List.Subperm l (List.range n) := List.subperm_of_subset hn (fun x hx => List.mem_range.2 (h x hx))
  simpa using this.length_le

/-- All tasks concerned are below `n`. -/
def opBelow (n : Nat) : Op → Prop
  | .schedule e _ => e < n
  | .unschedule e => e < n

theorem below_len {m : Mem} {q : Queue} {f : Forest} {n : Nat} (h : Abs m q f) (hb : ∀ e, (q e).isSome → e < n) :
    f.ids.length ≤ n :=
  length_le_of_lt h.1.nodup (fun x hx => hb x ((abs_mem h x).1 hx))

theorem step_below {q q' : Queue} {n : Nat} {o : Op} (hb : ∀ e, (q e).isSome → e < n) (ho : opBelow n o)
    (h : step q o = some q') : ∀ e, (q' e).isSome → e < n := by
  intro e he
  cases o with
  | schedule x v =>
    simp only [step] at h
    split at h
    · cases h
    · injection h with h; subst h
      unfold Queue.set at he
      split at he
      · subst e; exact ho
      · exact hb e he
  | unschedule x =>
    simp only [step] at h
    injection h with h; subst h
    unfold Queue.set at he
    split at he
    · cases he
    · exact hb e he

theorem steps_below {n : Nat} {ops : List Op} {q q' : Queue} (hb : ∀ e, (q e).isSome → e < n)
    (ho : ∀ o ∈ ops, opBelow n o) (h : steps q ops = some q') : ∀ e, (q' e).isSome → e < n := by
  induction ops generalizing q with
  | nil => simp only [steps, Option.some.injEq] at h; subst h; exact hb
  | cons o os ih =>
    simp only [steps] at h
    cases hs : step q o with
    | none => rw [hs] at h; cases h
    | some q1 =>
      rw [hs] at h
      exact ih (step_below hb (ho o (by simp)) hs) (fun o ho' => ho o (by simp [ho'])) h

theorem runOps_below (rl : Bool) {n fuel : Nat} (hn : n ≤ fuel) (ops : List Op) {m : Mem} {q : Queue} {f : Forest}
    (h : Abs m q f) (hb : ∀ e, (q e).isSome → e < n) (ho : ∀ o ∈ ops, opBelow n o) :
    match steps q ops with
    | none => runOps rl fuel m ops = .error .bug
    | some q' => ∃ m' f', runOps rl fuel m ops = .ok m' ∧ Abs m' q' f' := by
  induction ops generalizing m q f with
  | nil => exact ⟨m, f, rfl, h⟩
  | cons o os ih =>
    have hlen := below_len h hb
    cases o with
    | schedule e v =>
      have hs := abs_schedule h e v
      simp only [steps, runOps, Op.exec]
      cases hst : step q (.schedule e v) with
      | none => rw [hst] at hs; simp only [] at hs; simp [hs, bind, Except.bind]
      | some q' =>
        rw [hst] at hs
        obtain ⟨m', f', he, ha, hl⟩ := hs
        have := ih ha (step_below hb (ho _ (by simp)) hst) (fun o ho' => ho o (by simp [ho']))
        simp only [Option.bind, he, bind, Except.bind]
        exact this
    | unschedule e =>
      obtain ⟨m', f', he, ha, hl, _⟩ := abs_remove rl h e (fuel := fuel) (by omega)
      have := ih ha (step_below (o := .unschedule e) hb (ho _ (by simp)) rfl) (fun o ho' => ho o (by simp [ho']))
      simp only [steps, step, Option.bind, runOps, Op.exec, he, bind, Except.bind]
      exact this

theorem abs_root {m : Mem} {q : Queue} {f : Forest} (h : Abs m q f) :
    (m.ptr .root = none ↔ ∀ e, q e = none) ∧ ∀ e, m.ptr .root = some e → First q e ∧ q e = some (m.value e) := by
  have hr := rep_root h.1
  cases hp : m.ptr .root with
  | none =>
    rw [hp] at hr
    simp only [] at hr
    refine ⟨⟨fun _ e => ?_, fun _ => rfl⟩, fun e he => by cases he⟩
    rw [h.2 e, hr]; simp
  | some e =>
    rw [hp] at hr
    simp only [] at hr
    have hqe : q e = some (m.value e) := by rw [h.2 e, if_pos hr.1]
    refine ⟨⟨fun h => (by cases h), fun h => ?_⟩, fun e' he => ?_⟩
    · rw [h e] at hqe; cases hqe
    · injection he with he
      subst he
      refine ⟨⟨_, hqe, fun x v hx => ?_⟩, hqe⟩
      obtain ⟨h1, h2⟩ := abs_val h hx
      have := hr.2 x h1
      omega

theorem taskHandle_no_bug {σ : Type} (rl : Bool) {n qfuel : Nat} (hn : n ≤ qfuel) {hd : Handler σ} {now : Int}
    (hh : ∀ st e v, e < n → ∀ o ∈ (hd st e v).2, opBelow n o)
    (hok : ∀ st e v (q : Queue), q e = none → (steps q (hd st e v).2).isSome) (lf : Nat) {st : σ} {m : Mem} {q : Queue}
    {f : Forest} (h : Abs m q f) (hb : ∀ e, (q e).isSome → e < n) :
    taskHandle rl qfuel hd now lf st m ≠ .error .bug := by
  induction lf generalizing st m q f with
  | zero => intro h; cases h
  | succ lf ih =>
    have hr := abs_root h
    unfold taskHandle
    cases hp : m.ptr .root with
    | none => intro h; cases h
    | some e =>
      obtain ⟨⟨v0, hv0, hmin⟩, hqe⟩ := hr.2 e hp
      simp only []
      split
      · obtain ⟨m1, f1, he1, ha1, _, hv1⟩ := abs_remove rl h e (fuel := qfuel) (by have := below_len h hb; omega)
        have hb1 := step_below (o := .unschedule e) (q := q) hb (hb e (by simp [hqe])) rfl
        have ho1 := runOps_below rl hn (hd st e m1.value).2 ha1 hb1 (hh st e m1.value (hb e (by simp [hqe])))
        have hsome := hok st e m1.value (q.set e none) (by simp [Queue.set])
        simp only [he1, bind, Except.bind]
        cases hst : steps (q.set e none) (hd st e m1.value).2 with
        | none => rw [hst] at hsome; cases hsome
        | some q2 =>
          rw [hst] at ho1
          obtain ⟨m2, f2, he2, ha2⟩ := ho1
          rw [he2]
          simp only []
          have hb2 := steps_below hb1 (hh st e m1.value (hb e (by simp [hqe]))) hst
          have hi := ih (st := (hd st e m1.value).1) ha2 hb2
          cases hc : taskHandle rl qfuel hd now lf (hd st e m1.value).1 m2 with
          | ok r => intro h; cases h
          | error d => rw [hc] at hi; intro h; injection h with h; exact hi (by rw [h])
      · intro h; cases h

theorem taskHandle_abs {σ : Type} (rl : Bool) {n qfuel : Nat} (hn : n ≤ qfuel) {hd : Handler σ} {now : Int}
    (hh : ∀ st e v, e < n → ∀ o ∈ (hd st e v).2, opBelow n o) (lf : Nat) {st : σ} {m : Mem} {q : Queue} {f : Forest}
    (h : Abs m q f) (hb : ∀ e, (q e).isSome → e < n) :
    (∃ st' m' log q' f', taskHandle rl qfuel hd now lf st m = .ok (st', m', log) ∧ Abs m' q' f' ∧ Runs now q log q') ∨
    taskHandle rl qfuel hd now lf st m = .error .bug ∨ taskHandle rl qfuel hd now lf st m = .error .fuel := by
  induction lf generalizing st m q f with
  | zero => exact .inr (.inr rfl)
  | succ lf ih =>
    have hr := abs_root h
    unfold taskHandle
    cases hp : m.ptr .root with
    | none => exact .inl ⟨st, m, [], q, f, rfl, h, .done (fun e v he => by rw [hr.1.1 hp e] at he; cases he)⟩
    | some e =>
      obtain ⟨⟨v0, hv0, hmin⟩, hqe⟩ := hr.2 e hp
      rw [hqe] at hv0; injection hv0 with hv0; subst hv0
      simp only []
      split
      · rename_i hdue
        obtain ⟨m1, f1, he1, ha1, _, hv1⟩ := abs_remove rl h e (fuel := qfuel) (by have := below_len h hb; omega)
        have hb1 := step_below (o := .unschedule e) (q := q) hb (hb e (by simp [hqe])) rfl
        have ho1 := runOps_below rl hn (hd st e m1.value).2 ha1 hb1 (hh st e m1.value (hb e (by simp [hqe])))
        simp only [he1, bind, Except.bind]
        cases hst : steps (q.set e none) (hd st e m1.value).2 with
        | none =>
          rw [hst] at ho1
          simp only [] at ho1
          rw [ho1]; exact .inr (.inl rfl)
        | some q2 =>
          rw [hst] at ho1
          obtain ⟨m2, f2, he2, ha2⟩ := ho1
          rw [he2]
          simp only []
          have hb2 := steps_below hb1 (hh st e m1.value (hb e (by simp [hqe]))) hst
          rcases ih (st := (hd st e m1.value).1) ha2 hb2 with ⟨st', m', log, q', f', he', ha', hr'⟩ | h' | h'
          · rw [he']
            exact .inl ⟨st', m', _, q', f', rfl, ha', .run hqe hdue hmin hst hr'⟩
          · rw [h']; exact .inr (.inl rfl)
          · rw [h']; exact .inr (.inr rfl)
      · rename_i hdue
        exact .inl ⟨st, m, [], q, f, rfl, h, .done (fun e' v' he' => by have := hmin e' v' he'; omega)⟩

/-! ### Facts about executions of the specification -/

theorem steps_untouched {e : Nat} {ops : List Op} {q q' : Queue} (h : steps q ops = some q')
    (ho : ∀ o ∈ ops, ¬ touches e o) : q' e = q e := by
  induction ops generalizing q with
  | nil => simp only [steps, Option.some.injEq] at h; rw [h]
  | cons o os ih =>
    simp only [steps] at h
    cases hs : step q o with
    | none => rw [hs] at h; cases h
    | some q1 =>
      rw [hs] at h
      rw [ih h (fun o ho' => ho o (by simp [ho']))]
      have hto := ho o (by simp)
      cases o with
      | schedule x v =>
        simp only [step] at hs
        split at hs
        · cases hs
        · injection hs with hs; subst hs
          unfold Queue.set
          rw [if_neg (fun h => hto h.symm)]
      | unschedule x =>
        simp only [step] at hs
        injection hs with hs; subst hs
        unfold Queue.set
        rw [if_neg (fun h => hto h.symm)]

end Fastd.Task
