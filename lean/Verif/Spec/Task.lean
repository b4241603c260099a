import Verif.Task.Tasks

/-!
# Specification of the task queue: a finite map from tasks to due times
-/

namespace Fastd.Task.Spec

/-- The scheduled tasks and their due times. -/
abbrev Queue := Nat → Option Int

def empty : Queue := fun _ => none

def Queue.set (q : Queue) (e : Nat) (v : Option Int) : Queue := fun i => if i = e then v else q i

/-- The effect of an operation; `none` means that a task is scheduled that already is in the queue. -/
def step (q : Queue) : Op → Option Queue
  | .schedule e v => if (q e).isSome then none else some (q.set e (some v))
  | .unschedule e => some (q.set e none)

def steps : Queue → List Op → Option Queue
  | q, [] => some q
  | q, o :: os => (step q o).bind (steps · os)

/-- `e` is scheduled, and no task is scheduled for an earlier time. -/
def First (q : Queue) (e : Nat) : Prop := ∃ v, q e = some v ∧ ∀ e' v', q e' = some v' → v ≤ v'

/-- The executions of the handling loop: as long as there are due tasks, a task with the earliest due time
is taken out of the queue and run; its handler changes the queue. -/
inductive Runs (now : Int) : Queue → List Ran → Queue → Prop
  | done {q} : (∀ e v, q e = some v → now < v) → Runs now q [] q
  | run {q q1 q2 log e v ops} : q e = some v → v ≤ now → (∀ e' v', q e' = some v' → v ≤ v') →
      steps (q.set e none) ops = some q1 → Runs now q1 log q2 → Runs now q (⟨e, v, ops⟩ :: log) q2

/-- An operation that concerns task `e`. -/
def touches (e : Nat) : Op → Prop
  | .schedule e' _ => e' = e
  | .unschedule e' => e' = e

end Fastd.Task.Spec
