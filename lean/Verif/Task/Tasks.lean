import Verif.Task.PQueue

/-!
# Task handling (src/task.c, src/task.h) and the poll timeout (src/polling.c)
-/

namespace Fastd.Task

/-- Operations on the task queue: `fastd_task_schedule`/`fastd_task_reschedule` (src/task.c:48-51,
src/task.h:54-63) and `fastd_task_unschedule` (src/task.h:47-50). -/
inductive Op
  | schedule (e : Nat) (v : Int)
  | unschedule (e : Nat)
deriving DecidableEq, Repr

def Op.exec (rl : Bool) (fuel : Nat) (m : Mem) : Op → R Mem
  | .schedule e v => reschedule m e v
  | .unschedule e => remove rl fuel m e

/-- A sequence of queue operations. -/
def runOps (rl : Bool) (fuel : Nat) : Mem → List Op → R Mem
  | m, [] => .ok m
  | m, o :: os => do
    let m ← o.exec rl fuel m
    runOps rl fuel m os

/-- One handled task: the task, the timeout it was scheduled for, and the queue operations its handler
issued. -/
structure Ran where
  task : Nat
  due : Int
  ops : List Op

/-- What the handlers of the tasks do (`maintenance`, `fastd_peer_handle_task`): an arbitrary function of
an arbitrary state and of the task. It sees the `value` field of the entries, as
`fastd_task_reschedule_relative` (src/task.h:52-55) uses it after the entry was removed. -/
abbrev Handler (σ : Type) := σ → Nat → (Nat → Int) → σ × List Op

/-- `fastd_task_handle` and `handle_task` (src/task.c:24-46). `ctx.now` (`now`) does not change while tasks
are handled. `qfuel` bounds the recursion inside the queue, the other fuel the iterations of the loop. The
last component of the result lists the handled tasks in order. -/
def taskHandle {σ : Type} (rl : Bool) (qfuel : Nat) (h : Handler σ) (now : Int) : Nat → σ → Mem → R (σ × Mem × List Ran)
  | 0, _, _ => .error .fuel
  | n + 1, st, m =>
    match m.ptr .root with
    | none => .ok (st, m, [])
    | some e =>
      if m.value e ≤ now then do
        let due := m.value e
        let m ← remove rl qfuel m e
        let (st, ops) := h st e m.value
        let m ← runOps rl qfuel m ops
        let (st, m, log) ← taskHandle rl qfuel h now n st m
        return (st, m, ⟨e, due, ops⟩ :: log)
      else .ok (st, m, [])

/-- `FASTD_TIMEOUT_INV` (src/types.h:103) -/
def timeoutInv : Int := 2 ^ 63 - 1

/-- `fastd_task_queue_timeout` (src/task.c:54-59) -/
def queueTimeout (m : Mem) : Int :=
  match m.ptr .root with
  | none => timeoutInv
  | some e => m.value e

/-- Conversion of a 64 bit difference to `int` (gcc and clang: modulo 2^32). -/
def toInt32 (x : Int) : Int := (x + 2 ^ 31) % 2 ^ 32 - 2 ^ 31

/-- `task_timeout` (src/polling.c:37-47): the argument of `epoll_pwait`/`poll`; -1 means to wait without a
limit. -/
def taskTimeout (m : Mem) (now : Int) : Int :=
  let timeout := queueTimeout m
  if timeout = timeoutInv then -1
  else
    let diff := toInt32 (timeout - now)
    if diff < 0 then 0 else diff

end Fastd.Task
