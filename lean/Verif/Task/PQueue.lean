import Verif.Basic

/-!
# The priority queue (src/pqueue.c) at the level of linked nodes

Elements are identified by natural numbers (their addresses). The memory consists of the pointer
variables (`Slot`: the queue's root pointer and the `next` and `children` fields of all elements), the
`pprev` fields (which point to such a variable) and the `value` fields. A null pointer dereference and
the `exit_bug` aborts are errors.
-/

namespace Fastd.Task

/-- A variable of type `fastd_pqueue_t *`. -/
inductive Slot
  | root              -- the queue itself (`ctx.task_queue`)
  | next (e : Nat)    -- `e->next`
  | child (e : Nat)   -- `e->children`
deriving DecidableEq, Repr

/-- Queue elements in memory (src/pqueue.h:19-26) and the queue's root. -/
structure Mem where
  ptr : Slot → Option Nat
  pprev : Nat → Option Slot
  value : Nat → Int

/-- Why fastd can die here. -/
inductive Die
  | bug       -- exit_bug(...)
  | null      -- null pointer dereference
  | fuel      -- (model only) recursion deeper than the given bound
deriving DecidableEq, Repr

abbrev R (α : Type) := Except Die α

def Mem.setPtr (m : Mem) (s : Slot) (v : Option Nat) : Mem :=
  { m with ptr := fun t => if t = s then v else m.ptr t }

def Mem.setPprev (m : Mem) (e : Nat) (v : Option Slot) : Mem :=
  { m with pprev := fun t => if t = e then v else m.pprev t }

/-- `pqueue_link` (src/pqueue.c:21-31) -/
def link (m : Mem) (s : Slot) (e : Nat) : R Mem :=
  if (m.ptr (.next e)).isSome then .error .bug
  else
    let m := m.setPprev e (some s)
    let m := m.setPtr (.next e) (m.ptr s)
    let m := match m.ptr (.next e) with
      | none => m
      | some n => m.setPprev n (some (.next e))
    .ok (m.setPtr s (some e))

/-- `pqueue_unlink` (src/pqueue.c:34-40) -/
def unlink (m : Mem) (e : Nat) : R Mem :=
  match m.pprev e with
  | none => .error .null
  | some s =>
    let m := m.setPtr s (m.ptr (.next e))
    let m := match m.ptr (.next e) with
      | none => m
      | some n => m.setPprev n (m.pprev e)
    .ok (m.setPtr (.next e) none)

/-- `pqueue_merge` (src/pqueue.c:48-73) -/
def merge (m : Mem) (q1 q2 : Option Nat) : R (Mem × Nat) :=
  match q1 with
  | none => .error .bug
  | some q1 =>
    if (m.ptr (.next q1)).isSome then .error .bug
    else match q2 with
    | none => .ok (m, q1)
    | some q2 =>
      if (m.ptr (.next q2)).isSome then .error .bug
      else if m.value q1 < m.value q2 then do
        let m ← link m (.child q1) q2
        return (m, q1)
      else do
        let m ← link m (.child q2) q1
        return (m, q2)

/-- `pqueue_merge_pairs` (src/pqueue.c:76-93). The recursion depth is bounded by `fuel`. The order of
evaluation of the arguments of the outer `pqueue_merge` is unspecified in C; `rl` says that the right
one is evaluated first. -/
def mergePairs (rl : Bool) : Nat → Mem → Option Nat → R (Mem × Option Nat)
  | _, m, none => .ok (m, none)
  | 0, _, some _ => .error .fuel
  | fuel + 1, m, some q0 =>
    if (m.pprev q0).isNone then .error .bug
    else match m.ptr (.next q0) with
    | none => .ok (m, some q0)
    | some q1 =>
      let q2 := m.ptr (.next q1)
      let m := (m.setPtr (.next q1) none).setPtr (.next q0) none
      if rl then do
        let (m, b) ← mergePairs rl fuel m q2
        let (m, a) ← merge m (some q0) (some q1)
        let (m, r) ← merge m (some a) b
        return (m, some r)
      else do
        let (m, a) ← merge m (some q0) (some q1)
        let (m, b) ← mergePairs rl fuel m q2
        let (m, r) ← merge m (some a) b
        return (m, some r)

/-- `fastd_pqueue_insert` (src/pqueue.c:96-102) -/
def insert (m : Mem) (e : Nat) : R Mem :=
  if (m.pprev e).isSome || (m.ptr (.next e)).isSome || (m.ptr (.child e)).isSome then .error .bug
  else do
    let (m, r) ← merge m (some e) (m.ptr .root)
    let m := m.setPtr .root (some r)
    return m.setPprev r (some .root)

/-- `fastd_pqueue_remove` (src/pqueue.c:105-123) -/
def remove (rl : Bool) (fuel : Nat) (m : Mem) (e : Nat) : R Mem :=
  match m.pprev e with
  | none =>
    if (m.ptr (.child e)).isSome || (m.ptr (.next e)).isSome then .error .bug else .ok m
  | some s => do
    let m ← unlink m e
    let (m, r) ← mergePairs rl fuel m (m.ptr (.child e))
    let m ← match r with
      | none => .ok m
      | some r => link m s r
    return (m.setPprev e none).setPtr (.child e) none

/-- Elements that are not in a queue: all fields are null (tasks are part of zero-initialised
structures). -/
def Mem.empty : Mem where
  ptr := fun _ => none
  pprev := fun _ => none
  value := fun _ => 0

/-- `fastd_task_reschedule` (src/task.c:51-54) -/
def reschedule (m : Mem) (e : Nat) (v : Int) : R Mem :=
  insert { m with value := fun i => if i = e then v else m.value i } e

end Fastd.Task
