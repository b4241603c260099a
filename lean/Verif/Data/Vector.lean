import Verif.Basic

/-!
# Dynamic arrays (src/vector.c, src/vector.h)

The storage is a list of cells of one element each; a cell that has not been written is `none`. Sizes are
`size_t` numbers (below 2^64, 64 bit platform).
-/

namespace Fastd.Data

/-- Outcome of an operation. -/
inductive VRes (α : Type) where
  | ok (a : α)
  | exit          -- "memory allocation error"
  | oob           -- access outside the allocation
  | uninit        -- value of a cell that was never written
deriving DecidableEq, Repr

def VRes.bind {α β : Type} : VRes α → (α → VRes β) → VRes β
  | .ok a, f => f a
  | .exit, _ => .exit
  | .oob, _ => .oob
  | .uninit, _ => .uninit

instance : Monad VRes where
  pure := .ok
  bind := VRes.bind

/-- `VECTOR(type)` and `fastd_vector_desc_t` (src/vector.h:20-34). -/
structure Vec (α : Type) where
  allocated : Nat
  length : Nat
  cells : List (Option α)

/-- A zero-initialised vector. -/
def Vec.empty {α : Type} : Vec α := ⟨0, 0, []⟩

/-- `fastd_realloc_array` (src/alloc.h): keeps the cells that fit; fails if the size in bytes overflows
(the element size is at least 1). -/
def realloc {α : Type} (cells : List (Option α)) (n : Nat) : List (Option α) :=
  (cells.take n) ++ List.replicate (n - cells.length) none

/-- The loop in `_fastd_vector_resize` (src/vector.c:41-47): `alloc <<= 1` until it is at least `n`; `none`
for the overflow exit. The fuel is the number of bits. -/
def grow : Nat → Nat → Nat → Option Nat
  | 0, _, _ => none
  | fuel + 1, alloc, n =>
    if alloc < n then
      let a := alloc * 2 % 2 ^ 64
      if a = 0 then none else grow fuel a n
    else some alloc

/-- `_fastd_vector_resize` (src/vector.c:31-53) -/
def vResize {α : Type} (v : Vec α) (n : Nat) : VRes (Vec α) :=
  let length := n
  let alloc := if v.allocated = 0 then 4 else v.allocated
  let n := if v.allocated = 0 then (n * 3 % 2 ^ 64) / 2 else n
  match grow 65 alloc n with
  | none => .exit
  | some a =>
    if a ≠ v.allocated then .ok ⟨a, length, realloc v.cells a⟩
    else .ok { v with length := length }

/-- `memmove` of `n` cells from index `src` to `dst`. -/
def memmove {α : Type} (cells : List (Option α)) (dst src n : Nat) : VRes (List (Option α)) :=
  if n = 0 then .ok cells
  else if src + n ≤ cells.length ∧ dst + n ≤ cells.length then
    .ok (cells.take dst ++ ((cells.drop src).take n ++ cells.drop (dst + n)))
  else .oob

/-- `memcpy` of one element to index `i`. -/
def store {α : Type} (cells : List (Option α)) (i : Nat) (x : α) : VRes (List (Option α)) :=
  if i < cells.length then .ok (cells.set i (some x)) else .oob

/-- Subtraction of `size_t` numbers. -/
def szSub (a b : Nat) : Nat := (a + (2 ^ 64 - b)) % 2 ^ 64

/-- `_fastd_vector_insert` (src/vector.c:60-67) -/
def vInsert {α : Type} (v : Vec α) (x : α) (pos : Nat) : VRes (Vec α) := do
  let v ← vResize v (v.length + 1)
  let cells ← memmove v.cells (pos + 1) pos (szSub (szSub v.length pos) 1)
  let cells ← store cells pos x
  return { v with cells := cells }

/-- `_fastd_vector_delete` (src/vector.c:74-79) -/
def vDelete {α : Type} (v : Vec α) (pos : Nat) : VRes (Vec α) := do
  let cells ← memmove v.cells pos (pos + 1) (szSub (szSub v.length pos) 1)
  vResize { v with cells := cells } (szSub v.length 1)

/-- `VECTOR_ADD` (src/vector.h:100-110) -/
def vAdd {α : Type} (v : Vec α) (x : α) : VRes (Vec α) := vInsert v x v.length

/-- `VECTOR_INDEX` (src/vector.h:75-80), reading. -/
def index {α : Type} (v : Vec α) (i : Nat) : VRes α :=
  match v.cells[i]? with
  | none => .oob
  | some none => .uninit
  | some (some x) => .ok x

/-- `VECTOR_INDEX(v, i) = x` -/
def setIndex {α : Type} (v : Vec α) (i : Nat) (x : α) : VRes (Vec α) := do
  let cells ← store v.cells i x
  return { v with cells := cells }

/-- Operations on a vector. `resize` is only used to make a vector shorter in fastd. -/
inductive VOp (α : Type)
  | add (x : α)
  | insert (x : α) (pos : Nat)
  | delete (pos : Nat)
  | resize (n : Nat)
  | set (i : Nat) (x : α)

def VOp.exec {α : Type} (v : Vec α) : VOp α → VRes (Vec α)
  | .add x => vAdd v x
  | .insert x pos => vInsert v x pos
  | .delete pos => vDelete v pos
  | .resize n => vResize v n
  | .set i x => setIndex v i x

def runV {α : Type} : Vec α → List (VOp α) → VRes (Vec α)
  | v, [] => .ok v
  | v, o :: os => do
    let v ← o.exec v
    runV v os

end Fastd.Data
