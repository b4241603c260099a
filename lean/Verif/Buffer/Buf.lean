import Verif.Method.Common

/-!
# Packet buffers

Model of `src/buffer.h` and `src/buffer.c` on the level of bytes. Aborts (`exit_bug`, `exit_fatal`)
and accesses outside the storage of a buffer are distinct outcomes.
-/

namespace Fastd.Buffer

abbrev Bytes := List UInt8

/-- Outcome of a buffer operation. -/
inductive Res (α : Type) where
  | ok (a : α)
  | abort        -- exit_bug() or exit_fatal()
  | oob          -- access outside the storage
deriving DecidableEq

def Res.bind {α β : Type} : Res α → (α → Res β) → Res β
  | .ok a, f => f a
  | .abort, _ => .abort
  | .oob, _ => .oob

instance : Monad Res where
  pure := .ok
  bind := Res.bind

/-- `block_count` (src/util.h:55-57) -/
def blockCount (l a : Nat) : Nat := (l + a - 1) / a

/-- `alignto` (src/util.h:62-64) -/
def alignto (l a : Nat) : Nat := blockCount l a * a

/-- `fastd_buffer_t` (src/buffer.h:21-26). `base` is the storage, `off` the offset of `data` in it. -/
structure Buf where
  base : Bytes
  off : Nat
  len : Nat
deriving DecidableEq, Repr

/-- The contents of a buffer. -/
def Buf.data (b : Buf) : Bytes := (b.base.drop b.off).take b.len

/-- Data lies inside the storage. -/
def Buf.WF (b : Buf) : Prop := b.off + b.len ≤ b.base.length

/-- Writing bytes to the storage. -/
def write (m : Bytes) (off : Nat) (d : Bytes) : Res Bytes :=
  if off + d.length ≤ m.length then .ok (m.take off ++ (d ++ m.drop (off + d.length))) else .oob

/-- Reading bytes from the storage. -/
def read (m : Bytes) (off n : Nat) : Res Bytes :=
  if off + n ≤ m.length then .ok ((m.drop off).take n) else .oob

/-- `fastd_buffer_alloc` (src/buffer.c:55-74): `storage` is the memory of the buffer that is first in
the pool, `maxBuffer` is `ctx.max_buffer`. (The pool itself is modelled in `Verif.Buffer.Prog`.) -/
def alloc (storage : Bytes) (maxBuffer len headroom : Nat) : Res Buf :=
  if alignto (headroom + len) 16 > maxBuffer then .abort
  else .ok ⟨storage, headroom, len⟩

/-- `fastd_buffer_dup` (src/buffer.h:43-47) -/
def dup (b : Buf) (storage : Bytes) (maxBuffer headroom : Nat) : Res Buf := do
  let n ← alloc storage maxBuffer b.len headroom
  let d ← read b.base b.off b.len
  let m ← write n.base n.off d
  return { n with base := m }

/-- `fastd_buffer_headroom` (src/buffer.h:53-55) -/
def headroom (b : Buf) : Nat := b.off

/-- `fastd_buffer_align` (src/buffer.h:63-72); the freed buffer is not part of the result. -/
def align (b : Buf) (storage : Bytes) (maxBuffer minHeadroom : Nat) : Res Buf :=
  let surplus : Int := (headroom b : Int) - minHeadroom
  if surplus ≥ 0 ∧ surplus % 16 = 0 then .ok b
  else dup b storage maxBuffer minHeadroom

/-- `fastd_buffer_zero_pad` (src/buffer.h:75-79) -/
def zeroPad (b : Buf) : Res Buf := do
  let e := b.off + b.len
  let m ← write b.base e (List.replicate (alignto e 16 - e) 0)
  return { b with base := m }

/-- `fastd_buffer_push` (src/buffer.h:82-88) -/
def push (b : Buf) (n : Nat) : Res Buf :=
  if n > headroom b then .abort
  else .ok { b with off := b.off - n, len := b.len + n }

/-- `fastd_buffer_push_zero` (src/buffer.h:91-94) -/
def pushZero (b : Buf) (n : Nat) : Res Buf := do
  let b ← push b n
  let m ← write b.base b.off (List.replicate n 0)
  return { b with base := m }

/-- `fastd_buffer_push_from` (src/buffer.h:97-100) -/
def pushFrom (b : Buf) (d : Bytes) : Res Buf := do
  let b ← push b d.length
  let m ← write b.base b.off d
  return { b with base := m }

/-- `fastd_buffer_pull` (src/buffer.h:104-110) -/
def pull (b : Buf) (n : Nat) : Res Buf :=
  if b.len < n then .abort
  else .ok { b with off := b.off + n, len := b.len - n }

/-- `fastd_buffer_pull_to` (src/buffer.h:113-116): copies before it checks the length. -/
def pullTo (b : Buf) (n : Nat) : Res (Bytes × Buf) := do
  let d ← read b.base b.off n
  let b ← pull b n
  return (d, b)

/-- A view on a buffer is a byte string (src/buffer.h:119-121). `fastd_buffer_view_pull_to`
(src/buffer.h:124-136); `rest` are the bytes of the storage after the view. -/
def viewPullTo (view rest : Bytes) (n : Nat) : Res (Bytes × Bytes) := do
  let d ← read (view ++ rest) 0 n
  if view.length < n then .abort else return (d, view.drop n)

end Fastd.Buffer
