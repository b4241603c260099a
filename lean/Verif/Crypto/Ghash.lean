import Verif.Crypto.Sha256

/-!
# The table based GHASH implementation (src/crypto/mac/ghash/builtin/ghash_builtin.c)

Model only. A `fastd_block128_t` is a list of 16 bytes.
-/

namespace Fastd.Crypto.Ghash

open Fastd.Crypto (htonlBytes)

abbrev Block := List UInt8

inductive Err
  /-- access outside of the input -/
  | memory
  /-- `exit_bug` -/
  | abort
deriving DecidableEq

/-- `fastd_block128_t x = {}` -/
def zero : Block := List.replicate 16 0

/-- `r` (src/crypto/mac/ghash/builtin/ghash_builtin.c:31) -/
def r : Block := 0xe1 :: List.replicate 15 0

/-- `block_xor_a` (src/crypto.h:128-136), byte by byte instead of in two halves -/
def xor (x a : Block) : Block := List.zipWith (· ^^^ ·) x a

/-- The loop of `shr` (src/crypto/mac/ghash/builtin/ghash_builtin.c:39-43) with the carry `c`; shifts are those of `uint8_t` values -/
def shrLoop (n : UInt8) (c : UInt8) : Block → Block × UInt8
  | [] => ([], c)
  | x :: xs =>
    let c2 := x <<< (8 - n)
    let (out, c') := shrLoop n c2 xs
    ((x >>> n ||| c) :: out, c')

/-- `shr` (src/crypto/mac/ghash/builtin/ghash_builtin.c:35-46); `n` is from 1 to 7. -/
def shr (x : Block) (n : UInt8) : Block × UInt8 :=
  let (out, c) := shrLoop n 0 x
  (out, c >>> (8 - n))

/-- `struct fastd_mac_state` (src/crypto/mac/ghash/builtin/ghash_builtin.c:24-27) -/
structure State where
  H : List (List Block)
  shiftSize : Bool
deriving DecidableEq

/-- One row of the table; indices from 4 bits are within the bounds. -/
def State.at (s : State) (i : Nat) (j : UInt8) : Block := (s.H.getD i []).getD j.toNat zero

/-- `mulH_a` (src/crypto/mac/ghash/builtin/ghash_builtin.c:49-59) -/
def mulH (s : State) (x : Block) : Block :=
  (List.range 16).foldl (fun out i =>
    let out := xor out (s.at (2 * i) (x.getD i 0 >>> 4))
    xor out (s.at (2 * i + 1) (x.getD i 0 &&& 0xf))) zero

/-- `Hbase` (src/crypto/mac/ghash/builtin/ghash_builtin.c:70-82) -/
def hbase (key : Block) : Nat → Block
  | 0 => key
  | i + 1 =>
    let (out, carry) := shr (hbase key i) 1
    if carry ≠ 0 then xor out r else out

/-- `Rbase` (lines 71-82) -/
def rbase : Nat → Block
  | 0 => r
  | i + 1 => (shr (rbase i) 1).1

/-- The sum of the elements of `base` for an index (lines 88-96); `i & (8 >> j)` -/
def combine (base : Nat → Block) (i : Nat) : Block :=
  (List.range 4).foldl (fun acc j => if i.testBit (3 - j) then xor acc (base j) else acc) zero

/-- The first row (lines 88-96) -/
def row0 (key : Block) : List Block := (List.range 16).map (combine (hbase key))

/-- The table `R` (lines 88-96) -/
def rtab : List Block := (List.range 16).map (combine rbase)

/-- The next row (lines 98-105) -/
def nextRow (row : List Block) : List Block :=
  row.map fun h =>
    let (out, carry) := shr h 4
    xor out (rtab.getD carry.toNat zero)

/-- The rows of the table -/
def row (key : Block) : Nat → List Block
  | 0 => row0 key
  | i + 1 => nextRow (row key i)

/-- `ghash_init` (src/crypto/mac/ghash/builtin/ghash_builtin.c:63-108); `shift` is the flag `GHASH_SHIFT_SIZE`. -/
def init (key : Block) (shift : Bool) : State := ⟨(List.range 32).map (row key), shift⟩

/-- `make_size` (src/crypto/mac/ghash/builtin/ghash_builtin.c:110-123) -/
def makeSize (len : Nat) (shift : Bool) : Except Err Block :=
  if len ≥ 2 ^ 29 then .error .abort
  else
    let size := htonlBytes (UInt32.ofNat len <<< 3)
    .ok (if shift then List.replicate 4 0 ++ size ++ List.replicate 8 0 else List.replicate 12 0 ++ size)

/-- The `i`-th block of the input -/
def inBlock (inp : List UInt8) (i : Nat) : Except Err Block :=
  if 16 * i + 16 ≤ inp.length then .ok ((inp.drop (16 * i)).take 16) else .error .memory

/-- The loop of `ghash_digest` (src/crypto/mac/ghash/builtin/ghash_builtin.c:133-136), `n` blocks from the `i`-th on -/
def digestLoop (s : State) (inp : List UInt8) : Nat → Nat → Block → Except Err Block
  | 0, _, out => .ok out
  | n + 1, i, out => do
    let out := xor out (← inBlock inp i)
    digestLoop s inp n (i + 1) (mulH s out)

/-- `ghash_digest` (src/crypto/mac/ghash/builtin/ghash_builtin.c:126-143); `inp` is the memory at `in` up to the end of the buffer. -/
def digest (s : State) (inp : List UInt8) (length : Nat) : Except Err Block := do
  let nBlocks := (length + 15) / 16
  let out ← digestLoop s inp nBlocks 0 zero
  let size ← makeSize length s.shiftSize
  return mulH s (xor out size)

end Fastd.Crypto.Ghash
