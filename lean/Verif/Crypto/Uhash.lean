import Verif.Crypto.Sha256

/-!
# The UHASH implementation (src/crypto/mac/uhash/builtin/uhash_builtin.c)

Model only. The four values of a `uint64_4_t` are a function of the index; only its values for indices below 4 matter.
-/

namespace Fastd.Crypto.Uhash

open Fastd.Crypto (htonlBytes ntohl4)

inductive Err
  /-- access outside of an array or of the input -/
  | memory
  /-- `exit_bug` -/
  | abort
  /-- not reached -/
  | fuel
deriving DecidableEq

/-- `struct fastd_mac_state` (src/crypto/mac/uhash/builtin/uhash_builtin.c:24-29) -/
structure State where
  L1Key : List UInt32
  L2Key : List UInt64
  L3Key1 : List UInt64
  L3Key2 : List UInt32
deriving DecidableEq

/-- `split64` (src/crypto/mac/uhash/builtin/uhash_builtin.c:51-53): high and low half -/
def split64 (x : UInt64) : UInt32 × UInt32 := ((x >>> 32).toUInt32, x.toUInt32)

/-- `join64` (lines 56-58) -/
def join64 (h l : UInt32) : UInt64 := (h.toUInt64 <<< 32) ||| l.toUInt64

/-- `mul64` (lines 61-63) -/
def mul64 (a b : UInt32) : UInt64 := a.toUInt64 * b.toUInt64

/-- `sel` (lines 66-70) -/
def sel (a b : UInt64) (s : UInt32) : UInt64 :=
  let s1 := s.toUInt64 - 1
  b ^^^ (s1 &&& (a ^^^ b))

/-- `mod_p36` (lines 73-80) -/
def modP36 (a : UInt64) : UInt64 :=
  let mask : UInt64 := 0x0000000fffffffff
  let a1 := (a &&& mask) + (5 : UInt64) * (a >>> 36)
  let a2 := a1 + 5
  sel a1 (a2 &&& mask) (a2 >>> 36).toUInt32

/-- `be32toh(key32[i])` -/
def keyWord (key : List UInt8) (i : Nat) : UInt32 :=
  ntohl4 (key.getD (4 * i) 0) (key.getD (4 * i + 1) 0) (key.getD (4 * i + 2) 0) (key.getD (4 * i + 3) 0)

/-- `uhash_init` (src/crypto/mac/uhash/builtin/uhash_builtin.c:84-114); the key has 1440 bytes (`key_length`, src/crypto/mac/uhash/uhash.c:22-24). -/
def init (key : List UInt8) : State where
  L1Key := (List.range 268).map fun i => keyWord key i
  L2Key := (List.range 12).map fun i =>
    join64 (keyWord key (268 + 2 * i) &&& 0x01ffffff) (keyWord key (268 + 2 * i + 1) &&& 0x01ffffff)
  L3Key1 := (List.range 32).map fun i => modP36 (join64 (keyWord key (292 + 2 * i)) (keyWord key (292 + 2 * i + 1)))
  L3Key2 := (List.range 4).map fun i => keyWord key (356 + i)

/-- `nh_round` (src/crypto/mac/uhash/builtin/uhash_builtin.c:120-129) with `&K[i]`; the elements `K[i]` to `K[i + 19]` are read. -/
def nhRound (K : List UInt32) (i : Nat) (Y : Nat → UInt64) (b : Nat → UInt32) : Except Err (Nat → UInt64) :=
  if i + 20 ≤ K.length then
    .ok fun j =>
      let y := Y j + mul64 (b 0 + K.getD (i + (4 * j + 0)) 0) (b 4 + K.getD (i + (4 * j + 4)) 0)
      let y := y + mul64 (b 1 + K.getD (i + (4 * j + 1)) 0) (b 5 + K.getD (i + (4 * j + 5)) 0)
      let y := y + mul64 (b 2 + K.getD (i + (4 * j + 2)) 0) (b 6 + K.getD (i + (4 * j + 6)) 0)
      y + mul64 (b 3 + K.getD (i + (4 * j + 3)) 0) (b 7 + K.getD (i + (4 * j + 7)) 0)
  else .error .memory

/-- `le32toh(M[i])` -/
def inWord (inp : List UInt8) (i : Nat) : UInt32 :=
  ntohl4 (inp.getD (4 * i + 3) 0) (inp.getD (4 * i + 2) 0) (inp.getD (4 * i + 1) 0) (inp.getD (4 * i) 0)

/-- The loop reading `n` words from `M[i]` on (lines 143-144, 152-153); the other ones are 0. -/
def readWords (inp : List UInt8) (i n : Nat) : Except Err (Nat → UInt32) :=
  if 4 * (i + n) ≤ inp.length then .ok fun j => if j < n then inWord inp (i + j) else 0 else .error .memory

/-- The first loop of `nh` (lines 140-147), returning `Y` and `i` -/
def nhLoop (K : List UInt32) (inp : List UInt8) (blocks : Nat) : Nat → Nat → (Nat → UInt64) → Except Err ((Nat → UInt64) × Nat)
  | 0, _, _ => .error .fuel
  | fuel + 1, i, Y =>
    if i < blocks - 4 then do
      let b ← readWords inp i 8
      let Y ← nhRound K i Y b
      nhLoop K inp blocks fuel (i + 8) Y
    else .ok (Y, i)

/-- `nh` (src/crypto/mac/uhash/builtin/uhash_builtin.c:136-159); `inp` is the memory at `M`. -/
def nh (K : List UInt32) (inp : List UInt8) (length : Nat) : Except Err (Nat → UInt64) := do
  let Y : Nat → UInt64 := fun _ => UInt64.ofNat (8 * length)
  let blocks := max ((length + 3) / 4) 4
  let (Y, i) ← nhLoop K inp blocks (blocks + 1) 0 Y
  if i < blocks then
    let b ← readWords inp i 4
    nhRound K i Y b
  else return Y

/-- `l1hash` (src/crypto/mac/uhash/builtin/uhash_builtin.c:166-174): `n` blocks from the `i`-th on. The subtraction wraps around only in the last
iteration, after which the length is not used any more. -/
def l1hash (K : List UInt32) (message : List UInt8) : Nat → Nat → Nat → Except Err (List (Nat → UInt64))
  | 0, _, _ => .ok []
  | n + 1, i, length => do
    let blocklen := min length 1024
    let y ← nh K (message.drop (16 * (64 * i))) blocklen
    let ys ← l1hash K message n (i + 1) (length - 1024)
    return y :: ys

/-- `mul128` (src/crypto/mac/uhash/builtin/uhash_builtin.c:182-191): high and low half -/
def mul128 (a b : UInt32 × UInt32) : UInt64 × UInt64 :=
  let lo := split64 (mul64 a.2 b.2)
  let mid := split64 (mul64 a.2 b.1 + mul64 a.1 b.2 + lo.1.toUInt64)
  let hi := mul64 a.1 b.1 + mid.1.toUInt64
  (hi, join64 mid.2 lo.2)

/-- `add_p64` (lines 198-206) -/
def addP64 (a b : UInt64) : UInt64 :=
  let c1 := a + b
  let a := a + 59
  let c2 := a + b
  let s := (((a &&& b) ||| ((a ||| b) &&& ~~~c2)) >>> 63).toUInt32
  sel c1 c2 s

/-- `mul_p64` (lines 214-218) -/
def mulP64 (a b : UInt64) : UInt64 :=
  let m := mul128 (split64 a) (split64 b)
  addP64 (m.1 * 59) m.2

/-- `l2add` (lines 221-236) -/
def l2add (Y K m : UInt64) : UInt64 :=
  let marker : UInt64 := 0xffffffffffffffc4
  let Y := mulP64 Y K
  let Y1 := addP64 Y marker
  let Y1 := mulP64 Y1 K
  let Y1 := addP64 Y1 (m - 59)
  let Y2 := addP64 Y m
  let s := (((m >>> 32) + 1) >>> 32).toUInt32
  sel Y2 Y1 s

/-- `l2hash` (src/crypto/mac/uhash/builtin/uhash_builtin.c:244-258) -/
def l2hash (K : List UInt64) (M : List (Nat → UInt64)) : Except Err (Nat → UInt64) :=
  if M.length > 0x4000 then .error .abort
  else .ok (M.foldl (fun y m => fun j => l2add (y j) (K.getD (3 * j) 0) (m j)) fun _ => 1)

/-- `l3hash` (src/crypto/mac/uhash/builtin/uhash_builtin.c:261-271) with `&K1[o]`; the product is one of `uint64_t` values. -/
def l3hash (K1 : List UInt64) (o : Nat) (K2 : UInt32) (M : UInt64) : UInt32 :=
  let y := [4, 5, 6, 7].foldl (fun y i =>
    let m : UInt16 := (M >>> (16 * (3 - UInt64.ofNat i % 4))).toUInt16
    y + m.toUInt64 * K1.getD (o + i) 0) 0
  (modP36 y ^^^ K2.toUInt64).toUInt32

/-- `uhash_digest` (src/crypto/mac/uhash/builtin/uhash_builtin.c:276-301); `inp` is the memory at `in` up to the end of the buffer. -/
def digest (s : State) (inp : List UInt8) (length : Nat) : Except Err (List UInt8) := do
  let blocks := max ((length + 1023) / 1024) 1
  let A ← l1hash s.L1Key (if length ≠ 0 then inp else List.replicate 16 0) blocks 0 length
  let B ← if blocks ≤ 1 then pure (A.getD 0 fun _ => 0) else l2hash s.L2Key A
  return (List.range 4).flatMap fun i => htonlBytes (l3hash s.L3Key1 (8 * i) (s.L3Key2.getD i 0) (B i))

end Fastd.Crypto.Uhash
