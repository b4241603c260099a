import Verif.Basic

/-!
# Small helpers: comparison, key text format, key division, random numbers

Model only.
-/

namespace Fastd.Util

abbrev Bytes := List UInt8

/-- The loop of `secure_memequal` (src/crypto.h:104-105) from index `i` on with `n` iterations left;
`none` is a read outside of one of the arguments. -/
def memequalLoop (s1 s2 : Bytes) : Nat → Nat → UInt8 → Option UInt8
  | _, 0, v => some v
  | i, n + 1, v => do
    let a ← s1[i]?
    let b ← s2[i]?
    memequalLoop s1 s2 (i + 1) n (v ||| (a ^^^ b))

/-- `secure_memequal` (src/crypto.h:99-108) -/
def secureMemequal (s1 s2 : Bytes) (n : Nat) : Option Bool := do
  let v ← memequalLoop s1 s2 0 n 0
  return v == 0

/-- The four words `dw[0]`, ..., `dw[3]` of a `fastd_block128_t` (src/types.h:158-162) -/
structure Block where
  (w0 w1 w2 w3 : UInt32)
deriving DecidableEq

/-- `block_equal` (src/crypto.h:111-120) -/
def blockEqual (a b : Block) : Bool :=
  let v : UInt32 := 0
  let v := v ||| (a.w0 ^^^ b.w0)
  let v := v ||| (a.w1 ^^^ b.w1)
  let v := v ||| (a.w2 ^^^ b.w2)
  let v := v ||| (a.w3 ^^^ b.w3)
  v == 0

/-- The digits printed by `%x`. -/
def hexDigits : Bytes :=
  [0x30, 0x31, 0x32, 0x33, 0x34, 0x35, 0x36, 0x37, 0x38, 0x39, 0x61, 0x62, 0x63, 0x64, 0x65, 0x66]

/-- `snprintf(out, 3, "%02x", b)`: two digits (the terminating NUL is not represented). -/
def fmt02x (b : UInt8) : Bytes :=
  [hexDigits.getD (b.toNat / 16) 0, hexDigits.getD (b.toNat % 16) 0]

/-- `hexdump` (src/protocols/ec25519_fhmqvc/ec25519_fhmqvc.h:116-120): each byte's two digits at
offset `2 i`. -/
def hexdump (d : Bytes) : Bytes := d.flatMap fmt02x

/-- The set accepted by `strspn` in `read_key`: "0123456789abcdefABCDEF". -/
def keyChars : Bytes := hexDigits ++ [0x41, 0x42, 0x43, 0x44, 0x45, 0x46]

/-- `strspn(s, "0123456789abcdefABCDEF")` -/
def spanHex (s : Bytes) : Nat := (s.takeWhile fun c => keyChars.contains c).length

/-- Value of a hexadecimal digit as read by `%x`; 0 for other characters (never used on them). -/
def hexVal (c : UInt8) : UInt8 :=
  if c ≥ 0x30 ∧ c ≤ 0x39 then c - 0x30
  else if c ≥ 0x61 ∧ c ≤ 0x66 then c - 0x61 + 10
  else if c ≥ 0x41 ∧ c ≤ 0x46 then c - 0x41 + 10
  else 0

/-- The loop with `sscanf(&hexkey[2 * i], "%02hhx", &key[i])`
(src/protocols/ec25519_fhmqvc/ec25519_fhmqvc.c:22-24); each conversion takes two digits, which is
what `sscanf` does when both characters are digits. -/
def scanKey (s : Bytes) : Bytes :=
  (List.range 32).map fun i => hexVal (s.getD (2 * i) 0) * 16 + hexVal (s.getD (2 * i + 1) 0)

/-- `read_key` (src/protocols/ec25519_fhmqvc/ec25519_fhmqvc.c:18-27). `s` is the C string without
its terminating NUL. -/
def readKey (s : Bytes) : Option Bytes :=
  if s.length ≠ 64 ∨ spanHex s ≠ 64 then none else some (scanKey s)

/-- `divide_key` (src/protocols/ec25519_fhmqvc/ec25519_fhmqvc.h:129-140): the loop runs from the
last byte to the first, so that the state after the bytes above `i` is the fold over them. The
result is the carry `c` and the new key. -/
def divideLoop : Bytes → UInt8 × Bytes
  | [] => (0, [])
  | b :: rest =>
    let (c, out) := divideLoop rest
    (b <<< 5, ((b >>> 3) ||| c) :: out)

def divideKey (key : Bytes) : Bool × Bytes :=
  let (c, out) := divideLoop key
  (c == 0, out)

/-- Conversion of an unsigned 32 bit value to `int`. -/
def toInt32 (x : Nat) : Int := if x % 2 ^ 32 < 2 ^ 31 then (x % 2 ^ 32 : Nat) else (x % 2 ^ 32 : Nat) - 2 ^ 32

/-- Conversion of an `int` to `unsigned int`. -/
def toU32 (x : Int) : Nat := (x % 2 ^ 32).toNat

/-- `fastd_rand` (src/fastd.h:461-464); `r` is the value of `random()`. `max - min` is computed as
`int`, the remaining operations are unsigned. Signed overflow and division by zero are `none`. -/
def fastdRand (r : Nat) (min max : Int) : Option Int :=
  if max - min < -2 ^ 31 ∨ max - min ≥ 2 ^ 31 then none
  else if toU32 (max - min) = 0 then none
  else some (toInt32 ((r % 2 ^ 32) % toU32 (max - min) + toU32 min))

/-- `DEFAULT_HANDSHAKE_INTERVAL` (src/build.h.in:103) -/
def DEFAULT_HANDSHAKE_INTERVAL : Int := 20000
/-- `DEFAULT_HANDSHAKE_JITTER` (src/build.h.in:106) -/
def DEFAULT_HANDSHAKE_JITTER : Int := 2500
/-- `UNKNOWN_TABLES` (src/build.h.in:141) -/
def UNKNOWN_TABLES : Int := 16

/-- `fastd_peer_handshake_default_rand` (src/peer.h:172-176) -/
def handshakeDefaultRand (r : Nat) : Option Int :=
  fastdRand r (DEFAULT_HANDSHAKE_INTERVAL - DEFAULT_HANDSHAKE_JITTER)
    (DEFAULT_HANDSHAKE_INTERVAL + DEFAULT_HANDSHAKE_JITTER)

/-- The delay chosen by `init_handshake` (src/peer.c:346-349); `constrained` is the result of
`has_group_config_constraints`. -/
def initHandshakeDelay (r : Nat) (constrained : Bool) : Option Int :=
  if constrained then fastdRand r 0 3000 else some 0

/-- The refresh time computed by `fastd_method_common_init` (src/methods/common.c:25). -/
def refreshAfter (r : Nat) (now : Time) : Option Time := do
  let x ← fastdRand r 0 KEY_REFRESH_SPLAY
  return now + KEY_REFRESH - x

/-- The table chosen by `backoff_unknown` when all are full (src/receive.c:133-134). -/
def backoffTable (r : Nat) : Option Int := fastdRand r 0 UNKNOWN_TABLES

end Fastd.Util
