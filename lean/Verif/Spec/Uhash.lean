import Mathlib.Init

/-!
# UHASH (RFC 4418, section 5), independent of the code

Strings are lists of bytes; a string made of 8-byte pieces is given as the list of the numbers that these stand for. As in UMAC-128 there are
four iterations. Only messages of at most 2^24 bytes, for which L2-HASH needs no second stage.
-/

namespace Fastd.Spec.Uhash

abbrev Str := List UInt8

/-- `str2uint` (section 2.2.1): big endian -/
def str2uint (s : Str) : Nat := s.foldl (fun n b => n * 256 + b.toNat) 0

/-- `uint2str` for 4 bytes -/
def uint2str4 (x : Nat) : Str := [UInt8.ofNat (x / 2 ^ 24), UInt8.ofNat (x / 2 ^ 16), UInt8.ofNat (x / 2 ^ 8), UInt8.ofNat x]

/-- `zeropad(S, n)` (section 2.2): zero bytes are appended to make the length a positive multiple of `n` -/
def zeropad (s : Str) (n : Nat) : Str := s ++ List.replicate (max ((s.length + n - 1) / n) 1 * n - s.length) 0

/-- The bytes from index `i` on, `n` of them -/
def sub (s : Str) (i n : Nat) : Str := (s.drop i).take n

/-- `ENDIAN-SWAP` (section 5.2.2): the bytes of each 4-byte piece are reversed -/
def endianSwap (s : Str) : Str := (List.range (s.length / 4)).flatMap fun i => (sub s (4 * i) 4).reverse

/-- The `i`-th 4-byte piece as a number, counting from 0 -/
def word (s : Str) (i : Nat) : Nat := str2uint (sub s (4 * i) 4)

/-- `NH(K, M)` (section 5.2.2); the length of `M` is a multiple of 32 -/
def nh (k m : Str) : Nat :=
  ((List.range (m.length / 32)).map fun r => ((List.range 4).map fun j =>
    ((word m (8 * r + j) + word k (8 * r + j)) % 2 ^ 32) * ((word m (8 * r + j + 4) + word k (8 * r + j + 4)) % 2 ^ 32)).sum).sum % 2 ^ 64

/-- `L1-HASH(K, M)` (section 5.2.1) -/
def l1hash (k m : Str) : List Nat :=
  let t := max ((m.length + 1023) / 1024) 1
  (List.range t).map fun i =>
    let mi := sub m (1024 * i) 1024
    (nh k (endianSwap (zeropad mi 32)) + 8 * mi.length) % 2 ^ 64

/-- `prime(36)` and `prime(64)` (section 2.2) -/
def p36 : Nat := 2 ^ 36 - 5
def p64 : Nat := 2 ^ 64 - 59

/-- One step of `POLY` (section 5.3.2) with `wordbits = 64` and `maxwordrange = 2^64 - 2^32` -/
def polyStep (k y m : Nat) : Nat :=
  let offset := 2 ^ 64 - p64
  let marker := p64 - 1
  if m ≥ 2 ^ 64 - 2 ^ 32 then
    let y := (k * y + marker) % p64
    (k * y + (m - offset)) % p64
  else (k * y + m) % p64

/-- `L2-HASH(K, M)` (section 5.3.1) for at most 2^14 numbers: the 8-byte key is masked with 0x01ffffff01ffffff -/
def l2hash (k : Str) (m : List Nat) : Nat :=
  let k64 := str2uint (sub k 0 8) &&& 0x01ffffff01ffffff
  m.foldl (polyStep k64) 1

/-- `L3-HASH(K1, K2, M)` (section 5.4.1): the string `M` of 16 bytes is given as the number it stands for. -/
def l3hash (k1 k2 : Str) (m : Nat) : Str :=
  let y := ((List.range 8).map fun i => (m / 2 ^ (16 * (7 - i)) % 2 ^ 16) * (str2uint (sub k1 (8 * i) 8) % p36)).sum % p36
  uint2str4 ((y % 2 ^ 32) ^^^ str2uint k2)

/-- One iteration of `UHASH` (section 5.1) with the keys for it -/
def iteration (l1key l2key l3key1 l3key2 m : Str) : Str :=
  let a := l1hash l1key m
  let b := if m.length ≤ l1key.length then a.getD 0 0 else l2hash l2key a
  l3hash l3key1 l3key2 b

/-- `UHASH(K, M, 16)` (section 5.1), from the output of the key derivation functions -/
def uhash (k1 k2 k3 k4 m : Str) : Str :=
  (List.range 4).flatMap fun i =>
    iteration (sub k1 (16 * i) 1024) (sub k2 (24 * i) 24) (sub k3 (64 * i) 64) (sub k4 (4 * i) 4) m

end Fastd.Spec.Uhash
