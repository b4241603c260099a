/-!
# SHA-256 (FIPS 180-4), HMAC (RFC 2104), HKDF (RFC 5869)

Specification only: transcribed from the standards, without reference to fastd's code.
-/

namespace Fastd.Spec.Sha256

abbrev Bytes := List UInt8

/-- FIPS 180-4, 4.2.2 -/
def K : List UInt32 := [
  0x428a2f98, 0x71374491, 0xb5c0fbcf, 0xe9b5dba5, 0x3956c25b, 0x59f111f1, 0x923f82a4, 0xab1c5ed5,
  0xd807aa98, 0x12835b01, 0x243185be, 0x550c7dc3, 0x72be5d74, 0x80deb1fe, 0x9bdc06a7, 0xc19bf174,
  0xe49b69c1, 0xefbe4786, 0x0fc19dc6, 0x240ca1cc, 0x2de92c6f, 0x4a7484aa, 0x5cb0a9dc, 0x76f988da,
  0x983e5152, 0xa831c66d, 0xb00327c8, 0xbf597fc7, 0xc6e00bf3, 0xd5a79147, 0x06ca6351, 0x14292967,
  0x27b70a85, 0x2e1b2138, 0x4d2c6dfc, 0x53380d13, 0x650a7354, 0x766a0abb, 0x81c2c92e, 0x92722c85,
  0xa2bfe8a1, 0xa81a664b, 0xc24b8b70, 0xc76c51a3, 0xd192e819, 0xd6990624, 0xf40e3585, 0x106aa070,
  0x19a4c116, 0x1e376c08, 0x2748774c, 0x34b0bcb5, 0x391c0cb3, 0x4ed8aa4a, 0x5b9cca4f, 0x682e6ff3,
  0x748f82ee, 0x78a5636f, 0x84c87814, 0x8cc70208, 0x90befffa, 0xa4506ceb, 0xbef9a3f7, 0xc67178f2]

/-- The first 64 primes. -/
def primes : List Nat := [2, 3, 5, 7, 11, 13, 17, 19, 23, 29, 31, 37, 41, 43, 47, 53, 59, 61, 67, 71,
  73, 79, 83, 89, 97, 101, 103, 107, 109, 113, 127, 131, 137, 139, 149, 151, 157, 163, 167, 173, 179,
  181, 191, 193, 197, 199, 211, 223, 227, 229, 233, 239, 241, 251, 257, 263, 269, 271, 277, 281, 283,
  293, 307, 311]

/-- "The first thirty-two bits of the fractional parts of the cube roots of the first sixty-four
prime numbers": there is an integer part `i` with `floor (cbrt p * 2^32) = i * 2^32 + k`. -/
theorem K_cube_roots : K.length = 64 ∧ ((K.zip primes).all fun (k, p) =>
    (List.range 7).any fun i =>
      (i * 2 ^ 32 + k.toNat) ^ 3 ≤ p * 2 ^ 96 ∧ p * 2 ^ 96 < (i * 2 ^ 32 + k.toNat + 1) ^ 3) = true := by
  decide +kernel

structure H8 where
  (a b c d e f g h : UInt32)
deriving DecidableEq

/-- FIPS 180-4, 5.3.3 -/
def H0 : H8 := ⟨0x6a09e667, 0xbb67ae85, 0x3c6ef372, 0xa54ff53a, 0x510e527f, 0x9b05688c, 0x1f83d9ab,
  0x5be0cd19⟩

/-- "The first thirty-two bits of the fractional parts of the square roots of the first eight prime
numbers." -/
theorem H0_square_roots :
    (([H0.a, H0.b, H0.c, H0.d, H0.e, H0.f, H0.g, H0.h].zip primes).all fun (k, p) =>
    (List.range 5).any fun i =>
      (i * 2 ^ 32 + k.toNat) ^ 2 ≤ p * 2 ^ 64 ∧ p * 2 ^ 64 < (i * 2 ^ 32 + k.toNat + 1) ^ 2) = true := by
  decide +kernel

/-! FIPS 180-4, 3.2, 4.1.2 -/
def ROTR (n : UInt32) (x : UInt32) : UInt32 := (x >>> n) ||| (x <<< (32 - n))
def Ch (x y z : UInt32) : UInt32 := (x &&& y) ^^^ (~~~x &&& z)
def Maj (x y z : UInt32) : UInt32 := (x &&& y) ^^^ (x &&& z) ^^^ (y &&& z)
def Sigma0 (x : UInt32) : UInt32 := ROTR 2 x ^^^ ROTR 13 x ^^^ ROTR 22 x
def Sigma1 (x : UInt32) : UInt32 := ROTR 6 x ^^^ ROTR 11 x ^^^ ROTR 25 x
def sigma0 (x : UInt32) : UInt32 := ROTR 7 x ^^^ ROTR 18 x ^^^ (x >>> 3)
def sigma1 (x : UInt32) : UInt32 := ROTR 17 x ^^^ ROTR 19 x ^^^ (x >>> 10)

/-- FIPS 180-4, 5.1.1: the message is followed by a one bit, as few zero bits as possible, and the
message length in bits as a 64 bit number, so that the length is a multiple of 512 bits. -/
def pad (m : Bytes) : Bytes :=
  m ++ [0x80] ++ List.replicate ((119 - m.length % 64) % 64) 0 ++
    (List.range 8).map fun i => UInt8.ofNat (m.length * 8 / 256 ^ (7 - i))

/-- Big endian 32 bit word. -/
def be32 (a b c d : UInt8) : UInt32 :=
  (a.toUInt32 <<< 24) ||| (b.toUInt32 <<< 16) ||| (c.toUInt32 <<< 8) ||| d.toUInt32

/-- The `n`-th 32 bit word of a byte string. -/
def word (p : Bytes) (n : Nat) : UInt32 :=
  be32 (p.getD (4 * n) 0) (p.getD (4 * n + 1) 0) (p.getD (4 * n + 2) 0) (p.getD (4 * n + 3) 0)

/-- FIPS 180-4, 6.2.2, step 1: message schedule. -/
def W (m : Nat → UInt32) (t : Nat) : UInt32 :=
  if t < 16 then m t
  else sigma1 (W m (t - 2)) + W m (t - 7) + sigma0 (W m (t - 15)) + W m (t - 16)
termination_by t
decreasing_by all_goals omega

/-- FIPS 180-4, 6.2.2, step 3: one round. -/
def round (m : Nat → UInt32) (s : H8) (t : Nat) : H8 :=
  let T1 := s.h + Sigma1 s.e + Ch s.e s.f s.g + K.getD t 0 + W m t
  let T2 := Sigma0 s.a + Maj s.a s.b s.c
  ⟨T1 + T2, s.a, s.b, s.c, s.d + T1, s.e, s.f, s.g⟩

/-- FIPS 180-4, 6.2.2: one block. -/
def block (H : H8) (m : Nat → UInt32) : H8 :=
  let s := (List.range 64).foldl (round m) H
  ⟨s.a + H.a, s.b + H.b, s.c + H.c, s.d + H.d, s.e + H.e, s.f + H.f, s.g + H.g, s.h + H.h⟩

def beBytes (x : UInt32) : Bytes :=
  [(x >>> 24).toUInt8, (x >>> 16).toUInt8, (x >>> 8).toUInt8, x.toUInt8]

def H8.bytes (s : H8) : Bytes :=
  beBytes s.a ++ beBytes s.b ++ beBytes s.c ++ beBytes s.d ++ beBytes s.e ++ beBytes s.f ++
    beBytes s.g ++ beBytes s.h

/-- FIPS 180-4, 6.2: SHA-256 of a byte string. -/
def sha256 (m : Bytes) : Bytes :=
  ((List.range ((pad m).length / 64)).foldl (fun H j => block H fun t => word (pad m) (16 * j + t))
    H0).bytes

/-- RFC 2104: `H(K XOR opad, H(K XOR ipad, text))` with the key padded to the block size `B = 64`;
only for keys of at most 64 bytes. -/
def hmac (key text : Bytes) : Bytes :=
  let k := key ++ List.replicate (64 - key.length) 0
  sha256 (k.map (· ^^^ 0x5c) ++ sha256 (k.map (· ^^^ 0x36) ++ text))

/-- RFC 5869, 2.2 -/
def hkdfExtract (salt ikm : Bytes) : Bytes := hmac salt ikm

/-- RFC 5869, 2.3: `T(0) = ""`, `T(i) = HMAC(PRK, T(i-1) | info | i)`. -/
def T (prk info : Bytes) : Nat → Bytes
  | 0 => []
  | i + 1 => hmac prk (T prk info i ++ info ++ [UInt8.ofNat (i + 1)])

/-- RFC 5869, 2.3: the first `n` blocks `T(1) | T(2) | ... | T(n)`, defined for `n ≤ 255`. -/
def hkdfExpand (prk info : Bytes) (n : Nat) : Bytes :=
  (List.range n).flatMap fun i => T prk info (i + 1)

end Fastd.Spec.Sha256
