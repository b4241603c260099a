import Verif.Crypto.Ghash

/-!
# The GHASH implementation for x86 (src/crypto/mac/ghash/pclmulqdq/ghash_pclmulqdq_impl.c)

Model only. A `__m128i` is a `BitVec 128`, whose least significant byte is the first one in memory. The intrinsics are written
after Intel's descriptions of the instructions.
-/

namespace Fastd.Crypto.GhashClmul

open Fastd.Crypto.Ghash (Block Err zero makeSize inBlock)

abbrev Vec := BitVec 128

/-! ## Memory and intrinsics -/

/-- Loading a vector from memory (x86 is little endian) -/
def load (b : Block) : Vec := BitVec.ofNat 128 (b.foldr (fun x n => x.toNat + 256 * n) 0)

/-- Byte `k` of a vector -/
def byte (v : Vec) (k : Nat) : UInt8 := UInt8.ofNat (v.extractLsb' (8 * k) 8).toNat

/-- Storing a vector in memory -/
def store (v : Vec) : Block := (List.range 16).map (byte v)

def low (v : Vec) : BitVec 64 := v.extractLsb' 0 64
def high (v : Vec) : BitVec 64 := v.extractLsb' 64 64

/-- `_mm_slli_epi64`: both halves are shifted to the left, by less than 64 bits. -/
def slli_epi64 (v : Vec) (a : Nat) : Vec := high v <<< a ++ low v <<< a

/-- `_mm_srli_epi64` -/
def srli_epi64 (v : Vec) (a : Nat) : Vec := high v >>> a ++ low v >>> a

/-- `_mm_slli_si128`: the whole vector is shifted by bytes. -/
def slli_si128 (v : Vec) (n : Nat) : Vec := v <<< (8 * n)

/-- `_mm_srli_si128` -/
def srli_si128 (v : Vec) (n : Nat) : Vec := v >>> (8 * n)

/-- `_mm_shuffle_epi8`: byte `k` of the result is the byte of `v` which byte `k` of the mask gives, or 0 if the highest bit of the mask is set. -/
def shuffle_epi8 (v : Vec) (mask : Block) : Vec :=
  load (mask.map fun m => if m ≥ 128 then 0 else byte v (m.toNat % 16))

/-- The carry-less product of two 64 bit numbers -/
def clmul (a b : BitVec 64) : Vec :=
  (List.range 64).foldl (fun acc i => if a.getLsbD i then acc ^^^ (b.setWidth 128 <<< i) else acc) 0

/-- `_mm_clmulepi64_si128`: bits 0 and 4 of the constant select the halves. -/
def clmulepi64 (a b : Vec) (imm : Nat) : Vec :=
  clmul (if imm.testBit 0 then high a else low a) (if imm.testBit 4 then high b else low b)

/-! ## The implementation -/

/-- `shl` (src/crypto/mac/ghash/pclmulqdq/ghash_pclmulqdq_impl.c:41-47) -/
def shl (v : Vec) (a : Nat) : Vec :=
  let tmpl := slli_epi64 v a
  let tmpr := srli_epi64 v (64 - a)
  let tmpr := slli_si128 tmpr 8
  tmpl ^^^ tmpr

/-- `shr` (src/crypto/mac/ghash/pclmulqdq/ghash_pclmulqdq_impl.c:50-56) -/
def shr (v : Vec) (a : Nat) : Vec :=
  let tmpr := srli_epi64 v a
  let tmpl := slli_epi64 v (64 - a)
  let tmpl := srli_si128 tmpl 8
  tmpr ^^^ tmpl

/-- `BYTESWAP_SHUFFLE` (src/crypto/mac/ghash/pclmulqdq/ghash_pclmulqdq_impl.c:59) -/
def byteswapShuffle : Block := [15, 14, 13, 12, 11, 10, 9, 8, 7, 6, 5, 4, 3, 2, 1, 0]

/-- `byteswap` (src/crypto/mac/ghash/pclmulqdq/ghash_pclmulqdq_impl.c:62-64) -/
def byteswap (v : Vec) : Vec := shuffle_epi8 v byteswapShuffle

/-- `struct fastd_mac_state` (src/crypto/mac/ghash/pclmulqdq/ghash_pclmulqdq_impl.c:34-37) -/
structure State where
  H : Vec
  shiftSize : Bool
deriving DecidableEq

/-- `fastd_ghash_pclmulqdq_init` (src/crypto/mac/ghash/pclmulqdq/ghash_pclmulqdq_impl.c:68-79) -/
def init (key : Block) (shift : Bool) : State := ⟨byteswap (load key), shift⟩

/-- The multiplication in `gmul` (src/crypto/mac/ghash/pclmulqdq/ghash_pclmulqdq_impl.c:91-110): `(pl, ph)` before the shift -/
def multiply (v h : Vec) : Vec × Vec :=
  let z0 := clmulepi64 v h 0x11
  let z2 := clmulepi64 v h 0x00
  let tmpv := srli_si128 v 8
  let tmpv := tmpv ^^^ v
  let tmph := srli_si128 h 8
  let tmph := tmph ^^^ h
  let z1 := clmulepi64 tmpv tmph 0x00
  let z1 := z1 ^^^ z0
  let z1 := z1 ^^^ z2
  let tmp := srli_si128 z1 8
  let pl := z0 ^^^ tmp
  let tmp := slli_si128 z1 8
  let ph := z2 ^^^ tmp
  (pl, ph)

/-- The rest of `gmul` (src/crypto/mac/ghash/pclmulqdq/ghash_pclmulqdq_impl.c:112-139) -/
def reduce (pl ph : Vec) : Vec :=
  let tmp := srli_epi64 ph 63
  let tmp := srli_si128 tmp 8
  let pl := shl pl 1
  let pl := pl ^^^ tmp
  let ph := shl ph 1
  let b := slli_si128 ph 8
  let c := b
  let b := slli_epi64 b 62
  let c := slli_epi64 c 57
  let tmp := b ^^^ c
  let d := ph ^^^ tmp
  let e := shr d 1
  let f := shr d 2
  let g := shr d 7
  let pl := pl ^^^ d
  let pl := pl ^^^ e
  let pl := pl ^^^ f
  let pl := pl ^^^ g
  pl

/-- `gmul` (src/crypto/mac/ghash/pclmulqdq/ghash_pclmulqdq_impl.c:90-140) -/
def gmul (v h : Vec) : Vec :=
  let (pl, ph) := multiply v h
  reduce pl ph

/-- `make_size` (lines 143-156), which is the same as that of the other implementation, as a vector -/
def makeSizeVec (len : Nat) (shift : Bool) : Except Err Vec := (makeSize len shift).map load

/-- The loop of `fastd_ghash_pclmulqdq_digest` (lines 166-170) -/
def digestLoop (s : State) (inp : List UInt8) : Nat → Nat → Vec → Except Err Vec
  | 0, _, v => .ok v
  | n + 1, i, v => do
    let b := load (← inBlock inp i)
    let v := v ^^^ byteswap b
    digestLoop s inp n (i + 1) (gmul v s.H)

/-- `fastd_ghash_pclmulqdq_digest` (src/crypto/mac/ghash/pclmulqdq/ghash_pclmulqdq_impl.c:159-179) -/
def digest (s : State) (inp : List UInt8) (length : Nat) : Except Err Block := do
  let nBlocks := (length + 15) / 16
  let v ← digestLoop s inp nBlocks 0 0
  let size ← makeSizeVec length s.shiftSize
  let v := v ^^^ byteswap size
  let v := gmul v s.H
  return store (byteswap v)

end Fastd.Crypto.GhashClmul
