/-!
# SHA-256, HMAC-SHA256, HKDF (src/sha256.c, src/hkdf_sha256.c)

Model only. `none` stands for a read outside the given input.
-/

namespace Fastd.Crypto

abbrev Bytes := List UInt8

/-- `rotr` (src/sha256.c:24-26) -/
def rotr (x : UInt32) (r : UInt32) : UInt32 := (x >>> r) ||| (x <<< (32 - r))

/-- `ntohl` of the word at the start of the given four bytes of memory. -/
def ntohl4 (a b c d : UInt8) : UInt32 :=
  (a.toUInt32 <<< 24) ||| (b.toUInt32 <<< 16) ||| (c.toUInt32 <<< 8) ||| d.toUInt32

/-- One iteration of the loop in `copy_words` (src/sha256.c:35-49); `left` is the value of `*left`
before the iteration. `blk` is the memory the block pointer points to. -/
def copyWord (blk : Bytes) (i : Nat) (left : Int) : Option UInt32 :=
  if left ≥ 4 then do
    return ntohl4 (← blk[4 * i]?) (← blk[4 * i + 1]?) (← blk[4 * i + 2]?) (← blk[4 * i + 3]?)
  else if left = 3 then do
    return ntohl4 (← blk[4 * i]?) (← blk[4 * i + 1]?) (← blk[4 * i + 2]?) 0 ||| ((0x80000000 : UInt32) >>> 24)
  else if left = 2 then do
    return ntohl4 (← blk[4 * i]?) (← blk[4 * i + 1]?) 0 0 ||| ((0x80000000 : UInt32) >>> 16)
  else if left = 1 then do
    return ntohl4 (← blk[4 * i]?) 0 0 0 ||| ((0x80000000 : UInt32) >>> 8)
  else if left = 0 then some 0x80000000
  else some 0

/-- `copy_words` (src/sha256.c:33-50) from iteration `i` on (`n` iterations left). `blk` is the
memory behind the block pointer; it is accessed only while `*left` is positive. -/
def copyWords (blk : Bytes) : Nat → Nat → Int → Option (List UInt32)
  | _, 0, _ => some []
  | i, n + 1, left => do
    let w ← copyWord blk i left
    let ws ← copyWords blk (i + 1) n (left - 4)
    return w :: ws

/-- `static const uint32_t k[64]` (src/sha256.c:54-63) -/
def shaK : List UInt32 := [
  0x428a2f98, 0x71374491, 0xb5c0fbcf, 0xe9b5dba5, 0x3956c25b, 0x59f111f1, 0x923f82a4, 0xab1c5ed5,
  0xd807aa98, 0x12835b01, 0x243185be, 0x550c7dc3, 0x72be5d74, 0x80deb1fe, 0x9bdc06a7, 0xc19bf174,
  0xe49b69c1, 0xefbe4786, 0x0fc19dc6, 0x240ca1cc, 0x2de92c6f, 0x4a7484aa, 0x5cb0a9dc, 0x76f988da,
  0x983e5152, 0xa831c66d, 0xb00327c8, 0xbf597fc7, 0xc6e00bf3, 0xd5a79147, 0x06ca6351, 0x14292967,
  0x27b70a85, 0x2e1b2138, 0x4d2c6dfc, 0x53380d13, 0x650a7354, 0x766a0abb, 0x81c2c92e, 0x92722c85,
  0xa2bfe8a1, 0xa81a664b, 0xc24b8b70, 0xc76c51a3, 0xd192e819, 0xd6990624, 0xf40e3585, 0x106aa070,
  0x19a4c116, 0x1e376c08, 0x2748774c, 0x34b0bcb5, 0x391c0cb3, 0x4ed8aa4a, 0x5b9cca4f, 0x682e6ff3,
  0x748f82ee, 0x78a5636f, 0x84c87814, 0x8cc70208, 0x90befffa, 0xa4506ceb, 0xbef9a3f7, 0xc67178f2]

/-- C arrays of words (`w[64]`, `v[8]`, `h[8]`); all indices used are constants or loop variables
inside the bounds. -/
abbrev Arr := List UInt32

/-- Array read. -/
def Arr.rd (a : Arr) (i : Nat) : UInt32 := a.getD i 0

/-- The loop body extending the message schedule (src/sha256.c:80-84). -/
def schedStep (w : Arr) (i : Nat) : Arr :=
  let s0 := rotr (w.rd (i - 15)) 7 ^^^ rotr (w.rd (i - 15)) 18 ^^^ (w.rd (i - 15) >>> 3)
  let s1 := rotr (w.rd (i - 2)) 17 ^^^ rotr (w.rd (i - 2)) 19 ^^^ (w.rd (i - 2) >>> 10)
  w.set i (w.rd (i - 16) + s0 + w.rd (i - 7) + s1)

/-- The body of the round loop (src/sha256.c:88-104). -/
def roundStep (w : Arr) (v : Arr) (i : Nat) : Arr :=
  let s1 := rotr (v.rd 4) 6 ^^^ rotr (v.rd 4) 11 ^^^ rotr (v.rd 4) 25
  let ch := (v.rd 4 &&& v.rd 5) ^^^ (~~~(v.rd 4) &&& v.rd 6)
  let temp1 := v.rd 7 + s1 + ch + shaK.getD i 0 + w.rd i
  let s0 := rotr (v.rd 0) 2 ^^^ rotr (v.rd 0) 13 ^^^ rotr (v.rd 0) 22
  let maj := (v.rd 0 &&& v.rd 1) ^^^ (v.rd 0 &&& v.rd 2) ^^^ (v.rd 1 &&& v.rd 2)
  let temp2 := s0 + maj
  let v : Arr := v.set 7 (v.rd 6)
  let v : Arr := v.set 6 (v.rd 5)
  let v : Arr := v.set 5 (v.rd 4)
  let v : Arr := v.set 4 (v.rd 3 + temp1)
  let v : Arr := v.set 3 (v.rd 2)
  let v : Arr := v.set 2 (v.rd 1)
  let v : Arr := v.set 1 (v.rd 0)
  v.set 0 (temp1 + temp2)

/-- The compression of one block with the 16 words `ws` (src/sha256.c:80-107). The uninitialised
rest of `w[64]` is zero in the model. -/
def compress (h : Arr) (ws : List UInt32) : Arr :=
  let w := (List.range' 16 48).foldl schedStep (ws ++ List.replicate 48 0)
  let v := (List.range 64).foldl (roundStep w) h
  (List.range 8).foldl (fun h i => h.set i (h.rd i + v.rd i)) h

/-- `uint32_t h[8]` (src/sha256.c:65-67) -/
def shaH0 : Arr :=
  [0x6a09e667, 0xbb67ae85, 0x3c6ef372, 0xa54ff53a, 0x510e527f, 0x9b05688c, 0x1f83d9ab, 0x5be0cd19]

/-- The main loop of `sha256_list` (src/sha256.c:71-108). `in` is the pointer array: the memory
behind each pointer. The code reads pointers beyond the end of the array when the message ends, but
does not use them; this is modelled by an empty block. `fuel` bounds the number of iterations,
running out of it counts as a failure. -/
def shaLoop (len : Nat) : Nat → List Bytes → Int → Arr → Option Arr
  | 0, _, _, _ => none
  | fuel + 1, inp, left, h =>
    if left ≥ -8 then do
      let w0 ← copyWords (inp.headD []) 0 8 left
      let w1 ← copyWords (inp.tail.headD []) 0 8 (left - 32)
      let left := left - 64
      let ws := w0 ++ w1
      let ws := if left < -8 then ws.set 15 (UInt32.ofNat (len <<< 3)) else ws
      shaLoop len fuel (inp.tail.tail) left (compress h ws)
    else some h

/-- `htonl` of a word as bytes in memory. -/
def htonlBytes (x : UInt32) : Bytes :=
  [(x >>> 24).toUInt8, (x >>> 16).toUInt8, (x >>> 8).toUInt8, x.toUInt8]

/-- `sha256_list` (src/sha256.c:53-112) -/
def sha256List (inp : List Bytes) (len : Nat) : Option Bytes := do
  let h ← shaLoop len (len + 2) inp len shaH0
  return (List.range 8).flatMap fun i => htonlBytes (h.rd i)

/-- The pointer array built from a contiguous buffer (src/sha256.c:145-149, 230-234): pointer `i`
is `in + 8 i` words, i.e. `32 i` bytes. -/
def blockPtrs (inp : Bytes) (len : Nat) : List Bytes :=
  (List.range ((len + 31) / 32)).map fun i => inp.drop (32 * i)

/-- `fastd_sha256_blocks` (src/sha256.c:115-141): complete blocks. -/
def sha256Blocks (blocks : List Bytes) : Option Bytes := sha256List blocks (blocks.length * 32)

/-- `fastd_sha256` (src/sha256.c:144-152) -/
def sha256 (inp : Bytes) (len : Nat) : Option Bytes := sha256List (blockPtrs inp len) len

/-- `hmacsha256_list` (src/sha256.c:155-182); the key is given as 32 bytes, the word-wise XOR with
0x36363636 is a byte-wise XOR with 0x36. -/
def hmacsha256List (key : Bytes) (inp : List Bytes) (len : Nat) : Option Bytes := do
  let ipad := key.map (· ^^^ 0x36)
  let opad := key.map (· ^^^ 0x5c)
  let temp ← sha256List (ipad :: List.replicate 32 0x36 :: inp.take ((len + 31) / 32)) (len + 64)
  sha256Blocks [opad, List.replicate 32 0x5c, temp]

/-- `fastd_hmacsha256` (src/sha256.c:228-237) -/
def hmacsha256 (key inp : Bytes) (len : Nat) : Option Bytes :=
  hmacsha256List key (blockPtrs inp len) len

/-- `fastd_hmacsha256_blocks` (src/sha256.c:185-212) -/
def hmacsha256Blocks (key : Bytes) (blocks : List Bytes) : Option Bytes :=
  hmacsha256List key blocks (blocks.length * 32)

/-- The loop of `fastd_hkdf_sha256_expand` (src/hkdf_sha256.c:34-40). `last` is the block just
written to `*out`, `ctr` the last byte of the buffer, a `uint8_t`. -/
def hkdfLoop (prk info : Bytes) : Nat → Bytes → UInt8 → Option Bytes
  | 0, _, _ => some []
  | n + 1, last, ctr => do
    let ctr := ctr + 1
    let buf := last ++ info ++ [ctr]
    let out ← hmacsha256 prk buf (32 + info.length + 1)
    let rest ← hkdfLoop prk info n out ctr
    return out ++ rest

/-- `fastd_hkdf_sha256_expand` (src/hkdf_sha256.c:20-41). -/
def hkdfExpand (blocks : Nat) (prk info : Bytes) : Option Bytes :=
  match blocks with
  | 0 => some []
  | n + 1 => do
    let out ← hmacsha256 prk (info ++ [1]) (info.length + 1)
    let rest ← hkdfLoop prk info n out 1
    return out ++ rest

/-- `fastd_hkdf_sha256_extract` (src/hkdf_sha256.h:20-23) -/
def hkdfExtract (salt inp : Bytes) (len : Nat) : Option Bytes := hmacsha256 salt inp len

end Fastd.Crypto
