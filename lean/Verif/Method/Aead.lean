import Verif.Method.Poly1305

/-!
# The other payload methods on bytes

Models of `method_encrypt` and `method_decrypt` of the gmac/umac methods (generic and composed), of
`cipher-test`, `null` and `null@l2tp`. Ciphers and MACs are parameters: `crypt iv input` is
`cipher->crypt` (`none`: failure) on a whole number of blocks; `digest blocks length` is
`mac->digest`, given all the blocks it reads (`block_count(length, 16)` of them) and the length.
Return value `none` of an encryption is NULL. `st` is the storage of the buffer that is allocated.
The bytes a failing `crypt` may have left in the output buffer are not modelled: that buffer is
freed at once.
-/

namespace Fastd.Method

open Fastd.Buffer

abbrev Digest := List UInt8 → Nat → Option (List UInt8)

/-- `block_xor_a` on byte strings (src/crypto.h:123-131). -/
def xorBytes (a b : List UInt8) : List UInt8 := List.zipWith (· ^^^ ·) a b

/-- `fastd_method_put_common_header` (src/methods/common.h:126-140) on a buffer. -/
def putHeaderBuf (s : Common) (b : Buf) : Res (Buf × Common) := do
  let b ← pushFrom b s.sendNonce.toList
  let b ← pushFrom b [0]
  let b ← pushFrom b [packetType s.compat]
  return (b, { s with sendNonce := incrNonce s.sendNonce })

/-- The reorder check at the end of every `method_decrypt` (e.g.
src/methods/generic_gmac/generic_gmac.c:231-235). -/
def finishDecrypt (s : Common) (now : Time) (n : Nonce) (age : Int) (out : Buf) : Dec :=
  match reorderCheck s now n age with
  | (.undef, s') => .out { out with len := 0 } s' none
  | (.false, s') => .out out s' (some false)
  | (.true, s') => .out out s' (some true)

/-! ### generic-gmac, generic-umac -/

/-- Zero padding, digest and tag (src/methods/generic_gmac/generic_gmac.c:168-173,
generic_umac.c:148-153, composed_gmac.c:206-211, composed_umac.c:184-189): the first 16 bytes of
`out` are combined with the digest of the rest. -/
def addTag (digest : Digest) (out : Buf) : Res (Option Buf) := do
  let out ← zeroPad out
  let msg ← read out.base (out.off + 16) (blockCount (out.len - 16) 16 * 16)
  match digest msg (out.len - 16) with
  | none => return none
  | some tag => do
    let t0 ← read out.base out.off 16
    let m ← write out.base out.off (xorBytes t0 tag)
    return some { out with base := m }

/-- The common end of the four MAC methods' `method_encrypt`. -/
def sealEnd (digest : Digest) (s : Common) (out : Buf) : Res (Option (Buf × Common)) := do
  match ← addTag digest out with
  | none => return none
  | some out => do
    let r ← putHeaderBuf s out
    return some r

/-- `method_encrypt` (src/methods/generic_gmac/generic_gmac.c:150-184,
src/methods/generic_umac/generic_umac.c:130-164). -/
def genEncrypt (crypt : Crypt) (digest : Digest) (ivLen maxBuffer : Nat) (s : Common) (b : Buf)
    (st : List UInt8) : Res (Option (Buf × Common)) := do
  let b ← pushZero b 16
  let out ← alloc st maxBuffer b.len HEADROOM
  let inblocks ← read b.base b.off (blockCount b.len 16 * 16)
  match crypt (expandNonce s.sendNonce ivLen) inblocks with
  | none => return none
  | some o => do
    let m ← write out.base out.off o
    sealEnd digest s { out with base := m }

/-- Checking the digest of a received packet (view starting at offset `off`, length `len`) against
the decrypted first block, and the end of `method_decrypt`
(src/methods/generic_gmac/generic_gmac.c:221-242). -/
def openEnd (digest : Digest) (s : Common) (now : Time) (n : Nonce) (age : Int) (b : Buf)
    (off len : Nat) (out : Buf) : Res Dec := do
  let msg ← read b.base (off + 16) (blockCount (len - 16) 16 * 16)
  match digest msg (len - 16) with
  | none => return .null b
  | some tag => do
    let t0 ← read out.base out.off 16
    if tag ≠ t0 then return .null b
    else do
      let out ← pull out 16
      return finishDecrypt s now n age out

/-- `method_decrypt` (src/methods/generic_gmac/generic_gmac.c:187-242,
src/methods/generic_umac/generic_umac.c:167-222). -/
def genDecrypt (crypt : Crypt) (digest : Digest) (ivLen encHeadroom maxBuffer : Nat) (s : Common)
    (now : Time) (b : Buf) (st : List UInt8) : Res Dec :=
  if b.len < HEADBYTES + 16 then .ok (.null b)
  else if s.isValid now = false then .ok (.null b)
  else match handleHeader s now b.data with
  | .bug => .abort
  | .refused => .ok (.null b)
  | .ok n flags age _ =>
    if flags ≠ 0 then .ok (.null b)
    else do
      let off := b.off + HEADBYTES
      let len := b.len - HEADBYTES
      let out ← alloc st maxBuffer len (encHeadroom - 16)
      let inblocks ← read b.base off (blockCount len 16 * 16)
      match crypt (expandNonce n ivLen) inblocks with
      | none => return .null b
      | some o => do
        let m ← write out.base out.off o
        openEnd digest s now n age b off len { out with base := m }

/-! ### composed-gmac, composed-umac -/

/-- `method_encrypt` (src/methods/composed_gmac/composed_gmac.c:183-222,
src/methods/composed_umac/composed_umac.c:161-200). `macCrypt` is the cipher that masks the tag. -/
def compEncrypt (crypt macCrypt : Crypt) (digest : Digest) (ivLen macIvLen maxBuffer : Nat)
    (s : Common) (b : Buf) (st : List UInt8) : Res (Option (Buf × Common)) := do
  let out ← alloc st maxBuffer (16 + b.len) HEADROOM
  match macCrypt (expandNonce s.sendNonce macIvLen) (List.replicate 16 0) with
  | none => return none
  | some t => do
    let m ← write out.base out.off t
    let inblocks ← read b.base b.off (blockCount b.len 16 * 16)
    match crypt (expandNonce s.sendNonce ivLen) inblocks with
    | none => return none
    | some o => do
      let m ← write m (out.off + 16) o
      sealEnd digest s { out with base := m }

/-- `method_decrypt` (src/methods/composed_gmac/composed_gmac.c:225-288,
src/methods/composed_umac/composed_umac.c:203-266). -/
def compDecrypt (crypt macCrypt : Crypt) (digest : Digest) (ivLen macIvLen encHeadroom maxBuffer : Nat)
    (s : Common) (now : Time) (b : Buf) (st : List UInt8) : Res Dec :=
  if b.len < HEADBYTES + 16 then .ok (.null b)
  else if s.isValid now = false then .ok (.null b)
  else match handleHeader s now b.data with
  | .bug => .abort
  | .refused => .ok (.null b)
  | .ok n flags age _ =>
    if flags ≠ 0 then .ok (.null b)
    else do
      let off := b.off + HEADBYTES
      let len := b.len - HEADBYTES
      let out ← alloc st maxBuffer len (encHeadroom - 16)
      let t ← read b.base off 16
      match macCrypt (expandNonce n macIvLen) t with
      | none => return .null b
      | some t => do
        let m ← write out.base out.off t
        let inblocks ← read b.base (off + 16) ((blockCount len 16 - 1) * 16)
        match crypt (expandNonce n ivLen) inblocks with
        | none => return .null b
        | some o => do
          let m ← write m (out.off + 16) o
          openEnd digest s now n age b off len { out with base := m }

/-! ### cipher-test, null, null@l2tp -/

/-- `method_encrypt` (src/methods/cipher_test/cipher_test.c:117-141). (An IV length of 0 is expanded
to one byte, which the cipher does not read.) -/
def ctEncrypt (crypt : Crypt) (ivLen maxBuffer : Nat) (s : Common) (b : Buf) (st : List UInt8) :
    Res (Option (Buf × Common)) := do
  let out ← alloc st maxBuffer b.len HEADROOM
  let inblocks ← read b.base b.off (blockCount b.len 16 * 16)
  match crypt (expandNonce s.sendNonce ivLen) inblocks with
  | none => return none
  | some o => do
    let m ← write out.base out.off o
    let r ← putHeaderBuf s { out with base := m }
    return some r

/-- `method_decrypt` (src/methods/cipher_test/cipher_test.c:144-189). -/
def ctDecrypt (crypt : Crypt) (ivLen encHeadroom maxBuffer : Nat) (s : Common) (now : Time) (b : Buf)
    (st : List UInt8) : Res Dec :=
  if b.len < HEADBYTES then .ok (.null b)
  else if s.isValid now = false then .ok (.null b)
  else match handleHeader s now b.data with
  | .bug => .abort
  | .refused => .ok (.null b)
  | .ok n flags age _ =>
    if flags ≠ 0 then .ok (.null b)
    else do
      let off := b.off + HEADBYTES
      let len := b.len - HEADBYTES
      let out ← alloc st maxBuffer len encHeadroom
      let inblocks ← read b.base off (blockCount len 16 * 16)
      match crypt (expandNonce n ivLen) inblocks with
      | none => return .null b
      | some o => do
        let m ← write out.base out.off o
        return finishDecrypt s now n age { out with base := m }

/-- `method_encrypt` (src/methods/null/null.c:80-85). -/
def nullEncrypt (compat : Bool) (b : Buf) : Res Buf := pushFrom b [packetType compat]

/-- `method_decrypt` (src/methods/null/null.c:88-93). -/
def nullDecrypt (b : Buf) : Res Buf := pull b 1

/-- The packet header of null@l2tp (src/methods/null-l2tp/null-l2tp.c:99-103): type `PACKET_DATA`,
version 3, two zero bytes, session ID 1. -/
def l2tpHeader : List UInt8 := [0, 3, 0, 0, 0, 0, 0, 1]

/-- The control header put before keepalives (null-l2tp.c:109-113, src/types.h
`fastd_control_packet_t`): `PACKET_CONTROL`, `PACKET_L2TP_VERSION`, length 12. -/
def controlHeader : List UInt8 := [0xc8, 3, 0, 12, 0, 0, 0, 0, 0, 0, 0, 0]

/-- `method_encrypt` (src/methods/null-l2tp/null-l2tp.c:98-124). -/
def l2tpEncrypt (maxBuffer : Nat) (b : Buf) (st : List UInt8) : Res Buf :=
  if b.len = 0 then do
    let out ← alloc st maxBuffer 0 20
    let out ← pushFrom out l2tpHeader
    pushFrom out controlHeader
  else pushFrom b l2tpHeader

/-- `method_decrypt` (src/methods/null-l2tp/null-l2tp.c:127-147): `none` is NULL. -/
def l2tpDecrypt (b : Buf) : Res (Option Buf) :=
  if b.len < 8 then .ok none
  else do
    let h ← read b.base b.off 8
    if (h.getD 1 0 &&& (0xf : UInt8)) ≠ 3 then return none
    else if (h.getD 0 0 &&& (0x80 : UInt8)) ≠ 0 then return none
    else if h.drop 4 ≠ [0, 0, 0, 1] then return none
    else do
      let b ← pull b 8
      return some b

end Fastd.Method
