import Verif.Buffer.Buf

/-!
# The generic-poly1305 method on bytes

Model of `src/methods/generic_poly1305/generic_poly1305.c`. The cipher and the one-time authenticator
are parameters: `crypt iv input` is `session->cipher->crypt` (`none` when it reports failure) and
`auth key message` is `crypto_onetimeauth_poly1305` (src/methods/generic_poly1305/
generic_poly1305.c:150-153, 209).
-/

namespace Fastd.Method

open Fastd.Buffer

/-- `KEYBYTES` and `TAGBYTES` (generic_poly1305.c:28-32): 32 and 16. -/
def KEYBYTES : Nat := 32
def TAGBYTES : Nat := 16

/-- `COMMON_HEADBYTES`, `COMMON_HEADROOM` (src/methods/common.h:23-26). -/
def HEADBYTES : Nat := 8
def HEADROOM : Nat := 16

abbrev Crypt := List UInt8 → List UInt8 → Option (List UInt8)

/-- Result of `method_decrypt`: NULL (with the state of the input buffer, which the caller still
owns) or an output buffer (the input buffer has been freed). -/
inductive Dec
  | null (in_ : Buf)
  | out (b : Buf) (s : Common) (reordered : Option Bool)

/-- The `fail` label of `method_decrypt` (generic_poly1305.c:224-231). -/
def polyRestore (b : Buf) (tag : List UInt8) (n : Nonce) (compat : Bool) : Res Dec := do
  let b ← pushFrom b tag
  -- fastd_method_put_common_header_raw (src/methods/common.h:126-133)
  let b ← pushFrom b n.toList
  let b ← pushFrom b [0]
  let b ← pushFrom b [packetType compat]
  return .null b

/-- The end of `method_decrypt` after successful verification (generic_poly1305.c:212-222). -/
def polyFinish (s : Common) (now : Time) (n : Nonce) (age : Int) (out : Buf) : Res Dec := do
  let out ← pull out KEYBYTES
  match reorderCheck s now n age with
  | (.undef, s') => return .out { out with len := 0 } s' none
  | (.false, s') => return .out out s' (some false)
  | (.true, s') => return .out out s' (some true)

/-- `method_decrypt` (generic_poly1305.c:168-232). `st` is the storage of the allocated output
buffer, `encHeadroom` is `conf.encrypt_headroom`. -/
def polyDecrypt (crypt : Crypt) (auth : List UInt8 → List UInt8 → List UInt8) (ivLen : Nat)
    (encHeadroom maxBuffer : Nat) (s : Common) (now : Time) (b : Buf) (st : List UInt8) : Res Dec :=
  if b.len < HEADBYTES + TAGBYTES then .ok (.null b)
  else if s.isValid now = false then .ok (.null b)
  else match handleHeader s now b.data with
  | .bug => .abort
  | .refused => .ok (.null b)
  | .ok n flags age _ =>
    if flags ≠ 0 then .ok (.null b)
    else do
      let b ← pull b HEADBYTES
      let (tag, b) ← pullTo b TAGBYTES
      let b ← pushZero b KEYBYTES
      let out ← alloc st maxBuffer b.len (encHeadroom - KEYBYTES)
      let inblocks ← read b.base b.off (blockCount b.len 16 * 16)
      match crypt (expandNonce n ivLen) inblocks with
      | none => do
        let b ← pull b KEYBYTES
        polyRestore b tag n s.compat
      | some o => do
        let m ← write out.base out.off o
        let out := { out with base := m }
        let b ← pull b KEYBYTES
        let key ← read out.base out.off KEYBYTES
        if auth key b.data ≠ tag then polyRestore b tag n s.compat
        else polyFinish s now n age out

/-- `method_encrypt` (generic_poly1305.c:131-165): the output buffer and the new session state, or
NULL with the (modified) input buffer. -/
def polyEncrypt (crypt : Crypt) (auth : List UInt8 → List UInt8 → List UInt8) (ivLen maxBuffer : Nat)
    (s : Common) (b : Buf) (st : List UInt8) : Res (Option (Buf × Common)) := do
  let b ← pushZero b KEYBYTES
  let out ← alloc st maxBuffer b.len HEADROOM
  let inblocks ← read b.base b.off (blockCount b.len 16 * 16)
  match crypt (expandNonce s.sendNonce ivLen) inblocks with
  | none => return none
  | some o => do
    let m ← write out.base out.off o
    let out := { out with base := m }
    let key ← read out.base out.off KEYBYTES
    let out ← pull out KEYBYTES
    let out ← pushFrom out (auth key out.data)
    let out ← pushFrom out s.sendNonce.toList
    let out ← pushFrom out [0]
    let out ← pushFrom out [packetType s.compat]
    return some (out, { s with sendNonce := incrNonce s.sendNonce })

end Fastd.Method
