import Verif.Basic

/-!
# The common packet format and session state (src/methods/common.c, common.h)

Model only. Properties are in `Verif/Props/Nonce.lean`.
-/

namespace Fastd.Method

/-- `uint8_t nonce[COMMON_NONCEBYTES]` with `COMMON_NONCEBYTES = 6`
(src/methods/common.h:20). Byte 0 is the first byte on the wire. -/
abbrev Nonce := Vector UInt8 6

/-- Numeric (big endian) value of a byte string. Specification-side helper. -/
def beVal (l : List UInt8) : Nat := l.foldl (fun a b => a * 256 + b.toNat) 0

/-- The number a nonce stands for. Specification-side helper. -/
def Nonce.val (n : Nonce) : Nat := beVal n.toList

/-- `fastd_method_common_t` (src/methods/common.h:30-45). The `peer` pointer (used for
log messages only) is left out; `flags` is split into the two flag bits
`FASTD_SESSION_INITIATOR` and `FASTD_SESSION_COMPAT` (src/types.h). -/
structure Common where
  initiator : Bool
  compat : Bool
  validTill : Time
  refreshAfter : Time
  sendNonce : Nonce
  receiveNonce : Nonce
  reorderTimeout : Time
  reorderSeen : BitVec 64
deriving DecidableEq

/-- All-zero nonce except for the last byte; result of the `memset` and the assignments to
`send_nonce[5]`/`receive_nonce[5]` in src/methods/common.c:19,27-32. -/
def lastByteNonce (b : UInt8) : Nonce := #v[0, 0, 0, 0, 0, b]

/-- `fastd_method_common_init` (src/methods/common.c:18-33). `splay` is the value
returned by `fastd_rand(0, KEY_REFRESH_SPLAY)`. -/
def Common.init (initiator compat : Bool) (now splay : Time) : Common where
  initiator := initiator
  compat := compat
  validTill := now + KEY_VALID
  refreshAfter := now + KEY_REFRESH - splay
  sendNonce := if initiator then lastByteNonce 3 else lastByteNonce 2
  receiveNonce := if initiator then lastByteNonce 0 else lastByteNonce 1
  reorderTimeout := 0
  reorderSeen := 0

/-- The loop computing `*age` in src/methods/common.c:41-49: bytewise big endian
difference, then an arithmetic right shift by one. The `int64_t` accumulator stays below
2^48 in absolute value, so it is modelled by `Int`; `>>= 1` on a negative value is the
usual arithmetic shift (floor division). (`*age <<= 8` on a negative value is formally
undefined in ISO C before C23; gcc and clang define it as multiplication.) -/
def nonceAge (recv nonce : Nonce) : Int :=
  ((List.zip recv.toList nonce.toList).foldl
    (fun (age : Int) p => age * 256 + ((p.1.toNat : Int) - (p.2.toNat : Int))) 0).fdiv 2

/-- `fastd_method_is_nonce_valid` (src/methods/common.c:36-60): `none` is the return value
`false`, `some age` the return value `true` with `*age = age`. -/
def isNonceValid (s : Common) (now : Time) (nonce : Nonce) : Option Int :=
  if nonce[0] &&& (1 : UInt8) ≠ s.receiveNonce[0] &&& (1 : UInt8) then none
  else
    let age := nonceAge s.receiveNonce nonce
    if age ≥ 0 then
      if timedOut s.reorderTimeout now then none
      else if age > 64 then none
      else some age
    else some age

/-- `fastd_tristate_t` as used by the reorder check (src/methods/common.c:62-68). -/
inductive Tristate | undef | false | true
deriving DecidableEq, Repr

/-- `fastd_method_reorder_check` (src/methods/common.c:69-93). Shifting a 64-bit value by
64 or more is undefined in C; the code guards both shifts and so does the model. -/
def reorderCheck (s : Common) (now : Time) (nonce : Nonce) (age : Int) : Tristate × Common :=
  if age < 0 then
    let shift : Nat := (-age).toNat
    let seen1 : BitVec 64 := if shift ≥ 64 then 0 else s.reorderSeen <<< shift
    let seen2 : BitVec 64 :=
      if shift ≤ 64 then seen1 ||| ((1 : BitVec 64) <<< (shift - 1)) else seen1
    (.false, { s with
      reorderSeen := seen2, receiveNonce := nonce, reorderTimeout := now + REORDER_TIME })
  else if age = 0 ∨ (s.reorderSeen &&& ((1 : BitVec 64) <<< (age - 1).toNat)) ≠ 0 then
    (.undef, s)
  else
    (.true, { s with reorderSeen := s.reorderSeen ||| ((1 : BitVec 64) <<< (age - 1).toNat) })

/-- `fastd_method_session_common_is_valid` (src/methods/common.h:61-66). -/
def Common.isValid (s : Common) (now : Time) : Bool :=
  if s.sendNonce[0] = 0xff ∧ s.sendNonce[1] = 0xff then false
  else !(timedOut s.validTill now)

/-- `fastd_method_session_common_want_refresh` (src/methods/common.h:82-90). -/
def Common.wantRefresh (s : Common) (now : Time) : Bool :=
  if s.sendNonce[0] = 0xff then true
  else if s.initiator && timedOut s.refreshAfter now then true
  else false

/-- `fastd_method_session_common_superseded` (src/methods/common.h:93-98). -/
def Common.superseded (s : Common) (now : Time) : Common :=
  let validMax := now + KEY_VALID_OLD
  if validMax < s.validTill then { s with validTill := validMax } else s

/-- The carry loop of `fastd_method_increment_nonce` (src/methods/common.h:111-114), on the
bytes in the order the loop visits them (index 4 down to 0). -/
def carry : List UInt8 → List UInt8
  | [] => []
  | b :: rest =>
    let b' := b + 1
    if b' ≠ 0 then b' :: rest else b' :: carry rest

theorem carry_length (l : List UInt8) : (carry l).length = l.length := by
  induction l with
  | nil => rfl
  | cons b r ih => simp only [carry]; split <;> simp [ih]

/-- `fastd_method_increment_nonce` (src/methods/common.h:106-116) on the byte list in
reverse order (last byte first). -/
def incrRev : List UInt8 → List UInt8
  | [] => []
  | b :: rest =>
    let b' := b + 2
    if (b' &&& 0xfe) = 0 then b' :: carry rest else b' :: rest

theorem incrRev_length (l : List UInt8) : (incrRev l).length = l.length := by
  cases l with
  | nil => rfl
  | cons b r => simp only [incrRev]; split <;> simp [carry_length]

/-- `fastd_method_increment_nonce` (src/methods/common.h:106-116) on a nonce. -/
def incrNonce (n : Nonce) : Nonce :=
  ⟨(incrRev n.toList.reverse).reverse.toArray, by simp [incrRev_length]⟩

/-- `PACKET_DATA = 0`, `PACKET_DATA_COMPAT = 2` chosen by `fastd_method_packet_type`
(src/methods/common.h:118-123, src/types.h). -/
def packetType (compat : Bool) : UInt8 := if compat then 2 else 0

/-- `fastd_method_put_common_header_raw` (src/methods/common.h:126-133) on the packet
bytes: nonce, then flags, then the type byte are pushed in front of the data. Headroom is
treated in the buffer model (`Verif/Buffer.lean`). -/
def putHeaderRaw (data : List UInt8) (nonce : Nonce) (flags : UInt8) (compat : Bool) :
    List UInt8 :=
  packetType compat :: flags :: (nonce.toList ++ data)

/-- `fastd_method_put_common_header` (src/methods/common.h:136-140). -/
def putHeader (s : Common) (data : List UInt8) (flags : UInt8) : List UInt8 × Common :=
  (putHeaderRaw data s.sendNonce flags s.compat, { s with sendNonce := incrNonce s.sendNonce })

/-- `fastd_method_take_common_header` (src/methods/common.h:143-148) on a view. `none` stands
for the `exit_bug` in `fastd_buffer_view_pull` (and the out-of-bounds read before it) when
the view is too short. Result: packet type, flags, nonce, remaining bytes. -/
def takeHeader : List UInt8 → Option (UInt8 × UInt8 × Nonce × List UInt8)
  | t :: f :: a :: b :: c :: d :: e :: g :: rest => some (t, f, #v[a, b, c, d, e, g], rest)
  | _ => none

/-- Result of `fastd_method_handle_common_header`. -/
inductive HeaderResult
  | bug
  | refused
  | ok (nonce : Nonce) (flags : UInt8) (age : Int) (rest : List UInt8)
deriving DecidableEq

/-- `fastd_method_handle_common_header` (src/methods/common.h:151-159). -/
def handleHeader (s : Common) (now : Time) (pkt : List UInt8) : HeaderResult :=
  match takeHeader pkt with
  | none => .bug
  | some (t, f, n, rest) =>
    if t = packetType s.compat then
      match isNonceValid s now n with
      | none => .refused
      | some age => .ok n f age rest
    else .refused

/-- `fastd_method_expand_nonce` (src/methods/common.h:168-175): the IV of length `len` built
from a nonce; `len = 0` leaves an empty buffer. -/
def expandNonce (n : Nonce) (len : Nat) : List UInt8 :=
  if len = 0 then []
  else ((n.toList ++ List.replicate len 0).take len).set (len - 1) 1

/-! ### Receiving authenticated packets -/

/-- What happens to an authenticated packet. -/
inductive Verdict
  | rejected   -- header check failed: `method_decrypt` returns NULL
  | duplicate  -- reorder check says UNDEF: the packet is dropped (`out->len = 0`)
  | inOrder    -- accepted, not reordered
  | reordered  -- accepted, reordered
deriving DecidableEq, Repr

/-- Was the packet's payload handed on? -/
def Verdict.accepted : Verdict → Bool
  | .inOrder | .reordered => true
  | _ => false

/-- The nonce part of every `method_decrypt` that uses the common header (e.g.
src/methods/composed_umac/composed_umac.c:203-266) for a packet that passes
authentication: session validity, header check, reorder check. -/
def receive (s : Common) (now : Time) (nonce : Nonce) : Verdict × Common :=
  if s.isValid now then
    match isNonceValid s now nonce with
    | none => (.rejected, s)
    | some age =>
      match reorderCheck s now nonce age with
      | (.undef, s') => (.duplicate, s')
      | (.false, s') => (.inOrder, s')
      | (.true, s') => (.reordered, s')
  else (.rejected, s)

/-- Sending one packet: `method_encrypt` after the validity check of `protocol_send`
(src/protocols/ec25519_fhmqvc/ec25519_fhmqvc.c, `check_session`): `none` if the session is
not valid, otherwise the nonce used and the new state. -/
def send (s : Common) (now : Time) : Option (Nonce × Common) :=
  if s.isValid now then some (s.sendNonce, { s with sendNonce := incrNonce s.sendNonce })
  else none

/-- Everything that can happen to a session object between its creation and its end. -/
inductive Event
  | send (now : Time)
  | receive (now : Time) (nonce : Nonce)
  | supersede (now : Time)

/-- What is observable of an event. -/
inductive Obs
  | sent (now : Time) (nonce : Nonce)
  | notSent
  | received (now : Time) (nonce : Nonce) (v : Verdict)
  | superseded (now : Time)
deriving DecidableEq

def step (s : Common) : Event → Obs × Common
  | .send now => match send s now with
    | none => (.notSent, s)
    | some (n, s') => (.sent now n, s')
  | .receive now n => let r := receive s now n; (.received now n r.1, r.2)
  | .supersede now => (.superseded now, s.superseded now)

/-- Run a history, collecting the observations in order. -/
def run (s : Common) : List Event → List Obs × Common
  | [] => ([], s)
  | e :: es =>
    let r := step s e
    let q := run r.2 es
    (r.1 :: q.1, q.2)

end Fastd.Method
