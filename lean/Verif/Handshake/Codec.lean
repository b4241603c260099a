import Verif.Basic

/-!
# Handshake packets: building, parsing and basic checks (src/handshake.c, src/handshake.h)

Model only. `none` as a result of a function on bytes stands for a memory error (a read outside the
packet, a NULL pointer dereference) or for an `exit_bug`, i.e. for something that must not happen.
-/

namespace Fastd.Handshake

abbrev Bytes := List UInt8

/-- `MAX_HANDSHAKE_SIZE` (src/handshake.h:25) -/
def MAX_HANDSHAKE_SIZE : Nat := 1232

/-- `RECORD_MAX` (src/handshake.h:50): number of record types. -/
def RECORD_MAX : Nat := 16

/-! Record types (src/handshake.h:34-49). -/
def RECORD_HANDSHAKE_TYPE : Nat := 0
def RECORD_REPLY_CODE : Nat := 1
def RECORD_ERROR_DETAIL : Nat := 2
def RECORD_FLAGS : Nat := 3
def RECORD_MODE : Nat := 4
def RECORD_PROTOCOL_NAME : Nat := 5
def RECORD_SENDER_KEY : Nat := 6
def RECORD_RECIPIENT_KEY : Nat := 7
def RECORD_SENDER_HANDSHAKE_KEY : Nat := 8
def RECORD_RECIPIENT_HANDSHAKE_KEY : Nat := 9
def RECORD_HANDSHAKE_TAG : Nat := 10
def RECORD_MTU : Nat := 11
def RECORD_METHOD_NAME : Nat := 12
def RECORD_VERSION_NAME : Nat := 13
def RECORD_METHOD_LIST : Nat := 14
def RECORD_TLV_MAC : Nat := 15

/-! Reply codes (src/handshake.h:54-59). -/
def REPLY_SUCCESS : UInt8 := 0
def REPLY_MANDATORY_MISSING : UInt8 := 1
def REPLY_UNACCEPTABLE_VALUE : UInt8 := 2

/-- `FLAG_L2TP_SUPPORT = FLAG_ALL = 0x01` (src/handshake.h:67-69) -/
def FLAG_L2TP_SUPPORT : UInt8 := 1
def FLAG_ALL : UInt8 := 1

/-- `sizeof(fastd_control_packet_t)` (src/types.h:56-63) -/
def controlSize : Nat := 12

/-- `sizeof(fastd_handshake_packet_t)` (src/handshake.h:76-81) -/
def headerSize : Nat := 4

/-- `RECORD_LEN` (src/handshake.h:63) -/
def recordLen (len : Nat) : Nat := len + 4

/-! ## Building packets

A packet under construction is the byte list starting at `buffer->data`; `avail` is the distance
from `buffer->data` to the end of the buffer (`base + max_buffer - data`). -/

/-- The fresh header written by `new_handshake` and `fastd_handshake_send_error`
(src/handshake.c:183-187, 316-321): type `PACKET_HANDSHAKE`, reserved byte, length 0. -/
def emptyPacket : Bytes := [1, 0, 0, 0]

/-- `fastd_handshake_tlv_len` (src/handshake.h:135-138): the big endian length field. -/
def tlvLen (pkt : Bytes) : Option Nat := do
  let h ← pkt[2]?
  let l ← pkt[3]?
  return h.toNat * 256 + l.toNat

/-- `fastd_handshake_extend` followed by filling in the value
(src/handshake.h:141-167 `fastd_handshake_add`): checks the space, updates the length field
(a `uint16_t`: the sum is truncated) and appends type, length (both little endian, truncated to
16 bit) and value. `none` is the `exit_bug`. -/
def add (avail : Nat) (pkt : Bytes) (type : Nat) (data : Bytes) : Option Bytes := do
  if pkt.length + recordLen data.length > avail then none
  else
    let old ← tlvLen pkt
    let new := (old + recordLen data.length) % 65536
    let pkt := (pkt.set 2 (.ofNat (new / 256))).set 3 (.ofNat new)
    return pkt ++ ([.ofNat type, .ofNat (type / 256), .ofNat data.length,
      .ofNat (data.length / 256)] ++ data)

/-- `fastd_handshake_add_uint8` (src/handshake.h:180-185) -/
def addUint8 (avail : Nat) (pkt : Bytes) (type : Nat) (v : UInt8) : Option Bytes :=
  add avail pkt type [v]

/-- The value bytes written by `fastd_handshake_add_uint16/24/32` (src/handshake.h:187-218):
little endian, `n` bytes. -/
def leBytes (n v : Nat) : Bytes := (List.range n).map fun i => .ofNat (v >>> (8 * i))

/-- `fastd_handshake_add_uint16` (src/handshake.h:187-194) -/
def addUint16 (avail : Nat) (pkt : Bytes) (type : Nat) (v : Nat) : Option Bytes :=
  add avail pkt type (leBytes 2 v)

/-- Number of bytes chosen by `fastd_handshake_add_uint` (src/handshake.h:220-231). -/
def uintWidth (v : Nat) : Nat :=
  if v > 0xffffff then 4 else if v > 0xffff then 3 else if v > 0xff then 2 else 1

/-- `fastd_handshake_add_uint` (src/handshake.h:220-231); the argument is a `uint32_t`. -/
def addUint (avail : Nat) (pkt : Bytes) (type : Nat) (v : Nat) : Option Bytes :=
  add avail pkt type (leBytes (uintWidth v) v)

/-- Several records in a row. -/
def addAll (avail : Nat) (pkt : Bytes) : List (Nat × Bytes) → Option Bytes
  | [] => some pkt
  | (t, d) :: rest => do addAll avail (← add avail pkt t d) rest

/-! ## Parsing -/

/-- `fastd_handshake_record_t` (src/handshake.h:84-87); `data` is an offset into the packet,
`none` the NULL pointer. -/
structure Rec where
  length : Nat
  data : Option Nat
deriving DecidableEq, Repr

abbrev Recs := Nat → Rec

/-- The zero-initialised record array. -/
def noRecs : Recs := fun _ => ⟨0, none⟩

def setRec (r : Recs) (t : Nat) (v : Rec) : Recs := fun t' => if t' = t then v else r t'

/-- The result of `parse_tlvs`: `valid` says whether `tlv_data` is set. `tlv_data` always points
to offset 4. -/
structure Parsed where
  valid : Bool
  tlvLen : Nat
  recs : Recs

/-- The loop of `parse_tlvs` (src/handshake.c:348-366). Positions are offsets into the packet.
`fuel` bounds the number of iterations; running out of it counts as a failure (`none`), so the
theorem that the parser never fails includes its termination. -/
def parseLoop (pkt : Bytes) (end_ : Nat) : Nat → Nat → Recs → Option Recs
  | 0, _, _ => none
  | fuel + 1, ptr, recs =>
    if ptr + 4 > end_ then some recs
    else do
      let b0 ← pkt[ptr]?
      let b1 ← pkt[ptr + 1]?
      let b2 ← pkt[ptr + 2]?
      let b3 ← pkt[ptr + 3]?
      let type := b0.toNat + b1.toNat <<< 8
      let len := b2.toNat + b3.toNat <<< 8
      if ptr + recordLen len > end_ then return recs
      else
        let recs := if type < RECORD_MAX then setRec recs type ⟨len, some (ptr + 4)⟩ else recs
        parseLoop pkt end_ fuel (ptr + recordLen len) recs

/-- `parse_tlvs` (src/handshake.c:332-369). -/
def parseTlvs (pkt : Bytes) : Option Parsed :=
  if pkt.length < headerSize then some ⟨false, 0, noRecs⟩
  else do
    let n ← tlvLen pkt
    if pkt.length < headerSize + n then return ⟨false, 0, noRecs⟩
    else
      let recs ← parseLoop pkt (headerSize + n) (pkt.length + 1) headerSize noRecs
      return ⟨true, n, recs⟩

/-! ## Reading records -/

/-- Byte `i` of a record's value, `none` for NULL or a read outside the packet. -/
def recByte (pkt : Bytes) (r : Rec) (i : Nat) : Option UInt8 := do
  let off ← r.data
  pkt[off + i]?

/-- `as_uint8` (src/handshake.c:43-45) -/
def asUint8 (pkt : Bytes) (r : Rec) : Option UInt8 := recByte pkt r 0

/-- `as_uint16` (src/handshake.c:48-50) -/
def asUint16 (pkt : Bytes) (r : Rec) : Option Nat := do
  let b1 ← recByte pkt r 1
  let b0 ← asUint8 pkt r
  return b1.toNat <<< 8 ||| b0.toNat

/-- `as_uint24` (src/handshake.c:53-55) -/
def asUint24 (pkt : Bytes) (r : Rec) : Option Nat := do
  let b2 ← recByte pkt r 2
  let v ← asUint16 pkt r
  return b2.toNat <<< 16 ||| v

/-- `as_uint32` (src/handshake.c:58-60) -/
def asUint32 (pkt : Bytes) (r : Rec) : Option Nat := do
  let b3 ← recByte pkt r 3
  let v ← asUint24 pkt r
  return b3.toNat <<< 24 ||| v

/-- `as_uint` (src/handshake.c:63-78) -/
def asUint (pkt : Bytes) (r : Rec) : Option Nat :=
  match r.length with
  | 0 => some 0
  | 1 => (asUint8 pkt r).map UInt8.toNat
  | 2 => asUint16 pkt r
  | 3 => asUint24 pkt r
  | 4 => asUint32 pkt r
  | _ => some 0xffffffff

/-- The value of a record as a byte string of its length, `none` if it is not inside the packet. -/
def recBytes (pkt : Bytes) (r : Rec) : Option Bytes := do
  let off ← r.data
  if off + r.length ≤ pkt.length then return (pkt.drop off).take r.length else none

/-! ## Strings -/

/-- `strncmp(str, buf, maxlen) == 0` for a NUL-terminated `str` and a buffer of `maxlen` bytes. -/
def strncmpEq : Bytes → Bytes → Bool
  | _, [] => true
  | s, b :: bs =>
    let c := s.headD 0
    if c ≠ b then false else if c = 0 then true else strncmpEq s.tail bs

/-- `strnlen` on a buffer -/
def strnlen (buf : Bytes) : Nat := (buf.takeWhile (· ≠ 0)).length

/-- `string_equal` (src/handshake.c:125-130); `str` is a C string without its terminator. -/
def stringEqual (str buf : Bytes) : Bool :=
  if str.length ≠ strnlen buf then false else strncmpEq str buf

/-- `create_method_list` (src/handshake.c:97-122): all names with their terminating NULs, minus the
last byte. `none` for an empty list, for which the C code would compute `len = SIZE_MAX` (callers
only pass non-NULL lists). -/
def createMethodList (methods : List Bytes) : Option Bytes :=
  if methods = [] then none
  else some ((methods.flatMap fun m => m ++ [0]).dropLast)

/-- `parse_string_list` (src/handshake.c:138-150): the list is built by pushing, so it comes out in
reverse order. -/
def parseStringList (data : Bytes) (ret : List Bytes) : List Bytes :=
  if h : data = [] then ret
  else
    let part := data.takeWhile (· ≠ 0)
    parseStringList (data.drop (part.length + 1)) (part :: ret)
termination_by data.length
decreasing_by
  simp only [List.length_drop]
  have := List.length_pos_iff.2 h
  omega

/-- Result of choosing a method. -/
inductive MethodChoice (α : Type)
  | bug            -- `exit_bug("fastd_method_get_by_name: can't find configured method")`
  | none
  | some (m : α)
deriving DecidableEq

/-- The loop in `fastd_handshake_get_method_by_name_list` (src/handshake.c:467-477). `allowed` is
the method list of the peer's group, `lookup` is `fastd_method_get_by_name`. -/
def chooseLoop {α : Type} (allowed : List Bytes) (lookup : Bytes → Option α) :
    List Bytes → Option α → MethodChoice α
  | [], .none => .none
  | [], .some m => .some m
  | name :: rest, cur =>
    if name ∈ allowed then
      match lookup name with
      | .none => .bug
      | .some m => chooseLoop allowed lookup rest (.some m)
    else chooseLoop allowed lookup rest cur

/-- `fastd_handshake_get_method_by_name_list` (src/handshake.c:457-482) given the value of the
method list record (`none`: record missing). -/
def methodByNameList {α : Type} (allowed : List Bytes) (lookup : Bytes → Option α)
    (record : Option Bytes) : MethodChoice α :=
  match record with
  | .none => .none
  | .some [] => .none
  | .some data => chooseLoop allowed lookup (parseStringList data []) .none

/-- `fastd_handshake_get_method_by_name` and `get_method_by_name` (src/handshake.c:444-454,
484-494): the record is copied and NUL-terminated, so only the part before the first NUL counts. -/
def methodByName {α : Type} (allowed : List Bytes) (lookup : Bytes → Option α)
    (record : Option Bytes) : Option α :=
  match record with
  | .none => .none
  | .some data =>
    let name := data.takeWhile (· ≠ 0)
    if name ∈ allowed then lookup name else .none

/-! ## Configuration, checks -/

/-- The parts of the configuration used in src/handshake.c. `modeTun` is `conf.mode == MODE_TUN`
(`get_mode_id`, src/handshake.c:82-94; TAP and multi-TAP have id 0). -/
structure Conf where
  protocolName : Bytes
  version : Bytes
  modeTun : Bool

def Conf.modeId (c : Conf) : UInt8 := if c.modeTun then 1 else 0

/-- `new_handshake` (src/handshake.c:153-208). `maxBuffer` is `ctx.max_buffer`. `none` stands for
any of the aborts (oversized handshake, oversized buffer, not enough space in `extend`).
`method`/`methods` are the method name and the method list. The result is the packet (from
`buffer->data`) and the space from there to the end of the buffer. -/
def newHandshake (c : Conf) (maxBuffer : Nat) (type : UInt8) (mtu : Nat) (method : Option Bytes)
    (methods : Option (List Bytes)) (tail : Nat) : Option (Bytes × Nat) := do
  let methodLen := (method.map List.length).getD 0
  let methodList ← match methods with
    | none => some []
    | some l => createMethodList l
  let space := controlSize + headerSize + 4 * recordLen 1 + (if mtu ≠ 0 then recordLen 2 else 0) +
    recordLen c.version.length + recordLen c.protocolName.length + recordLen methodLen +
    recordLen methodList.length + tail
  if space > MAX_HANDSHAKE_SIZE then none
  else if (space + 15) / 16 * 16 > maxBuffer then none
  else
    let avail := maxBuffer - controlSize
    let pkt ← addUint8 avail emptyPacket RECORD_HANDSHAKE_TYPE type
    let pkt ← addUint8 avail pkt RECORD_FLAGS FLAG_L2TP_SUPPORT
    let pkt ← addUint8 avail pkt RECORD_MODE c.modeId
    let pkt ← if mtu ≠ 0 then addUint16 avail pkt RECORD_MTU mtu else some pkt
    let pkt ← add avail pkt RECORD_VERSION_NAME c.version
    let pkt ← add avail pkt RECORD_PROTOCOL_NAME c.protocolName
    let pkt ← match method, methods with
      | some m, none => add avail pkt RECORD_METHOD_NAME m
      | _, _ => some pkt
    let pkt ← match methods with
      | some _ => add avail pkt RECORD_METHOD_LIST methodList
      | none => some pkt
    return (pkt, avail)

/-- `fastd_handshake_new_reply` (src/handshake.c:216-222) -/
def newReply (c : Conf) (maxBuffer : Nat) (type : UInt8) (mtu : Nat) (method : Option Bytes)
    (methods : Option (List Bytes)) (tail : Nat) : Option (Bytes × Nat) := do
  let (pkt, avail) ← newHandshake c maxBuffer type mtu method methods tail
  let pkt ← addUint8 avail pkt RECORD_REPLY_CODE 0
  return (pkt, avail)

/-- `fastd_handshake_new_init` (src/handshake.c:211-213) -/
def newInit (c : Conf) (maxBuffer : Nat) (tail : Nat) : Option (Bytes × Nat) :=
  newHandshake c maxBuffer 1 0 none none tail

/-- The packet sent by `fastd_handshake_send_error` (src/handshake.c:304-329). -/
def errorPacket (maxBuffer : Nat) (type code : UInt8) (detail : Nat) : Option Bytes := do
  let space := controlSize + headerSize + 4 * recordLen 1
  if (space + 15) / 16 * 16 > maxBuffer then none
  else
    let avail := maxBuffer - controlSize
    let pkt ← addUint8 avail emptyPacket RECORD_HANDSHAKE_TYPE (type + 1)
    let pkt ← addUint8 avail pkt RECORD_FLAGS FLAG_L2TP_SUPPORT
    let pkt ← addUint8 avail pkt RECORD_REPLY_CODE code
    addUint avail pkt RECORD_ERROR_DETAIL detail

/-- The L2TP control header (src/handshake.c:290-295). -/
def controlHeader : Bytes := [0xc8, 3, 0, 12, 0, 0, 0, 0, 0, 0, 0, 0]

/-- The datagrams emitted by `fastd_handshake_send_free` (src/handshake.c:279-301): `none` is
`FLAG_INITIAL`. -/
def sendFree (pkt : Bytes) (flags : Option UInt8) : List Bytes :=
  (if flags = none ∨ flags.all (fun f => f &&& FLAG_L2TP_SUPPORT = 0) then [pkt] else []) ++
  (if flags = none ∨ flags.all (fun f => f &&& FLAG_L2TP_SUPPORT ≠ 0) then [controlHeader ++ pkt]
   else [])

/-- A handshake as handed to the protocol. -/
structure Hs where
  type : UInt8
  flags : UInt8
  parsed : Parsed

/-- What `fastd_handshake_handle` does with a packet. -/
inductive Outcome
  | drop                                          -- ignored
  | error (type flags code : UInt8) (detail : Nat) -- error reply sent, packet not processed
  | pass (hs : Hs)                                -- handed to the protocol

/-- The protocol name check (src/handshake.c:394-401): `some true` if a name is present and wrong. -/
def badProtocol (c : Conf) (pkt : Bytes) (r : Rec) : Option Bool :=
  if r.data.isSome then (recBytes pkt r).bind fun b => some (!stringEqual c.protocolName b)
  else some false

/-- The mode check (src/handshake.c:403-410). -/
def badMode (c : Conf) (pkt : Bytes) (r : Rec) : Option Bool :=
  if r.data.isSome then
    if r.length ≠ 1 then some true
    else (asUint8 pkt r).bind fun b => some (b ≠ c.modeId : Bool)
  else some false

/-- The reply code check (src/handshake.c:412-423) for replies; `e` is the error detail record read
by `print_error_reply` (src/handshake.c:372-381). -/
def checkReply (pkt : Bytes) (r e : Rec) : Option (Option Outcome) :=
  if r.length ≠ 1 then some (some .drop)
  else (asUint8 pkt r).bind fun code =>
    if code ≠ REPLY_SUCCESS then
      if e.length = 1 ∨ e.length = 2 then
        (asUint pkt e).bind fun _ => some (some .drop)
      else some (some .drop)
    else some none

/-- `check_records` (src/handshake.c:384-426): `none` for a memory error, `some none` for `true`,
`some (some _)` for `false` with or without an error reply. -/
def checkRecords (c : Conf) (pkt : Bytes) (hs : Hs) : Option (Option Outcome) := do
  let r := hs.parsed.recs
  let err (detail : Nat) : Option (Option Outcome) :=
    some (some (.error hs.type hs.flags REPLY_UNACCEPTABLE_VALUE detail))
  let flagsBad := (r RECORD_FLAGS).data.isSome ∧
    ((r RECORD_FLAGS).length ≠ 1 ∨ hs.flags &&& ~~~FLAG_ALL ≠ (0 : UInt8))
  if flagsBad then err RECORD_FLAGS
  else
    let protoBad ← badProtocol c pkt (r RECORD_PROTOCOL_NAME)
    if protoBad then err RECORD_PROTOCOL_NAME
    else
      let modeBad ← badMode c pkt (r RECORD_MODE)
      if modeBad then err RECORD_MODE
      else if hs.type > 1 then checkReply pkt (r RECORD_REPLY_CODE) (r RECORD_ERROR_DETAIL)
      else some none

/-- Reading the flags (src/handshake.c:516-517); the zero-initialised value is kept otherwise. -/
def readFlags (pkt : Bytes) (r : Rec) : Option UInt8 :=
  if r.length ≥ 1 then asUint8 pkt r else some 0

/-- Copying the version name of replies (src/handshake.c:527-533); only the read matters. -/
def readVersion (pkt : Bytes) (type : UInt8) (r : Rec) : Option (Option Bytes) :=
  if type > 1 ∧ r.data.isSome then (recBytes pkt r).map some else some none

/-- `fastd_handshake_handle` up to the call of the protocol (src/handshake.c:497-535). -/
def handle (c : Conf) (hasControl : Bool) (pkt : Bytes) : Option Outcome := do
  let p ← parseTlvs pkt
  if ¬ p.valid then return .drop
  else if (p.recs RECORD_HANDSHAKE_TYPE).length ≠ 1 then return .drop
  else
    let type ← asUint8 pkt (p.recs RECORD_HANDSHAKE_TYPE)
    let flags ← readFlags pkt (p.recs RECORD_FLAGS)
    if ¬ hasControl ∧ flags &&& FLAG_L2TP_SUPPORT ≠ (0 : UInt8) then return .drop
    else
      match ← checkRecords c pkt ⟨type, flags, p⟩ with
      | some o => return o
      | none =>
        let _ ← readVersion pkt type (p.recs RECORD_VERSION_NAME)
        return .pass ⟨type, flags, p⟩

end Fastd.Handshake
