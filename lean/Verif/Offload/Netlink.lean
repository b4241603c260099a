/-!
# Netlink messages (src/dep/libmnl/src/{nlmsg,attr,callback}.c)

Model only, of what the L2TP offload uses of the bundled libmnl. Messages live in a buffer of bytes, addressed by offsets from its
beginning. Every access outside of the buffer is a result of its own. Multi-byte numbers are in host byte order; the model is that of
a little-endian host. Pointers have 64 bits, `int` has 32 bits. Not modelled: printing, batches, nested attributes, and
the `_check` variants, which fastd does not use.
-/

namespace Fastd.Netlink

abbrev Bytes := List UInt8

/-- A `uint16_t` in memory -/
def le16 (n : Nat) : Bytes := [UInt8.ofNat n, UInt8.ofNat (n / 256)]

/-- A `uint32_t` in memory -/
def le32 (n : Nat) : Bytes := [UInt8.ofNat n, UInt8.ofNat (n / 256), UInt8.ofNat (n / 65536), UInt8.ofNat (n / 16777216)]

/-- Reads a byte; `none` is an access outside of the buffer. -/
def rd8 (b : Bytes) (off : Nat) : Option Nat := (b[off]?).map UInt8.toNat

/-- Reads a `uint16_t`. -/
def rd16 (b : Bytes) (off : Nat) : Option Nat := do
  let x ← rd8 b off
  let y ← rd8 b (off + 1)
  some (x + 256 * y)

/-- Reads a `uint32_t`. -/
def rd32 (b : Bytes) (off : Nat) : Option Nat := do
  let x ← rd16 b off
  let y ← rd16 b (off + 2)
  some (x + 65536 * y)

/-- Writes bytes; `none` is an access outside of the buffer. -/
def wr (b : Bytes) (off : Nat) (d : Bytes) : Option Bytes :=
  if off + d.length ≤ b.length then some (b.take off ++ d ++ b.drop (off + d.length)) else none

/-- The conversion to `int` -/
def int32 (n : Int) : Int := n.bmod 4294967296

/-- `MNL_ALIGN` of an `unsigned` (src/dep/libmnl/include/libmnl/libmnl.h:41) -/
def align32 (n : Nat) : Nat := (n + 3) % 4294967296 / 4 * 4

/-- `MNL_ALIGN` of a `size_t` or of a `uint16_t`, which is promoted -/
def align (n : Nat) : Nat := (n + 3) / 4 * 4

/-! ## Building messages -/

/-- `mnl_nlmsg_put_header` (src/dep/libmnl/src/nlmsg.c:81-89) -/
def putHeader (b : Bytes) : Option Bytes := do
  let b ← wr b 0 (List.replicate 16 0)
  wr b 0 (le32 16)

/-- `mnl_nlmsg_put_extra_header` (src/dep/libmnl/src/nlmsg.c:104-111): the buffer and the offset of the extra header -/
def putExtraHeader (b : Bytes) (size : Nat) : Option (Bytes × Nat) := do
  let ptr ← rd32 b 0
  let b ← wr b 0 (le32 (ptr + align size))
  let b ← wr b ptr (List.replicate (align size) 0)
  some (b, ptr)

/-- `mnl_attr_put` (src/dep/libmnl/src/attr.c:409-419), with `len` the length of `data`. The padding is left as it is. -/
def attrPut (b : Bytes) (type : Nat) (data : Bytes) : Option Bytes := do
  let len ← rd32 b 0
  let attr := align32 len
  let payloadLen := (4 + data.length) % 65536
  let b ← wr b (attr + 2) (le16 type)
  let b ← wr b attr (le16 payloadLen)
  let b ← wr b (attr + 4) data
  let len ← rd32 b 0
  wr b 0 (le32 (len + align payloadLen))

/-- `mnl_attr_put_u8` (src/dep/libmnl/src/attr.c:431-434) -/
def attrPutU8 (b : Bytes) (type : Nat) (data : Nat) : Option Bytes := attrPut b type [UInt8.ofNat data]

/-- `mnl_attr_put_u16` (src/dep/libmnl/src/attr.c:446-449) -/
def attrPutU16 (b : Bytes) (type : Nat) (data : Nat) : Option Bytes := attrPut b type (le16 data)

/-- `mnl_attr_put_u32` (src/dep/libmnl/src/attr.c:461-464) -/
def attrPutU32 (b : Bytes) (type : Nat) (data : Nat) : Option Bytes := attrPut b type (le32 data)

/-- `mnl_attr_put_strz` (src/dep/libmnl/src/attr.c:507-510); `s` is a string without its terminating NUL -/
def attrPutStrz (b : Bytes) (type : Nat) (s : Bytes) : Option Bytes := attrPut b type (s ++ [0])

/-! ## Reading messages -/

/-- What the handling of messages changes: `errno` and the data of the callbacks. -/
structure St where
  errno : Nat
  /-- `family_id` of `genl_get_family_id` (src/offload/l2tp/l2tp.c:134) -/
  family : Option Nat
  /-- `ifname` of `fastd_l2tp_session_get_ifname`, an array of `IFNAMSIZ` bytes -/
  ifname : Bytes
deriving DecidableEq, Repr

/-- The errors that are set by libmnl -/
def ESRCH : Nat := 3
def EINTR : Nat := 4
def EINVAL : Nat := 22
def ERANGE : Nat := 34
def EPROTO : Nat := 71
def EBADMSG : Nat := 74

/-- The outcome of handling messages -/
inductive Out
  /-- an access outside of the buffer -/
  | oob
  /-- not finished after the given number of messages -/
  | fuel
  | done (ret : Int) (s : St)
deriving DecidableEq, Repr

/-- `mnl_attr_get_type` (src/dep/libmnl/src/attr.c:39-42) -/
def attrType (b : Bytes) (attr : Nat) : Option Nat := do
  let t ← rd16 b (attr + 2)
  some (t % 16384)

/-- `mnl_attr_get_payload_len` (src/dep/libmnl/src/attr.c:63-66) -/
def attrPayloadLen (b : Bytes) (attr : Nat) : Option Nat := do
  let n ← rd16 b attr
  some ((n + 65536 - 4) % 65536)

/-- `mnl_attr_validate` for `MNL_TYPE_U16` (src/dep/libmnl/src/attr.c:139-189, 209-219): `some errno` is an error -/
def validateU16 (b : Bytes) (attr : Nat) : Option (Option Nat) := do
  let n ← attrPayloadLen b attr
  if n < 2 then some (some ERANGE) else if n > 2 then some (some ERANGE) else some none

/-- `mnl_attr_validate` for `MNL_TYPE_NUL_STRING` (src/dep/libmnl/src/attr.c:139-189, 209-219) -/
def validateNulString (b : Bytes) (attr : Nat) : Option (Option Nat) := do
  let n ← attrPayloadLen b attr
  if n = 0 then some (some ERANGE)
  else
    let c ← rd8 b (attr + 4 + (n - 1))
    if c ≠ 0 then some (some EINVAL) else some none

/-- `strncpy(ifname, s, n)`: the bytes written -/
def strncpy (b : Bytes) (off : Nat) : Nat → Option Bytes
  | 0 => some []
  | n + 1 =>
    match b[off]? with
    | none => none
    | some c =>
      if c = 0 then some (List.replicate (n + 1) 0)
      else (strncpy b (off + 1) n).map (c :: ·)

/-- The two callbacks for attributes (src/offload/l2tp/l2tp.c:98-110, 199-213) -/
inductive Cb
  | getFamily | getIfname
deriving DecidableEq, Repr

/-- `getfamily_cb` and `session_get_ifname_cb` -/
def attrCb (cb : Cb) (b : Bytes) (attr : Nat) (s : St) : Option (Int × St) := do
  let t ← attrType b attr
  match cb with
  | .getFamily =>
    if t = 1 then
      match ← validateU16 b attr with
      | some e => some (-1, { s with errno := e })
      | none =>
        let v ← rd16 b (attr + 4)
        some (1, { s with family := some v })
    else some (1, s)
  | .getIfname =>
    if t = 8 then
      match ← validateNulString b attr with
      | some e => some (-1, { s with errno := e })
      | none =>
        let name ← strncpy b (attr + 4) 15
        some (1, { s with ifname := name ++ [0] })
    else some (1, s)

theorem rd8_lt {b : Bytes} {off n : Nat} (h : rd8 b off = some n) : off < b.length := by
  unfold rd8 at h
  rcases Nat.lt_or_ge off b.length with hl | hl
  · exact hl
  · rw [List.getElem?_eq_none hl] at h; cases h

theorem rd16_lt {b : Bytes} {off n : Nat} (h : rd16 b off = some n) : off + 1 < b.length := by
  unfold rd16 at h
  cases hx : rd8 b off with
  | none => rw [hx] at h; cases h
  | some x =>
    cases hy : rd8 b (off + 1) with
    | none => rw [hx, hy] at h; cases h
    | some y => exact rd8_lt hy

/-- `mnl_attr_parse` with the loop `mnl_attr_for_each` (src/dep/libmnl/src/attr.c:258-270,
src/dep/libmnl/include/libmnl/libmnl.h:146-149, `mnl_attr_ok` src/dep/libmnl/src/attr.c:95-101), from the attribute at `attr` on.
`tail` is the end of the message. -/
def attrLoop (cb : Cb) (b : Bytes) (tail : Nat) (attr : Nat) (ret : Int) (s : St) : Out :=
  let len := int32 ((tail : Int) - attr)
  if 4 ≤ len then
    match _hn : rd16 b attr with
    | none => .oob
    | some n =>
      if 4 ≤ n ∧ (n : Int) ≤ len then
        match attrCb cb b attr s with
        | none => .oob
        | some (ret, s) => if ret ≤ 0 then .done ret s else attrLoop cb b tail (attr + align n) ret s
      else .done ret s
  else .done ret s
termination_by b.length - attr
decreasing_by
  have := rd16_lt _hn
  simp only [align]
  omega

/-- `mnl_attr_parse` (src/dep/libmnl/src/attr.c:258-270) for the message at `nlh`; `offset` is 4 for all requests -/
def attrParse (cb : Cb) (b : Bytes) (nlh : Nat) (s : St) : Out :=
  match rd32 b nlh with
  | none => .oob
  | some n => attrLoop cb b (nlh + align32 n) (nlh + 16 + align 4) 1 s

/-- `mnl_cb_error` (src/dep/libmnl/src/callback.c:19-34). The negation of -2^31 is not modelled as undefined. -/
def cbError (b : Bytes) (nlh : Nat) (s : St) : Out :=
  match rd32 b nlh with
  | none => .oob
  | some n =>
    if n < 36 then .done (-1) { s with errno := EBADMSG }
    else
      match rd32 b (nlh + 16) with
      | none => .oob
      | some e =>
        if e = 0 then .done 0 { s with errno := 0 }
        else .done (-1) { s with errno := (int32 e).natAbs }

/-- The callbacks for one message (src/dep/libmnl/src/callback.c:75-92); `none` if there is none. For control messages these
are those of `default_cb_array` (src/dep/libmnl/src/callback.c:41-46). -/
def message (cb : Option Cb) (b : Bytes) (nlh : Nat) (type : Nat) (s : St) : Option Out :=
  if type ≥ 16 then cb.map fun cb => attrParse cb b nlh s
  else if type = 1 then some (.done 1 s)
  else if type = 2 then some (cbError b nlh s)
  else if type = 3 then some (.done 0 s)
  else if type = 4 then some (.done 1 s)
  else none

/-- `__mnl_cb_run` (src/dep/libmnl/src/callback.c:48-95), from the message at `nlh` on, for at most the given number of
messages (`mnl_nlmsg_ok` src/dep/libmnl/src/nlmsg.c:152-157, `mnl_nlmsg_next` :175-179, `mnl_nlmsg_seq_ok` :209-212,
`mnl_nlmsg_portid_ok` :229-232) -/
def cbLoop (cb : Option Cb) (b : Bytes) (seq portid : Nat) : Nat → Nat → Int → Int → St → Out
  | 0, _, _, _, _ => .fuel
  | fuel + 1, nlh, len, ret, s =>
    if 16 ≤ len then
      match rd32 b nlh with
      | none => .oob
      | some n =>
        if 16 ≤ n ∧ int32 n ≤ len then
          match rd32 b (nlh + 12), rd32 b (nlh + 8), rd16 b (nlh + 6), rd16 b (nlh + 4) with
          | some pid, some mseq, some flags, some type =>
            if pid ≠ 0 ∧ portid ≠ 0 ∧ pid ≠ portid then .done (-1) { s with errno := ESRCH }
            else if mseq ≠ 0 ∧ seq ≠ 0 ∧ mseq ≠ seq then .done (-1) { s with errno := EPROTO }
            else if flags / 16 % 2 = 1 then .done (-1) { s with errno := EINTR }
            else
              match message cb b nlh type s with
              | none => cbLoop cb b seq portid fuel (nlh + align32 n) (int32 (len - align32 n)) ret s
              | some (.done ret s) =>
                if ret ≤ 0 then .done ret s
                else cbLoop cb b seq portid fuel (nlh + align32 n) (int32 (len - align32 n)) ret s
              | some o => o
          | _, _, _, _ => .oob
        else .done ret s
    else .done ret s

/-- `mnl_cb_run` (src/dep/libmnl/src/callback.c:160-165) of the first `len` bytes -/
def cbRun (cb : Option Cb) (b : Bytes) (len : Nat) (seq portid : Nat) (fuel : Nat) (s : St) : Out :=
  cbLoop cb b seq portid fuel 0 (int32 len) 1 s

end Fastd.Netlink
