/-!
# Netlink messages and the requests to the L2TP code of the kernel: specification

How the kernel reads messages, and how it writes them, as described by linux/netlink.h, linux/genetlink.h and linux/l2tp.h: a header of 16
bytes, the header of Generic Netlink of 4 bytes, and attributes that begin at multiples of 4. Independent of the model.
-/

namespace Fastd.Spec.Netlink

abbrev Bytes := List UInt8

/-- The number with the given bytes, the least significant one first -/
def num : Bytes → Nat
  | [] => 0
  | b :: l => b.toNat + 256 * num l

/-- The `k` least significant bytes of a number -/
def bytes : Nat → Nat → Bytes
  | 0, _ => []
  | k + 1, n => UInt8.ofNat (n % 256) :: bytes k (n / 256)

/-- The number of bytes up to the next multiple of 4 -/
def padding (n : Nat) : Nat := (4 - n % 4) % 4

/-- An attribute -/
structure Attr where
  type : Nat
  payload : Bytes
deriving DecidableEq, Repr

/-- A message of a family of Generic Netlink -/
structure Msg where
  type : Nat
  flags : Nat
  seq : Nat
  pid : Nat
  cmd : Nat
  version : Nat
  attrs : List Attr
deriving DecidableEq, Repr

/-! ## Writing -/

/-- An attribute in memory -/
def encAttr (a : Attr) : Bytes :=
  bytes 2 (4 + a.payload.length) ++ bytes 2 a.type ++ a.payload ++ List.replicate (padding a.payload.length) 0

/-- The attributes in memory -/
def encAttrs (l : List Attr) : Bytes := l.flatMap encAttr

/-- The message in memory -/
def encode (m : Msg) : Bytes :=
  bytes 4 (20 + (encAttrs m.attrs).length) ++ bytes 2 m.type ++ bytes 2 m.flags ++ bytes 4 m.seq ++ bytes 4 m.pid
    ++ bytes 1 m.cmd ++ bytes 1 m.version ++ bytes 2 0 ++ encAttrs m.attrs

/-- A message `NLMSG_ERROR`: an error code, 0 for success, and (a part of) the request -/
structure Ack where
  flags : Nat
  seq : Nat
  pid : Nat
  /-- the error, negated by the kernel -/
  error : Nat
  /-- the header of the request, and what follows -/
  orig : Bytes

/-- The acknowledgement in memory -/
def encodeAck (a : Ack) : Bytes :=
  bytes 4 (20 + a.orig.length) ++ bytes 2 2 ++ bytes 2 a.flags ++ bytes 4 a.seq ++ bytes 4 a.pid
    ++ bytes 4 (4294967296 - a.error) ++ a.orig

/-! ## Reading -/

/-- The attributes of a message; every attribute but the last has to be padded -/
def attrs (l : Bytes) : Option (List Attr) :=
  if _h : l = [] then some []
  else
    let n := num (l.take 2)
    if n < 4 ∨ l.length < n then none
    else
      match attrs (l.drop (n + padding n)) with
      | none => none
      | some as => some ({ type := num ((l.drop 2).take 2), payload := (l.take n).drop 4 } :: as)
termination_by l.length
decreasing_by
  have : 0 < l.length := List.length_pos_iff.2 _h
  simp only [List.length_drop]
  omega

/-- Reads a message that fills all of the datagram -/
def decode (l : Bytes) : Option Msg :=
  if l.length < 20 ∨ num (l.take 4) ≠ l.length then none
  else
    match attrs (l.drop 20) with
    | none => none
    | some as =>
      some { type := num ((l.drop 4).take 2), flags := num ((l.drop 6).take 2), seq := num ((l.drop 8).take 4)
             pid := num ((l.drop 12).take 4), cmd := num ((l.drop 16).take 1), version := num ((l.drop 17).take 1)
             attrs := as }

/-- The payload of the last attribute of a type: earlier ones are overwritten. The two highest bits of the type are flags. -/
def attr (as : List Attr) (t : Nat) : Option Bytes := (as.reverse.find? fun a => a.type % 16384 = t).map (·.payload)

/-- An attribute that is a number of `k` bytes -/
def attrNum (as : List Attr) (t k : Nat) : Option Nat :=
  match attr as t with
  | some p => if p.length = k then some (num p) else none
  | none => none

/-- An attribute that is a string with its terminating NUL -/
def attrStr (as : List Attr) (t : Nat) : Option Bytes :=
  match attr as t with
  | some p => if p.getLast? = some 0 ∧ 0 ∉ p.dropLast then some p.dropLast else none
  | none => none

/-- A string as it is stored in an array of 16 bytes: cut off after 15, and filled up with NUL -/
def name16 (p : Bytes) : Bytes :=
  let n := (p.takeWhile (· ≠ 0)).take 15
  n ++ List.replicate (16 - n.length) 0

/-- Requests -/
inductive Req
  /-- the number of the family of this name -/
  | getFamily (name : Bytes)
  /-- create a tunnel of this version of L2TP over the UDP socket `fd` -/
  | tunnelCreate (id peerId version fd : Nat)
  /-- create an Ethernet session in the tunnel `id`, without an L2-specific sublayer; the interface may be given a name -/
  | sessionCreate (id session peerSession : Nat) (ifname : Option Bytes)
  | sessionGet (id session : Nat)
  | sessionDelete (id session : Nat)
deriving DecidableEq, Repr

/-- The request of a message to the controller of Generic Netlink, which has the number 16: an acknowledged `CTRL_CMD_GETFAMILY` -/
def control (m : Msg) : Option Req :=
  if m.type = 16 ∧ m.flags = 5 ∧ m.cmd = 3 ∧ m.version = 1 then
    match attrStr m.attrs 2 with
    | some n => some (.getFamily n)
    | none => none
  else none

/-- The request of a message to the L2TP family, to be acknowledged -/
def l2tp (family : Nat) (m : Msg) : Option Req :=
  if m.type = family ∧ m.flags = 5 ∧ m.version = 1 then
    match m.cmd with
    | 1 =>
      match attrNum m.attrs 9 4, attrNum m.attrs 10 4, attrNum m.attrs 7 1, attrNum m.attrs 23 4, attrNum m.attrs 2 2 with
      | some id, some peerId, some v, some fd, some 0 => some (.tunnelCreate id peerId v fd)
      | _, _, _, _, _ => none
    | 5 =>
      match attrNum m.attrs 9 4, attrNum m.attrs 11 4, attrNum m.attrs 12 4, attrNum m.attrs 1 2, attrNum m.attrs 5 1 with
      | some id, some s, some ps, some 5, some 0 =>
        match attr m.attrs 8 with
        | none => some (.sessionCreate id s ps none)
        | some _ =>
          match attrStr m.attrs 8 with
          | some n => some (.sessionCreate id s ps (some n))
          | none => none
      | _, _, _, _, _ => none
    | 6 =>
      match attrNum m.attrs 9 4, attrNum m.attrs 11 4 with
      | some id, some s => some (.sessionDelete id s)
      | _, _ => none
    | 8 =>
      match attrNum m.attrs 9 4, attrNum m.attrs 11 4 with
      | some id, some s => some (.sessionGet id s)
      | _, _ => none
    | _ => none
  else none

end Fastd.Spec.Netlink
