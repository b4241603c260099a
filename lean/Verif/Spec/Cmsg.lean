/-!
# Ancillary data: specification

How the kernel writes and reads control messages (net/core/scm.c, include/linux/socket.h, net/ipv4/ip_sockglue.c, net/ipv6/datagram.c; 64 bit, little endian).
Independent of the model.
-/

namespace Fastd.Spec.Cmsg

abbrev Bytes := List UInt8

/-- The number with the given bytes, the least significant one first -/
def num : Bytes → Nat
  | [] => 0
  | b :: l => b.toNat + 256 * num l

/-- The `k` least significant bytes of a number -/
def bytes : Nat → Nat → Bytes
  | 0, _ => []
  | k + 1, n => UInt8.ofNat (n % 256) :: bytes k (n / 256)

/-- The number of bytes up to the next multiple of 8 -/
def padding (n : Nat) : Nat := (8 - n % 8) % 8

/-- A control message -/
structure Msg where
  level : Nat
  type : Nat
  data : Bytes
deriving DecidableEq, Repr

/-- A message in memory (`put_cmsg`); what is used for padding is not specified -/
def Writes (m : Msg) (l : Bytes) : Prop :=
  ∃ pad : Bytes, pad.length = padding m.data.length ∧
    l = bytes 8 (16 + m.data.length) ++ bytes 4 m.level ++ bytes 4 m.type ++ m.data ++ pad

/-- Messages in memory -/
inductive WritesAll : List Msg → Bytes → Prop
  | nil : WritesAll [] []
  | cons {m l ms ls} : Writes m l → WritesAll ms ls → WritesAll (m :: ms) (l ++ ls)

/-- A message that fits into its fields -/
def Msg.Valid (m : Msg) : Prop := m.level < 2 ^ 32 ∧ m.type < 2 ^ 32 ∧ m.data.length < 2 ^ 32

/-- `IP_PKTINFO`: the index of the interface, the local address and the address in the header of the packet -/
def pktinfo4 (ifindex : Nat) (spec addr : Bytes) : Msg := ⟨0, 8, bytes 4 ifindex ++ spec ++ addr⟩

/-- `IPV6_PKTINFO`: the address in the header of the packet, and the index of the interface -/
def pktinfo6 (addr : Bytes) (ifindex : Nat) : Msg := ⟨41, 50, addr ++ bytes 4 ifindex⟩

/-- Neither of both -/
def Msg.Other (m : Msg) : Prop := ¬ (m.level = 0 ∧ m.type = 8) ∧ ¬ (m.level = 41 ∧ m.type = 50)

/-- Reading of messages passed to `sendmsg` (`for_each_cmsghdr`, `CMSG_OK`); `none`: `EINVAL` -/
def readAll (l : Bytes) : Option (List Msg) :=
  if l.length < 16 then some []
  else
    let n := num (l.take 8)
    if n < 16 ∨ l.length < n then none
    else
      match readAll (l.drop (n + padding n)) with
      | none => none
      | some ms => some (⟨num ((l.drop 8).take 4), num ((l.drop 12).take 4), (l.take n).drop 16⟩ :: ms)
termination_by l.length
decreasing_by
  simp only [List.length_drop]
  omega

/-- The source address that a datagram is to be sent from, and the interface to use (0: any) -/
inductive Source
  | v4 (addr : Bytes) (ifindex : Nat)
  | v6 (addr : Bytes) (ifindex : Nat)
deriving DecidableEq, Repr

/-- What a message passed to `sendmsg` asks for (`ip_cmsg_send`, `ip6_datagram_send_ctl`). For IPv4 this is `ipi_spec_dst`. -/
def source (m : Msg) : Option Source :=
  if m.level = 0 ∧ m.type = 8 ∧ m.data.length = 12 then some (.v4 ((m.data.drop 4).take 4) (num (m.data.take 4)))
  else if m.level = 41 ∧ m.type = 50 ∧ m.data.length = 20 then some (.v6 (m.data.take 16) (num (m.data.drop 16)))
  else none

end Fastd.Spec.Cmsg
