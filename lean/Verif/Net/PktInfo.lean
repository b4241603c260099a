import Verif.Daemon.Addr

/-!
# Datagrams and their ancillary data (src/receive.c:24-71, 246-286, src/send.c:24-155)

Model only. Ancillary data are bytes, laid out as on 64-bit little-endian Linux: `struct cmsghdr` is a length of 8 bytes, a level and a type of 4
bytes each; messages begin at multiples of 8. Not modelled: Android, other systems than Linux (`USE_PKTINFO` is set), and messages.
Pointers are offsets into the control buffer; comparing pointers far beyond its end is taken to work as for numbers.
-/

namespace Fastd.Net.PktInfo

open Fastd.Daemon (Addr linkLocal simplify widen)

abbrev Bytes := List UInt8

/-- Outcomes of reading control messages. -/
inductive Res (α : Type)
  | ok (a : α)
  /-- a read outside of the data that the kernel has written -/
  | outside
  /-- an endless loop -/
  | hang
deriving DecidableEq, Repr

/-- A number of `k` bytes in host byte order. -/
def leNum : Bytes → Nat
  | [] => 0
  | b :: l => b.toNat + 256 * leNum l

/-- A number of `k` bytes in memory, in host byte order. -/
def leBytes : Nat → Nat → Bytes
  | 0, _ => []
  | k + 1, n => UInt8.ofNat (n % 256) :: leBytes k (n / 256)

/-- Reads `k` bytes at an offset. -/
def slice (ctl : Bytes) (off k : Nat) : Res Bytes :=
  if off + k ≤ ctl.length then .ok ((ctl.drop off).take k) else .outside

/-- `IPPROTO_IP`, `IP_PKTINFO`, `IPPROTO_IPV6`, `IPV6_PKTINFO` of Linux (linux/in.h, linux/in6.h). -/
def ipprotoIp : Nat := 0
def ipPktinfo : Nat := 8
def ipprotoIpv6 : Nat := 41
def ipv6Pktinfo : Nat := 50

/-- `CMSG_ALIGN` (sys/socket.h of glibc): `(len + sizeof(size_t) - 1) & ~(sizeof(size_t) - 1)` in 64 bits. -/
def cmsgAlign (n : Nat) : Nat := (n + 7) % 18446744073709551616 / 8 * 8

/-- `CMSG_FIRSTHDR` (sys/socket.h) -/
def firstHdr (ctl : Bytes) : Option Nat := if 16 ≤ ctl.length then some 0 else none

/-- `__cmsg_nxthdr` (sys/socket.h, bits/socket.h of glibc) -/
def nextHdr (ctl : Bytes) (pos : Nat) : Res (Option Nat) :=
  match slice ctl pos 8 with
  | .ok l =>
    if leNum l < 16 then .ok none
    else
      let q := pos + cmsgAlign (leNum l)
      if ctl.length < q + 16 then .ok none
      else
        match slice ctl q 8 with
        | .ok l' => if ctl.length < q + cmsgAlign (leNum l') then .ok none else .ok (some q)
        | .outside => .outside
        | .hang => .hang
  | .outside => .outside
  | .hang => .hang

/-- `struct in_addr` in memory. -/
def vec4 (l : Bytes) : Vector UInt8 4 := Vector.ofFn fun i => l.getD i 0

/-- `struct in6_addr` in memory. -/
def vec16 (l : Bytes) : Vector UInt8 16 := Vector.ofFn fun i => l.getD i 0

/-- `fastd_peer_address_get_port` (src/peer.h:158-169); the port stays in network byte order. -/
def getPort : Addr → UInt16
  | .v4 _ port => port
  | .v6 _ port _ _ => port
  | .unspec _ => 0

/-- The address for IPv4 (src/receive.c:37-49): `struct in_pktinfo` is the index of the interface, `ipi_spec_dst` and `ipi_addr`. -/
def control4 (ctl : Bytes) (bound : Addr) (data : Nat) : Res Addr :=
  if ctl.length < data + 12 then .ok (.unspec 0)
  else
    match slice ctl data 12 with
    | .ok p => .ok (.v4 (vec4 (p.drop 8)) (getPort bound))
    | .outside => .outside
    | .hang => .hang

/-- The address for IPv6 (src/receive.c:52-69): `struct in6_pktinfo` is `ipi6_addr` and the index of the interface. -/
def control6 (ctl : Bytes) (bound : Addr) (data : Nat) : Res Addr :=
  if ctl.length < data + 20 then .ok (.unspec 0)
  else
    match slice ctl data 20 with
    | .ok p =>
      let ip := vec16 (p.take 16)
      .ok (.v6 ip (getPort bound) 0 (if linkLocal ip then UInt32.ofNat (leNum (p.drop 16)) else 0))
    | .outside => .outside
    | .hang => .hang

/-- The loop of `handle_socket_control` (src/receive.c:31-70). If the next message is not behind the current one, the loop never ends: it
stays at the same message. -/
def controlLoop (ctl : Bytes) (bound : Addr) (pos : Nat) : Res Addr :=
  if ctl.length < pos + 16 then .ok (.unspec 0)
  else
    match slice ctl (pos + 8) 4, slice ctl (pos + 12) 4 with
    | .ok level, .ok type =>
      if leNum level = ipprotoIp ∧ leNum type = ipPktinfo then control4 ctl bound (pos + 16)
      else if leNum level = ipprotoIpv6 ∧ leNum type = ipv6Pktinfo then control6 ctl bound (pos + 16)
      else
        match nextHdr ctl pos with
        | .ok none => .ok (.unspec 0)
        | .ok (some q) => if _h : q ≤ pos then .hang else controlLoop ctl bound q
        | .outside => .outside
        | .hang => .hang
    | _, _ => .outside
termination_by ctl.length - pos
decreasing_by omega

/-- `handle_socket_control` (src/receive.c:25-71) -/
def handleSocketControl (ctl : Bytes) (bound : Addr) : Res Addr :=
  match firstHdr ctl with
  | none => .ok (.unspec 0)
  | some pos => controlLoop ctl bound pos

/-- The result of `recvmsg`. -/
inductive Recv
  | error
  /-- a datagram, the address it came from, and the control messages -/
  | got (data : Bytes) (from_ : Addr) (ctl : Bytes)

/-- What happens with a datagram. -/
inductive Recd
  | dropped
  /-- `handle_socket_receive(sock, local, remote, buffer)` -/
  | handled (local_ remote : Addr) (data : Bytes)
  | outside
  | hang
deriving DecidableEq, Repr

/-- `fastd_receive` (src/receive.c:246-286). The size of the buffer is the subject of `Buffer/Path`. -/
def receive (bound : Addr) : Recv → Recd
  | .error => .dropped
  | .got data from_ ctl =>
    if data.length = 0 then .dropped
    else
      match handleSocketControl ctl bound with
      | .ok (.unspec _) => .dropped
      | .ok loc => .handled (simplify loc) (simplify from_) data
      | .outside => .outside
      | .hang => .hang

/-! ## Sending -/

/-- `CMSG_LEN` (sys/socket.h) -/
def cmsgLen (n : Nat) : Nat := 16 + n

/-- A control message as it is written to the zeroed buffer (src/send.c:38-41, 52-55). -/
def cmsgHdr (level type n : Nat) : Bytes := leBytes 8 (cmsgLen n) ++ leBytes 4 level ++ leBytes 4 type

/-- `add_pktinfo` (src/send.c:25-67): the contents of the control buffer. The buffer has 1024 bytes, which is more than both messages need. -/
def addPktinfo : Option Addr → Bytes
  | none => []
  | some (.unspec _) => []
  | some (.v4 ip _) => cmsgHdr ipprotoIp ipPktinfo 12 ++ (leBytes 4 0 ++ ip.toList ++ leBytes 4 0)
  | some (.v6 ip _ _ scope) =>
    cmsgHdr ipprotoIpv6 ipv6Pktinfo 20 ++ (ip.toList ++ leBytes 4 (if linkLocal ip then scope.toNat else 0))

/-- Errors of `sendmsg`. -/
inductive Errno
  | inval | netunreach | again | netdown | hostunreach | other
deriving DecidableEq, Repr

/-- Counters (src/fastd.h) -/
inductive Stat
  | tx | txDropped | txError
deriving DecidableEq, Repr

/-- What `fastd_send` does. -/
inductive Eff
  /-- `sendmsg`: the address, the control messages, and the data -/
  | sendmsg (name : Addr) (ctl : Bytes) (data : Bytes)
  /-- `fastd_peer_schedule_handshake_default` -/
  | schedule
  /-- a packet of this size is counted -/
  | stat (s : Stat) (bytes : Nat)
deriving DecidableEq, Repr

/-- How `fastd_send` ends. -/
inductive End
  | done | bug | null
deriving DecidableEq, Repr

/-- The peer a packet is sent to: is a handshake scheduled? -/
abbrev PeerArg := Option Bool

/-- `fastd_stats_add` (src/peer.h:287-298), with `WITH_STATUS_SOCKET` -/
def statsAdd (peer : PeerArg) (s : Stat) (bytes : Nat) : List Eff × End :=
  if bytes = 0 then ([], .done)
  else
    match peer with
    | none => ([], .null)
    | some _ => ([.stat s bytes], .done)

/-- What is counted (src/send.c:133-154) -/
def count (peer : PeerArg) (size : Nat) : Option Errno → List Eff × End
  | none => statsAdd peer .tx size
  | some .again => statsAdd peer .txDropped size
  | some .netdown => statsAdd peer .txError size
  | some .netunreach => statsAdd peer .txError size
  | some .hostunreach => statsAdd peer .txError size
  | some _ => statsAdd peer .txError size

/-- The second attempt (src/send.c:117-131) -/
def again (name : Addr) (ctl data : Bytes) (peer : PeerArg) (first second : Option Errno) : List Eff × Option Errno :=
  match first with
  | some e =>
    if ctl ≠ [] ∧ (e = .inval ∨ e = .netunreach) then
      ((if peer = some false then [.schedule] else []) ++ [.sendmsg name [] data], second)
    else ([], first)
  | none => ([], first)

/-- `fastd_send` (src/send.c:70-155). `bound` is the address of the socket; `first` and `second` are the errors of the calls of `sendmsg`. -/
def send (bound : Option Addr) (loc : Option Addr) (remote : Addr) (peer : PeerArg) (data : Bytes) (size : Nat) (first second : Option Errno) :
    List Eff × End :=
  match bound with
  | none => ([], .bug)
  | some b =>
    match remote with
    | .unspec _ => ([], .bug)
    | _ =>
      let name := match b with
        | .v6 .. => widen remote
        | _ => remote
      let ctl := addPktinfo loc
      let r := again name ctl data peer first second
      let s := count peer size r.2
      (.sendmsg name ctl data :: r.1 ++ s.1, s.2)

end Fastd.Net.PktInfo
