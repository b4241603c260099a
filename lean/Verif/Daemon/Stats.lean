import Verif.Daemon.Status

/-!
# Traffic statistics (src/peer.h, src/send.c, src/receive.c, src/status.c)

Model only: `fastd_stats_add` and everything that calls it, as far as it matters for the counters, with the counters as 64 bit numbers. Which calls of `sendmsg`
succeed, and whether encryption succeeds, is decided by parameters. Besides the counters, a log is kept of what has been done: calls of `sendmsg`, packets
written to an interface, and counters that were cleared. Which peers packets are sent to, encryption and decryption are modelled elsewhere (`Daemon`, `Method`).
-/

namespace Fastd.Daemon.Stats

open Fastd.Daemon (Json objAdd)
open Fastd.Log (str)

/-- `fastd_stat_type_t` (src/fastd.h:181-188) -/
inductive Stat
  | rx | rxReordered | tx | txDropped | txError
deriving DecidableEq, Repr

/-- `fastd_stats_t` (src/fastd.h:191-197) -/
structure Stats where
  packets : Stat → UInt64
  bytes : Stat → UInt64

/-- All counters are zero. -/
def Stats.zero : Stats := ⟨fun _ => 0, fun _ => 0⟩

/-- A packet is added to a counter. -/
def Stats.add (s : Stats) (t : Stat) (n : Nat) : Stats :=
  ⟨fun u => if u = t then s.packets u + 1 else s.packets u, fun u => if u = t then s.bytes u + UInt64.ofNat n else s.bytes u⟩

/-- `errno` after `sendmsg`. `EWOULDBLOCK` is `EAGAIN`. -/
inductive Errno
  | again | netdown | netunreach | hostunreach | inval | other (n : Nat)
deriving DecidableEq, Repr

/-- What has been done. Peers are identified by numbers. -/
inductive Obs
  /-- a packet has been passed to `sendmsg`, once or several times: its payload size, and the results of the calls (`none` is success) -/
  | sent (peer : Option Nat) (len : Nat) (results : List (Option Errno))
  /-- a packet received from a peer has been written to the interface -/
  | wrote (peer : Nat) (len : Nat) (reordered : Bool)
  /-- the connection with a peer has ended -/
  | cleared (peer : Nat)
deriving DecidableEq, Repr

/-- `ctx.stats`, and `stats` of all peers -/
structure St where
  total : Stats
  peers : Nat → Stats
  log : List Obs

/-- `fastd_stats_add` (src/peer.h:287-298); `none` stands for using a NULL pointer -/
def statsAdd (s : St) (peer : Option Nat) (t : Stat) (n : Nat) : Option St :=
  if n = 0 then some s
  else
    match peer with
    | none => none
    | some p => some { s with total := s.total.add t n, peers := fun q => if q = p then (s.peers q).add t n else s.peers q }

/-- The call of `sendmsg`, and the second one (src/send.c:112-129): the results. `pktinfo` tells whether the message has packet info; the arguments `r1` and `r2`
are what the system does. -/
def sendmsgs (pktinfo : Bool) (r1 r2 : Option Errno) : List (Option Errno) :=
  match r1 with
  | none => [none]
  | some e =>
    if pktinfo then
      match e with
      | .inval => [r1, r2]
      | .netunreach => [r1, r2]
      | _ => [r1]
    else [r1]

/-- `fastd_send` (src/send.c:69-156) -/
def send (s : St) (peer : Option Nat) (size : Nat) (pktinfo : Bool) (r1 r2 : Option Errno) : Option St :=
  let calls := sendmsgs pktinfo r1 r2
  let s := { s with log := s.log ++ [.sent peer size calls] }
  match calls.getLast?.join with
  | some .again => statsAdd s peer .txDropped size
  | some .netdown => statsAdd s peer .txError size
  | some .netunreach => statsAdd s peer .txError size
  | some .hostunreach => statsAdd s peer .txError size
  | some _ => statsAdd s peer .txError size
  | none => statsAdd s peer .tx size

/-- `session_send` (src/protocols/ec25519_fhmqvc/ec25519_fhmqvc.c:161-181): the size is that of the packet before encryption -/
def sessionSend (s : St) (peer : Nat) (len : Nat) (encrypts pktinfo : Bool) (r1 r2 : Option Errno) : Option St :=
  if !encrypts then some s
  else send s (some peer) len pktinfo r1 r2

/-- `fastd_handle_receive` (src/receive.c:287-329), up to writing to the interface -/
def handleReceive (s : St) (tap iface : Bool) (peer : Nat) (len : Nat) (reordered : Bool) : Option St :=
  if !iface then some s
  else if tap && decide (len < 14) then some s
  else
    match statsAdd s (some peer) .rx len with
    | none => none
    | some s =>
      match (if reordered then statsAdd s (some peer) .rxReordered len else some s) with
      | none => none
      | some s => some { s with log := s.log ++ [.wrote peer len reordered] }

/-- The end of `protocol_handle_recv` (src/protocols/ec25519_fhmqvc/ec25519_fhmqvc.c:147-152): empty packets are keepalives -/
def protocolRecv (s : St) (tap iface : Bool) (peer : Nat) (len : Nat) (reordered : Bool) : Option St :=
  if len ≠ 0 then handleReceive s tap iface peer len reordered
  else some s

/-- `reset_peer` (src/peer.c:317) -/
def resetPeer (s : St) (peer : Nat) : St :=
  { s with peers := fun q => if q = peer then .zero else s.peers q, log := s.log ++ [.cleared peer] }

/-- What can happen. -/
inductive Event
  /-- a packet is to be sent to a peer: its length (0 for keepalives), whether it can be encrypted, and the results of `sendmsg` -/
  | payload (peer len : Nat) (encrypts pktinfo : Bool) (r1 r2 : Option Errno)
  /-- a handshake is sent (src/handshake.c:287, 297); the peer may be unknown -/
  | handshake (peer : Option Nat) (pktinfo : Bool) (r1 r2 : Option Errno)
  /-- a packet has been decrypted -/
  | received (iface : Bool) (peer len : Nat) (reordered : Bool)
  | reset (peer : Nat)

/-- An event, in TAP mode or not -/
def step (tap : Bool) (s : St) : Event → Option St
  | .payload p len enc pk r1 r2 => sessionSend s p len enc pk r1 r2
  | .handshake p pk r1 r2 => send s p 0 pk r1 r2
  | .received iface p len re => protocolRecv s tap iface p len re
  | .reset p => some (resetPeer s p)

/-- Events in a row, until a NULL pointer is used -/
def run (tap : Bool) : St → List Event → Option St
  | s, [] => some s
  | s, e :: l =>
    match step tap s e with
    | none => none
    | some s => run tap s l

/-- The state after start-up -/
def init : St := ⟨.zero, fun _ => .zero, []⟩

/-- The conversion of `uint64_t` to `int64_t` for `json_object_new_int64` -/
def toInt64 (n : UInt64) : Int := if n.toNat < 2 ^ 63 then n.toNat else (n.toNat : Int) - 2 ^ 64

/-- `dump_stat` (src/status.c:60-68) -/
def dumpStat (s : Stats) (t : Stat) : Json :=
  let o := objAdd [] (str "packets") (.int (toInt64 (s.packets t)))
  .obj (objAdd o (str "bytes") (.int (toInt64 (s.bytes t))))

/-- `dump_stats` (src/status.c:75-87) -/
def dumpStats (s : Stats) : Json :=
  let o := objAdd [] (str "rx") (dumpStat s .rx)
  let o := objAdd o (str "rx_reordered") (dumpStat s .rxReordered)
  let o := objAdd o (str "tx") (dumpStat s .tx)
  let o := objAdd o (str "tx_dropped") (dumpStat s .txDropped)
  .obj (objAdd o (str "tx_error") (dumpStat s .txError))

end Fastd.Daemon.Stats
