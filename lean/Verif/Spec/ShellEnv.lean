import Verif.Shell.Env
import Verif.Props.CryptoUtil

/-!
# What shell commands find in their environment

Written from doc/source/manual/config.rst:224-267, without reference to how the environment is built.
-/

namespace Fastd.ShellEnv.Spec

open Fastd.Log (str)

/-- `t` is the usual decimal text of `n`. -/
def Decimal (n : Nat) (t : Bytes) : Prop :=
  t ≠ [] ∧ (∀ c ∈ t, 0x30 ≤ c ∧ c ≤ 0x39) ∧
  t.foldl (fun v c => 10 * v + (c.toNat - 0x30)) 0 = n ∧
  (1 < t.length → t.head? ≠ some 0x30)

/-- What the C library guarantees: `inet_ntop` gives at most `INET6_ADDRSTRLEN - 1` characters and
interface names have less than `IFNAMSIZ` characters. -/
structure Sane (sys : Sys) : Prop where
  ntop4 : ∀ a, (sys.ntop4 a).length ≤ 45 ∧ 0 ∉ sys.ntop4 a
  ntop6 : ∀ a, (sys.ntop6 a).length ≤ 45 ∧ 0 ∉ sys.ntop6 a
  ifname : ∀ i nm, sys.ifname i = some nm → nm.length < 16 ∧ 0 ∉ nm

/-- The buffers have the sizes declared in C. -/
structure Sizes (st : Stack) : Prop where
  mtu : st.mtu.length = 6
  loc : st.loc.length = 62
  rem : st.rem.length = 62
  pid : st.pid.length = 20

/-- The text of an IP address: for link-local addresses with the interface they belong to. -/
def ipText (sys : Sys) : PAddr → Option Bytes
  | .unspec => none
  | .v4 a _ => some (sys.ntop4 a)
  | .v6 a _ scope =>
    if linkLocal a then
      match sys.ifname scope with
      | some nm => some (sys.ntop6 a ++ str "%" ++ nm)
      | none => some (sys.ntop6 a)
    else some (sys.ntop6 a)

/-- The port of an address, if it has one. -/
def portOf : PAddr → Option Nat
  | .unspec => none
  | .v4 _ p => some p.toNat
  | .v6 _ p _ => some p.toNat

/-- A variable holding a number, or not set if there is no number. -/
def Number (n : Option Nat) (v : Option Bytes) : Prop :=
  match n with
  | none => v = none
  | some n => ∃ t, v = some t ∧ Decimal n t

/-- A variable holding a key in hexadecimal, or not set if there is no key. -/
def KeyVar (k : Option Bytes) (v : Option Bytes) : Prop :=
  match k with
  | none => v = none
  | some k => ∃ t, v = some t ∧ Fastd.Util.Denotes t k

/-- The interface a command is about: that of the peer, the one of its offload session going first. -/
def ifaceOf : Occasion → Option Iface
  | .preUp => none
  | .postDown => none
  | .up i => some i
  | .down i => some i
  | .peerUp p _ => p.offload.or p.iface
  | .peerDown p _ => p.offload.or p.iface
  | .connect p _ _ _ => p.bind fun p => p.offload.or p.iface
  | .establish p => p.offload.or p.iface
  | .disestablish p => p.offload.or p.iface
  | .verify p _ _ => p.offload.or p.iface

/-- The peer a command is about. -/
def peerOf : Occasion → Option Peer
  | .preUp => none
  | .postDown => none
  | .up _ => none
  | .down _ => none
  | .peerUp p _ => some p
  | .peerDown p _ => some p
  | .connect p _ _ _ => p
  | .establish p => some p
  | .disestablish p => some p
  | .verify p _ _ => some p

/-- The local address of the connection a command is about: for outgoing handshakes the address of the
socket unless a particular one is used. -/
def localOf : Occasion → PAddr
  | .connect _ loc bound _ =>
    if loc.getD .unspec = .unspec then bound.getD .unspec else loc.getD .unspec
  | .establish p => p.loc
  | .disestablish p => p.loc
  | .verify _ loc _ => loc
  | _ => .unspec

/-- The remote address of the connection a command is about. -/
def remoteOf : Occasion → PAddr
  | .connect _ _ _ rem => rem
  | .establish p => p.addr
  | .disestablish p => p.addr
  | .verify _ _ rem => rem
  | _ => .unspec

/-- The ten variables of the manual, and `NOTIFY_SOCKET`. -/
def names : List Bytes :=
  [str "FASTD_PID", str "INTERFACE", str "INTERFACE_MTU", str "LOCAL_KEY", str "LOCAL_ADDRESS",
   str "LOCAL_PORT", str "PEER_ADDRESS", str "PEER_PORT", str "PEER_NAME", str "PEER_KEY",
   str "NOTIFY_SOCKET"]

/-- `e` gives the command's interface. An MTU of 0 means that it isn't known. -/
structure IfaceVars (o : Occasion) (e : PEnv) : Prop where
  iface : e (str "INTERFACE") = (ifaceOf o).map (·.name)
  mtu : Number (((ifaceOf o).map (·.mtu.toNat)).filter (· ≠ 0)) (e (str "INTERFACE_MTU"))

/-- `e` gives peer and addresses. -/
structure PeerVars (sys : Sys) (o : Occasion) (e : PEnv) : Prop where
  localAddress : e (str "LOCAL_ADDRESS") = ipText sys (localOf o)
  localPort : Number (portOf (localOf o)) (e (str "LOCAL_PORT"))
  peerAddress : e (str "PEER_ADDRESS") = ipText sys (remoteOf o)
  peerPort : Number (portOf (remoteOf o)) (e (str "PEER_PORT"))
  peerName : e (str "PEER_NAME") = (peerOf o).bind (·.name)
  peerKey : KeyVar ((peerOf o).map (·.key)) (e (str "PEER_KEY"))

/-- The documentation: what a command finds in `e` when fastd, with process ID `pid`, public key `pub`
and environment `base`, runs it. -/
structure Documented (sys : Sys) (pid : UInt32) (pub : Bytes) (base : PEnv) (o : Occasion) (e : PEnv) :
    Prop where
  pid : Number (some pid.toNat) (e (str "FASTD_PID"))
  iface : IfaceVars o e
  localKey : KeyVar (some pub) (e (str "LOCAL_KEY"))
  peer : PeerVars sys o e
  /-- systemd must not take a command's messages for those of fastd -/
  notify : e (str "NOTIFY_SOCKET") = none
  others : ∀ k, k ∉ names → e k = base k

/-- Commands about peers, that is all but those of the main configuration about fastd as a whole. -/
def AboutPeer : Occasion → Prop
  | .preUp => False
  | .postDown => False
  | .up _ => False
  | .down _ => False
  | _ => True

/-- All keys are public keys of 32 bytes. -/
def Keys (pub : Bytes) (o : Occasion) : Prop :=
  pub.length = 32 ∧ ∀ p, peerOf o = some p → p.key.length = 32

end Fastd.ShellEnv.Spec
