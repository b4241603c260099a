import Verif.Daemon.Status
import Verif.Spec.ShellEnv
import Verif.Props.Sessions

/-!
# What the status socket should tell
-/

namespace Fastd.Daemon

open Fastd.Log (str)
open Fastd.ShellEnv (Sys)
open Fastd.ShellEnv.Spec (Decimal)

/-- The value of a key of an object. -/
def Json.get : Json → Bytes → Option Json
  | .obj l, k => (l.find? (·.1 = k)).map (·.2)
  | _, _ => none

/-- The keys of an object. -/
def Json.keys : Json → List Bytes
  | .obj l => l.map (·.1)
  | _ => []

/-- The buffers have the sizes declared in C. -/
structure StatusEnv.Sizes (st : StatusEnv) : Prop where
  addr : st.addrBuf.length = 72
  key : st.keyBuf.length = 65
  eth : st.ethBuf.length = 18

/-- The text of an address and a port: IPv6 addresses are put in brackets, with their interface if they are link-local. -/
inductive AddrDenotes (sys : Sys) : Addr → Bytes → Prop
  | any {port : UInt16} : AddrDenotes sys (.unspec port) (str "any")
  | v4 {ip : Vector UInt8 4} {port : UInt16} {d : Bytes} (h : Decimal port.toNat d) :
      AddrDenotes sys (.v4 ip port) (sys.ntop4 ip.toList ++ str ":" ++ d)
  | v6 {ip : Vector UInt8 16} {port : UInt16} {flow scope : UInt32} {d : Bytes} (h : Decimal port.toNat d)
      (hn : linkLocal ip = false ∨ sys.ifname scope = none) :
      AddrDenotes sys (.v6 ip port flow scope) (str "[" ++ sys.ntop6 ip.toList ++ str "]:" ++ d)
  | scoped {ip : Vector UInt8 16} {port : UInt16} {flow scope : UInt32} {d nm : Bytes} (h : Decimal port.toNat d)
      (hl : linkLocal ip = true) (hn : sys.ifname scope = some nm) :
      AddrDenotes sys (.v6 ip port flow scope) (str "[" ++ sys.ntop6 ip.toList ++ str "%" ++ nm ++ str "]:" ++ d)

/-- The text of a MAC address: the bytes in hexadecimal, separated by colons. -/
def macText (mac : Bytes) : Bytes := (str ":").intercalate (mac.map Util.fmt02x)

variable [Env]

/-- The method packets for this peer are encrypted with. -/
def InUse (c : Ctx) (p : Peer) (m : Nat) : Prop :=
  (Initiated c p.sess ∧ SessOk c p.old ∧ p.old.method = some m) ∨
  (¬ (Initiated c p.sess ∧ SessOk c p.old) ∧ p.sess.method = some m)

/-- The description of a connection. -/
structure IsConnection (st : StatusEnv) (c : Ctx) (p : Peer) (j : Json) : Prop where
  established : j.get (str "established") = some (.int (c.now - p.established))
  method : ∃ m, InUse c p m ∧ j.get (str "method") = some (.str (Env.methodName m))
  statistics : j.get (str "statistics") = some (st.stats (some p.id))
  macs : Env.mode = .tap → j.get (str "mac_addresses") =
    some (.arr ((c.eth.filter (·.peer = some p.id)).map fun e => .str (macText (e.addr.take 6))))
  noMacs : Env.mode ≠ .tap → j.get (str "mac_addresses") = none

/-- The description of a peer. -/
structure IsPeer (st : StatusEnv) (c : Ctx) (p : Peer) (j : Json) : Prop where
  name : j.get (str "name") = some (strOrNull p.name)
  address : ∃ t, AddrDenotes st.sys p.addr t ∧ j.get (str "address") = some (.str t)
  iface : Env.sharedIface = false →
    j.get (str "interface") = some (if p.iface = none then .null else strOrNull (st.ifname (some p.id)))
  noIface : Env.sharedIface = true → j.get (str "interface") = none
  connection : p.state = .established → ∃ k, j.get (str "connection") = some k ∧ IsConnection st c p k
  noConnection : p.state ≠ .established → j.get (str "connection") = some .null

end Fastd.Daemon
