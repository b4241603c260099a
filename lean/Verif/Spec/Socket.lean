import Verif.Net.Socket

/-!
# What is expected of the sockets
-/

namespace Fastd.Net

open Fastd.Config.Exec (Bind)
open Fastd.Daemon (Addr)

/-- The interface of a link-local address, given by its name or its index. -/
def Scope (sys : Sys) (dev : Bytes) (scope : UInt32) : Prop :=
  scope ≠ 0 ∧ (((∀ c ∈ dev, 0x30 ≤ c ∧ c ≤ 0x39) → dev.length < 20 →
    scope = UInt32.ofNat (dev.foldl (fun n c => 10 * n + (c.toNat - 0x30)) 0)) ∧
  ((∃ c ∈ dev, ¬ (0x30 ≤ c ∧ c ≤ 0x39) ∧ c ≠ 0x20 ∧ ¬ (0x09 ≤ c ∧ c ≤ 0x0d) ∧ c ≠ 0x2b ∧ c ≠ 0x2d) → scope = sys.ifIndex dev))

/-- A socket bound to a configured address: of the right family, and open for IPv4 if and only if the address isn't an IPv6 one. -/
inductive BoundTo (sys : Sys) (b : Bind) (s : Sk) : Prop
  | v4 {ip : Vector UInt8 4} {port : UInt16} (ha : b.addr = .v4 ip port) (hf : s.family = .inet) (hb : s.bound = some (.v4 ip port))
  | v6 {ip : Vector UInt8 16} {port : UInt16} {flow scope : UInt32} (ha : b.addr = .v6 ip port flow scope) (hf : s.family = .inet6)
      (h6 : s.v6only = true) (hn : Daemon.linkLocal ip = false ∨ b.bindtodev = none) (hb : s.bound = some (.v6 ip port flow scope))
  | scoped {ip : Vector UInt8 16} {port : UInt16} {flow scope scope' : UInt32} {dev : Bytes} (ha : b.addr = .v6 ip port flow scope)
      (hf : s.family = .inet6) (h6 : s.v6only = true) (hl : Daemon.linkLocal ip = true) (hd : b.bindtodev = some dev)
      (hs : Scope sys dev scope') (hb : s.bound = some (.v6 ip port flow scope'))
  | any6 {port : UInt16} (ha : b.addr = .unspec port) (hf : s.family = .inet6) (h6 : s.v6only = false)
      (hb : s.bound = some (.v6 (.replicate 16 0) port 0 0))
  | any4 {port : UInt16} (ha : b.addr = .unspec port) (hf : s.family = .inet) (hb : s.bound = some (.v4 (.replicate 4 0) port))

/-- A socket set up as configured. -/
structure IsSet (sys : Sys) (b : Bind) (s : Sk) : Prop where
  bound : BoundTo sys b s
  mark : sys.usePacketMark = true → s.mark = sys.packetMark
  device : sys.useBindToDevice = true → (∀ ip port flow scope, b.addr = .v6 ip port flow scope → Daemon.linkLocal ip = false) →
    s.device = b.bindtodev
  noPmtu : sys.usePmtu = true → s.noPmtu = true
  pktinfo : sys.usePktinfo = true → s.pktinfo = true
  pktinfo6 : s.family = .inet6 → s.pktinfo6 = true
  reuse : s.reuse = sys.offload

/-- The open descriptors after the opening of one more. -/
def Opened (fds : Nat → Option Sk) (fd : Nat) (s : Sk) (fds' : Nat → Option Sk) : Prop :=
  fds fd = none ∧ fds' = fun n => if n = fd then some s else fds n

end Fastd.Net
