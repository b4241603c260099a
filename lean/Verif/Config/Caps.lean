import Verif.Config.Check

/-!
# Privileges (src/capabilities.c, src/fastd.c, src/socket.c)

The initialisation of fastd as far as privileges are concerned: which operations need which capability, when the user is changed, when capabilities are dropped. The
credentials of a process are those of Linux (credentials(7), capabilities(7)); fastd is built with `WITH_CAPABILITIES`. Not modelled: failures for other reasons, Android,
inheritable and ambient capabilities (fastd does not use them), UIDs and GIDs `-1`.

It is assumed that the interfaces do not exist before fastd is started: the owner of an existing interface can open it without privileges.
-/

namespace Fastd.Config.Caps

open Fastd.Config (Bytes lit)
open Fastd.Config.Gram
open Fastd.Config.Exec
open Fastd.Daemon (Addr)
open Fastd.Config.Start (SEnv Ready useOffload persistentIfaces)

/-- The capabilities used by fastd, and all others -/
inductive Cap
  | netAdmin | netBindService | netRaw | setuid | setgid
  | other (n : Nat)
deriving DecidableEq

/-! ## The kernel -/

/-- The credentials of a process (credentials(7)). `keep` is the flag of `PR_SET_KEEPCAPS`. -/
structure Proc where
  ruid : UInt32
  euid : UInt32
  suid : UInt32
  rgid : UInt32
  egid : UInt32
  sgid : UInt32
  groups : List UInt32
  permitted : List Cap
  effective : List Cap
  keep : Bool
deriving DecidableEq

/-- The effect of changes of user IDs on capabilities (capabilities(7), section "Effect of user ID changes on capabilities") -/
def fixup (old new : Proc) : Proc :=
  let new := if (old.ruid = 0 ∨ old.euid = 0 ∨ old.suid = 0) ∧ new.ruid ≠ 0 ∧ new.euid ≠ 0 ∧ new.suid ≠ 0 ∧ old.keep = false then
      { new with permitted := [], effective := [] }
    else new
  let new := if old.euid = 0 ∧ new.euid ≠ 0 then { new with effective := [] } else new
  if old.euid ≠ 0 ∧ new.euid = 0 then { new with effective := new.permitted } else new

/-- setresuid(2) with the same value three times; `none`: error -/
def setresuid (u : UInt32) (p : Proc) : Option Proc :=
  if .setuid ∈ p.effective ∨ (u = p.ruid ∨ u = p.euid ∨ u = p.suid) then some (fixup p { p with ruid := u, euid := u, suid := u }) else none

/-- seteuid(2) -/
def seteuid (u : UInt32) (p : Proc) : Option Proc :=
  if .setuid ∈ p.effective ∨ (u = p.ruid ∨ u = p.suid) then some (fixup p { p with euid := u }) else none

/-- setresgid(2) with the same value three times -/
def setresgid (g : UInt32) (p : Proc) : Option Proc :=
  if .setgid ∈ p.effective ∨ (g = p.rgid ∨ g = p.egid ∨ g = p.sgid) then some { p with rgid := g, egid := g, sgid := g } else none

/-- setegid(2) -/
def setegid (g : UInt32) (p : Proc) : Option Proc :=
  if .setgid ∈ p.effective ∨ (g = p.rgid ∨ g = p.sgid) then some { p with egid := g } else none

/-- setgroups(2) -/
def setgroups (gs : List UInt32) (p : Proc) : Option Proc := if .setgid ∈ p.effective then some { p with groups := gs } else none

/-- capset(2), called by `cap_set_proc`: no capability can be added to the permitted ones, and the effective ones must be permitted. -/
def capSetProc (permitted effective : List Cap) (p : Proc) : Option Proc :=
  if (∀ c ∈ permitted, c ∈ p.permitted) ∧ ∀ c ∈ effective, c ∈ permitted then some { p with permitted, effective } else none

/-! ## Operations that need privileges -/

/-- An operation that needs privileges -/
inductive Priv
  /-- `bind_socket` (src/socket.c:20-158) for an address -/
  | socket (b : Bind)
  /-- `TUNSETIFF` for a new interface, and `fastd_iface_set_mtu` (src/iface.c:75-124); also the netlink requests for offload sessions (src/offload/l2tp/l2tp.c) -/
  | iface
deriving DecidableEq

/-- The port of an address -/
def port : Addr → UInt16
  | .unspec p => p
  | .v4 _ p => p
  | .v6 _ p _ _ => p

/-- The capabilities needed for an operation: `SO_BINDTODEVICE` needs `CAP_NET_RAW` (src/socket.c:72-79), `SO_MARK` needs `CAP_NET_ADMIN` (src/socket.c:89-96), binding
to a port below 1024 needs `CAP_NET_BIND_SERVICE` (socket(7), ip(7)), and interfaces need `CAP_NET_ADMIN`. (Later versions of Linux need no capability for the first
device, and accept `CAP_NET_RAW` for marks.) -/
def needs {D} (env : Env D) (mark : UInt32) : Priv → List Cap
  | .socket b =>
    (if env.bindToDevice ∧ b.bindtodev.isSome ∧ isV6LinkLocal b.addr = false then [.netRaw] else []) ++
    (if env.usePacketMark ∧ mark ≠ 0 then [.netAdmin] else []) ++
    (if 0 < port b.addr ∧ port b.addr < 1024 then [.netBindService] else [])
  | .iface => [.netAdmin]

/-- The process has the privileges for an operation. -/
def permits {D} (env : Env D) (c : Conf) (p : Proc) (op : Priv) : Bool := (needs env c.packetMark op).all fun x => x ∈ p.effective

/-! ## Sockets -/

/-- `conf.bind_addr_default_v4`, `conf.bind_addr_default_v6` -/
def defaultAddr (c : Conf) (v6 : Bool) : Option Bind :=
  match if v6 then c.default6 else c.default4 with
  | some n => c.bindAddrs.reverse[n]?
  | none => none

/-- `ctx.sock_default_v4`, `ctx.sock_default_v6` are set (`init_sockets`, src/fastd.c:138-166): there is a default address, and it is not dynamic. -/
def sockDefault (c : Conf) (v6 : Bool) : Bool :=
  match defaultAddr c v6 with
  | some b => !b.dynamic
  | none => false

/-- The address used by `fastd_socket_open` (src/socket.c:226-243) -/
def socketOpen (c : Conf) (v6 : Bool) : Option Bind :=
  match defaultAddr c v6 with
  | some b => some b
  | none =>
    if (defaultAddr c true).isNone ∧ (defaultAddr c false).isNone then
      some { addr := if v6 then .v6 (vec16 []) 0 0 0 else .v4 (vec4 []) 0, default4 := false, default6 := false, dynamic := false, bindtodev := none }
    else none

/-- `fastd_peer_reset_socket` (src/peer.c:195-228) for a peer with an address and without a socket of its own -/
def resetSocket (c : Conf) (v6 : Bool) : Option Priv := if sockDefault c v6 then none else (socketOpen c v6).map .socket

/-- `fastd_socket_bind_all` (src/socket.c:174-201) -/
def bindAll (c : Conf) : List Priv := (c.bindAddrs.filter fun b => !b.dynamic).map .socket

/-! ## Capabilities -/

/-- `try_cap` (src/capabilities.c:25-57); errors of `cap_set_proc` are ignored. -/
def tryCap (c : Cap) (p : Proc) : Proc :=
  if c ∈ p.effective then p else (capSetProc p.permitted (c :: p.effective) p).getD p

/-- `fastd_cap_acquire` (src/capabilities.c:108-120) -/
def acquire (p : Proc) : Proc := { tryCap .netRaw (tryCap .netBindService (tryCap .netAdmin p)) with keep := true }

/-- `need_cap_net_admin` (src/capabilities.c:59-73); `none`: not ended, see `persistentIfaces` -/
def needAdmin {D} (env : Env D) (st : St D) : Option Bool :=
  match persistentIfaces env st with
  | none => none
  | some persistent => some (
    (!persistent && st.conf.dropCaps ≠ .force) ||
    (env.usePacketMark && (!(sockDefault st.conf false || sockDefault st.conf true) && st.conf.packetMark ≠ 0)) ||
    useOffload env st.conf)

/-- `need_cap_net_bind_service` (src/capabilities.c:75-80) -/
def needBindService {D} (env : Env D) (st : St D) : Bool := useOffload env st.conf

/-- `need_cap_net_raw` (src/capabilities.c:82-94) -/
def needRaw {D} (env : Env D) (st : St D) : Bool :=
  (match defaultAddr st.conf false with
    | some b => !sockDefault st.conf false && b.bindtodev.isSome
    | none => false) ||
  (match defaultAddr st.conf true with
    | some b => !sockDefault st.conf true && b.bindtodev.isSome
    | none => false) ||
  useOffload env st.conf

/-- The capabilities set by `fastd_cap_reacquire_drop` (src/capabilities.c:123-143) -/
def retained {D} (env : Env D) (st : St D) : Option (List Cap) :=
  (needAdmin env st).map fun admin =>
    (if admin then [.netAdmin] else []) ++ (if needBindService env st then [.netBindService] else []) ++ (if needRaw env st then [.netRaw] else [])

/-! ## The initialisation -/

/-- What happens during the initialisation: `exit_error`, or `persistentIfaces` not ended -/
inductive Out (α : Type)
  | ok (a : α)
  | exit
  | stuck

def Out.bind {α β} : Out α → (α → Out β) → Out β
  | .ok a, f => f a
  | .exit, _ => .exit
  | .stuck, _ => .stuck

def orExit {α} : Option α → Out α
  | some a => .ok a
  | none => .exit

/-- `set_user` (src/fastd.c:268-293) with `USE_USER`, `HAVE_SETRESGID` and `HAVE_SETRESUID` -/
def setUser {D} (env : Env D) (r : Ready D) (p : Proc) : Option Proc :=
  if env.useUser ∧ (r.st.conf.user.isSome ∨ r.st.conf.group.isSome) then (setresgid r.gid p).bind (setresuid r.uid) else some p

/-- `set_groups` (src/fastd.c:296-310); errors are ignored. `conf.groups` is not set if there are no groups. -/
def setGroups {D} (env : Env D) (r : Ready D) (p : Proc) : Proc :=
  if env.useUser then
    if r.groups ≠ [] then (setgroups r.groups p).getD p
    else if r.st.conf.user.isSome ∨ r.st.conf.group.isSome then (setgroups [r.gid] p).getD p
    else p
  else p

/-- `write_pid` (src/fastd.c:225-265); errors are ignored. -/
def writePid {D} (env : Env D) (r : Ready D) (pidFile : Bool) (p : Proc) : Proc :=
  if pidFile ∧ env.useUser then
    let q := if r.st.conf.user.isSome ∨ r.st.conf.group.isSome then
        let q := (setegid r.gid p).getD p
        (seteuid r.uid q).getD q
      else p
    let q := (seteuid p.euid q).getD q
    (setegid p.egid q).getD q
  else p

/-- `fastd_cap_reacquire_drop` (src/capabilities.c:123-143) -/
def reacquireDrop {D} (env : Env D) (r : Ready D) (p : Proc) : Out Proc :=
  match retained env r.st with
  | none => .stuck
  | some l => orExit (capSetProc l l p)

/-- `drop_caps` (src/fastd.c:312-315) -/
def drop {D} (env : Env D) (r : Ready D) (p : Proc) : Out Proc := (orExit (setUser env r p)).bind (reacquireDrop env r)

/-- The interfaces opened by `setup_peer` when it is called by `fastd_configure_peers` (src/peer.c:411-424) -/
def peerIfaces {D} (st : St D) : List Priv :=
  if st.conf.mode ≠ .tap ∧ st.conf.persist then (st.peers.filter fun p => !p.disabled).map fun _ => .iface else []

/-- The credentials of the process at different times -/
structure Times where
  /-- when the command `on pre-up` is executed -/
  preUp : Proc
  /-- when the command `on up` of the only interface is executed, and when peers are configured, including their commands `on up` -/
  up : Proc
  /-- after the initialisation -/
  final : Proc
deriving DecidableEq

/-- `init` (src/fastd.c:460-541) after the configuration has been checked. An operation that is not permitted ends the process: src/socket.c:184-185,
src/fastd.c:504-508, src/peer.c:420-423. -/
def init {D} (env : Env D) (r : Ready D) (pidFile : Bool) (p : Proc) : Out Times :=
  let c := r.st.conf
  let p := acquire p
  if (bindAll c).all (permits env c p) then
    if c.mode = .tap ∧ permits env c p .iface = false then .exit
    else
      let q := writePid env r pidFile (setGroups env r p)
      (if c.dropCaps = .early ∨ c.dropCaps = .force then drop env r q else .ok q).bind fun up =>
      if (peerIfaces r.st).all (permits env c up) then
        (if c.dropCaps = .on then drop env r up else if c.dropCaps = .off then orExit (setUser env r up) else .ok up).bind fun final =>
        .ok { preUp := p, up, final }
      else .exit
  else .exit

end Fastd.Config.Caps
