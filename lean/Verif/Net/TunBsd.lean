import Verif.Net.Tun

/-!
# TUN/TAP interfaces of OpenBSD, NetBSD and macOS (src/iface.c)

Model only: `open_iface`, `cleanup_iface`, `fastd_iface_open` and `fastd_iface_close` for these systems. The kernel and its calls are those of `Net/Tun`. What happens
when the device of an interface is opened differs between these systems and their versions: whether the interface is created, and whether it stays after it has been
closed, are parameters. Not modelled: messages, and registering for polling.
-/

namespace Fastd.Net.Tun

/-- Systems. -/
inductive Bsd
  | openbsd | netbsd | apple
deriving DecidableEq, Repr

/-- The driver of the devices `/dev/tun…` and `/dev/tap…`. -/
structure Driver where
  /-- an interface that does not exist is created when its device is opened -/
  create : Bytes → Bool
  /-- such an interface stays when the device is closed -/
  keep : Bytes → Bool

/-- The interface has a header for the address family from the start: TUN interfaces of OpenBSD. -/
def headAlways : Bsd → Type_ → Bool
  | .openbsd, .tun => true
  | _, _ => false

/-- `open("/dev/…", O_RDWR | O_NONBLOCK)` -/
def openNode (p : Bsd) (drv : Driver) (sys : Sys) (k : K) (name : Bytes) : Option Nat × K :=
  match sys.tape k.pos with
  | none => (none, tick k)
  | some fd =>
    match k.fds fd with
    | some _ => (none, tick k)
    | none =>
      match k.ifs name with
      | some i =>
        if i.busy then (none, tick k)
        else (some fd, setFd (setIf (tick k) name (some { i with busy := true })) fd (some ⟨some name⟩))
      | none =>
        if drv.create name then
          (some fd, setFd (setIf (tick k) name (some ⟨typeOfName name, 1500, headAlways p (typeOfName name), drv.keep name, true⟩)) fd (some ⟨some name⟩))
        else (none, tick k)

/-- The second half of `open_iface` for NetBSD and macOS (src/iface.c:400-413): header and MTU. The first argument tells whether this is NetBSD (`setup_tun`,
src/iface.c:354-363). -/
def setupNode (netbsd : Bool) (sys : Sys) (k : K) (mode : Mode) (fd : Nat) (ifname : Bytes) (mtu : Nat) : Bool × K :=
  if netbsd ∧ ifaceType mode = .tun then
    match sifHead sys k fd with
    | (false, k) => (false, k)
    | (true, k) => putMtu sys k (ifr ifname) mtu
  else putMtu sys k (ifr ifname) mtu

/-- `open_iface` for OpenBSD (src/iface.c:303-345), NetBSD and macOS (src/iface.c:366-414). The array `dev_name` has room for 15 bytes of the name. -/
def openNamed (p : Bsd) (drv : Driver) (sys : Sys) (k : K) (mode : Mode) (ifname : Option Bytes) (mtu : Nat) : Out (Bool × Iface) :=
  match ifname with
  | none => (some (false, {}), k)
  | some n =>
    if n.take 3 ≠ typeName (ifaceType mode) then (some (false, {}), k)
    else
      match openNode p drv sys k (n.take 15) with
      | (none, k) => (some (false, {}), k)
      | (some fd, k) =>
        let i : Iface := { fd := some fd, name := some (n.take 15) }
        match p with
        | .openbsd =>
          match setDevMtu sys k fd mtu with
          | (none, k) => (none, k)
          | (some ok, k) => (some (ok, i), k)
        | .netbsd =>
          match setupNode true sys k mode fd n mtu with
          | (ok, k) => (some (ok, i), k)
        | .apple =>
          match setupNode false sys k mode fd n mtu with
          | (ok, k) => (some (ok, i), k)

/-- `fastd_iface_open` (src/iface.c:540-574); `cleanup_iface` does nothing (src/iface.c:347, 417) -/
def namedOpen (p : Bsd) (drv : Driver) (sys : Sys) (k : K) (mode : Mode) (ifname : Bytes) (mtu : Nat) : Out (Option Iface) :=
  match openNamed p drv sys k mode (if ifname = [] then none else some ifname) mtu with
  | (none, k) => (none, k)
  | (some (true, i), k) => (some (some i), k)
  | (some (false, i), k) =>
    match i.fd with
    | none => (some none, k)
    | some fd => (some none, (close sys k fd).2)

/-- `fastd_iface_close` (src/iface.c:577-585) -/
def namedClose (sys : Sys) (k : K) (i : Iface) : K :=
  match i.fd with
  | none => k
  | some fd => (close sys k fd).2

/-- `multiaf_tun` (src/iface.c:41-46) -/
def multiafTun : Bsd → Bool
  | .apple => false
  | _ => true

end Fastd.Net.Tun
