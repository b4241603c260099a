/-!
# TUN/TAP interfaces (src/iface.c)

Model only: Linux and FreeBSD (`open_iface`, `cleanup_iface`, `fastd_iface_open`, `fastd_iface_close`), and reading and writing of packets on all systems. The kernel is
a table of interfaces and a table of descriptors. Which calls succeed, and which descriptors and names are handed out, is decided by parameters.
C strings are byte lists without the terminating NUL. The name is computed by `fastd_iface_format_name`, see `Config/Iface`. Not modelled: opening interfaces on
Android, OpenBSD, NetBSD and macOS; renaming of interfaces; registering for polling (`Poll/Model`); the buffers (`Buffer/Path`); and messages.
-/

namespace Fastd.Net.Tun

abbrev Bytes := List UInt8

/-- `fastd_mode_t` (src/types.h) -/
inductive Mode
  | tap | multitap | tun
deriving DecidableEq, Repr

/-- `fastd_iface_type_t` (src/iface.c:51-55) -/
inductive Type_
  | tap | tun
deriving DecidableEq, Repr

/-- `get_iface_type` (src/iface.c:58-70) -/
def ifaceType : Mode → Type_
  | .tap => .tap
  | .multitap => .tap
  | .tun => .tun

/-! ## The kernel -/

/-- An interface. -/
structure If where
  type : Type_
  mtu : Nat
  /-- packets begin with a header for the address family (Linux: without `IFF_NO_PI`; FreeBSD: `TUNSIFHEAD`) -/
  head : Bool
  /-- the interface stays when it is closed -/
  persist : Bool
  /-- a descriptor is attached to it -/
  busy : Bool
deriving DecidableEq, Repr

/-- A descriptor, opened by this process for a TUN/TAP device; the name is that of the interface it is attached to. -/
structure Fd where
  attached : Option Bytes := none
deriving DecidableEq, Repr

/-- The kernel. -/
structure K where
  ifs : Bytes → Option If
  fds : Nat → Option Fd
  pos : Nat

/-- The system. -/
structure Sys where
  /-- the results of system calls: `none` is an error, otherwise the descriptor in case of `open` -/
  tape : Nat → Option Nat
  /-- the name that Linux gives to an interface: empty names and those with `%d` are chosen by the kernel -/
  pick : Nat → Bytes → Bytes
  /-- the name that FreeBSD gives to an interface for the device `/dev/tap` or `/dev/tun` -/
  clone : Nat → Type_ → Bytes
  /-- `close` returns an error -/
  closeErr : Nat → Bool
  /-- `SIOCIFDESTROY` fails -/
  destroyErr : Nat → Bool

def setIf (k : K) (n : Bytes) (i : Option If) : K := { k with ifs := fun m => if m = n then i else k.ifs m }

def setFd (k : K) (fd : Nat) (x : Option Fd) : K := { k with fds := fun m => if m = fd then x else k.fds m }

def tick (k : K) : K := { k with pos := k.pos + 1 }

/-- `IFNAMSIZ - 1`: names in `struct ifreq` -/
def ifr (s : Bytes) : Bytes := s.take 15

/-- `open("/dev/net/tun", O_RDWR | O_NONBLOCK)`. A descriptor in use is never returned. -/
def openTun (sys : Sys) (k : K) : Option Nat × K :=
  match sys.tape k.pos with
  | none => (none, tick k)
  | some fd =>
    match k.fds fd with
    | some _ => (none, tick k)
    | none => (some fd, setFd (tick k) fd (some {}))

/-- `ioctl(fd, TUNSETIFF, &ifr)` of Linux: creates the interface, or attaches to an existing one of the same type that is not in use. -/
def tunsetiff (sys : Sys) (k : K) (fd : Nat) (name : Bytes) (type : Type_) (noPi : Bool) : Option Bytes × K :=
  match sys.tape k.pos with
  | none => (none, tick k)
  | some _ =>
    let n := sys.pick k.pos name
    match k.ifs n with
    | some i =>
      if i.busy || i.type ≠ type then (none, tick k)
      else (some n, setFd (setIf (tick k) n (some { i with head := !noPi, busy := true })) fd (some ⟨some n⟩))
    | none => (some n, setFd (setIf (tick k) n (some ⟨type, 1500, !noPi, false, true⟩)) fd (some ⟨some n⟩))

/-- `ioctl(ctx.ioctl_sock, SIOCGIFMTU, &ifr)` -/
def getMtu (sys : Sys) (k : K) (name : Bytes) : Option Nat × K :=
  match sys.tape k.pos with
  | none => (none, tick k)
  | some _ => ((k.ifs name).map (·.mtu), tick k)

/-- `ioctl(ctx.ioctl_sock, SIOCSIFMTU, &ifr)`, and `TUNSIFINFO` and `TAPSIFINFO` of FreeBSD -/
def putMtu (sys : Sys) (k : K) (name : Bytes) (mtu : Nat) : Bool × K :=
  match sys.tape k.pos with
  | none => (false, tick k)
  | some _ =>
    match k.ifs name with
    | none => (false, tick k)
    | some i => (true, setIf (tick k) name (some { i with mtu := mtu }))

/-- The type of an interface of FreeBSD follows from its name. -/
def typeOfName (n : Bytes) : Type_ := if n.take 3 = [0x74, 0x61, 0x70] then .tap else .tun

/-- `open("/dev/…", O_RDWR | O_NONBLOCK)` on FreeBSD: interfaces are created as needed, and they stay. -/
def openDev (sys : Sys) (k : K) (name : Bytes) : Option Nat × K :=
  match sys.tape k.pos with
  | none => (none, tick k)
  | some fd =>
    match k.fds fd with
    | some _ => (none, tick k)
    | none =>
      let n := if name.length ≤ 3 then sys.clone k.pos (typeOfName name) else name
      match k.ifs n with
      | some i =>
        if i.busy then (none, tick k)
        else (some fd, setFd (setIf (tick k) n (some { i with busy := true })) fd (some ⟨some n⟩))
      | none => (some fd, setFd (setIf (tick k) n (some ⟨typeOfName n, 1500, false, true, true⟩)) fd (some ⟨some n⟩))

/-- `fdevname_r`, and `TAPGIFNAME` of FreeBSD -/
def devName (sys : Sys) (k : K) (fd : Nat) : Option Bytes × K :=
  match sys.tape k.pos with
  | none => (none, tick k)
  | some _ => ((k.fds fd).bind (·.attached), tick k)

/-- `ioctl(fd, TUNSIFHEAD, &one)` -/
def sifHead (sys : Sys) (k : K) (fd : Nat) : Bool × K :=
  match sys.tape k.pos with
  | none => (false, tick k)
  | some _ =>
    match (k.fds fd).bind (·.attached) with
    | none => (false, tick k)
    | some n =>
      match k.ifs n with
      | none => (false, tick k)
      | some i => (true, setIf (tick k) n (some { i with head := true }))

/-- `close(fd)`: the descriptor is closed even if an error is returned. Interfaces that do not persist vanish. -/
def close (sys : Sys) (k : K) (fd : Nat) : Bool × K :=
  let k' := setFd (tick k) fd none
  let k' := match (k.fds fd).bind (·.attached) with
    | none => k'
    | some n => setIf k' n ((k.ifs n).bind fun i => if i.persist then some { i with busy := false } else none)
  (!sys.closeErr k.pos, k')

/-- `ioctl(ctx.ioctl_sock, SIOCIFDESTROY, &ifr)` -/
def destroy (sys : Sys) (k : K) (name : Bytes) : K :=
  if sys.destroyErr k.pos then tick k
  else setIf (tick k) name none

/-! ## Opening and closing -/

/-- `fastd_iface_t` (src/iface.h) -/
structure Iface where
  /-- `none` stands for -1 -/
  fd : Option Nat := none
  name : Option Bytes := none
  cleanup : Bool := false
deriving DecidableEq, Repr

/-- Systems. -/
inductive Plat
  | linux | freebsd
deriving DecidableEq, Repr

/-- The result of a function, with the state of the kernel; without result, the process has ended. -/
abbrev Out (α : Type) : Type := Option α × K

/-- `fastd_iface_set_mtu` (src/iface.c:78-93) -/
def setMtu (sys : Sys) (k : K) (name : Bytes) (mtu : Nat) : Bool × K :=
  match getMtu sys k (ifr name) with
  | (none, k) => (false, k)
  | (some m, k) =>
    if m = mtu then (true, k)
    else putMtu sys k (ifr name) mtu

/-- `open_iface` for Linux (src/iface.c:96-130, 157-159) -/
def openLinux (sys : Sys) (k : K) (mode : Mode) (ifname : Option Bytes) (mtu : Nat) : Out (Bool × Iface) :=
  match openTun sys k with
  | (none, k) => (none, k)
  | (some fd, k) =>
    match tunsetiff sys k fd ((ifname.map ifr).getD []) (ifaceType mode) true with
    | (none, k) => (some (false, { fd := some fd }), k)
    | (some n, k) =>
      match setMtu sys k (ifr n) mtu with
      | (ok, k) => (some (ok, { fd := some fd, name := some (ifr n) }), k)

/-- `set_tun_mtu` and `set_tap_mtu` (src/iface.c:164-197): `TUNGIFINFO` has to succeed, `TUNSIFINFO` may fail -/
def setDevMtu (sys : Sys) (k : K) (fd : Nat) (mtu : Nat) : Out Bool :=
  match devName sys k fd with
  | (none, k) => (none, k)
  | (some n, k) =>
    match putMtu sys k n mtu with
    | (ok, k) => (some ok, k)

/-- `setup_tun` (src/iface.c:202-210) -/
def setupTun (sys : Sys) (k : K) (fd : Nat) (mtu : Nat) : Out Bool :=
  match sifHead sys k fd with
  | (false, k) => (some false, k)
  | (true, k) => setDevMtu sys k fd mtu

/-- `setup_tap` (src/iface.c:213-223): the name is replaced -/
def setupTap (sys : Sys) (k : K) (fd : Nat) (mtu : Nat) : Out (Bool × Bytes) :=
  match devName sys k fd with
  | (none, k) => (none, k)
  | (some n, k) =>
    match setDevMtu sys k fd mtu with
    | (none, k) => (none, k)
    | (some ok, k) => (some (ok, ifr n), k)

/-- `"tap"` and `"tun"` -/
def typeName : Type_ → Bytes
  | .tap => [0x74, 0x61, 0x70]
  | .tun => [0x74, 0x75, 0x6e]

/-- Set-up of the device of FreeBSD (src/iface.c:261-286). The arguments are those of line 253. -/
def setupBsd (sys : Sys) (k : K) (mode : Mode) (fd : Nat) (cleanup : Bool) (mtu : Nat) : Out (Bool × Iface) :=
  match devName sys k fd with
  | (none, k) => (none, k)
  | (some n, k) =>
    match ifaceType mode with
    | .tap =>
      match setupTap sys k fd mtu with
      | (none, k) => (none, k)
      | (some (ok, n'), k) => (some (ok, { fd := some fd, name := some n', cleanup := cleanup }), k)
    | .tun =>
      match setupTun sys k fd mtu with
      | (none, k) => (none, k)
      | (some ok, k) => (some (ok, { fd := some fd, name := some n, cleanup := cleanup }), k)

/-- `open_iface` for FreeBSD (src/iface.c:226-286). `if_nametoindex` is taken to tell whether the interface exists. The array `dev_name` has room for
15 bytes of the name. -/
def openBsd (sys : Sys) (k : K) (mode : Mode) (ifname : Option Bytes) (mtu : Nat) : Out (Bool × Iface) :=
  let type := typeName (ifaceType mode)
  match ifname with
  | some n =>
    if n.length ≤ 3 ∨ n.take 3 ≠ type then (some (false, {}), k)
    else
      let cleanup := !(k.ifs n).isSome
      match openDev sys k (n.take 15) with
      | (none, k) => (some (false, {}), k)
      | (some fd, k) => setupBsd sys k mode fd cleanup mtu
  | none =>
    match openDev sys k type with
    | (none, k) => (some (false, {}), k)
    | (some fd, k) => setupBsd sys k mode fd true mtu

/-- `open_iface` -/
def openIface (p : Plat) (sys : Sys) (k : K) (mode : Mode) (ifname : Option Bytes) (mtu : Nat) : Out (Bool × Iface) :=
  match p with
  | .linux => openLinux sys k mode ifname mtu
  | .freebsd => openBsd sys k mode ifname mtu

/-- `cleanup_iface` (src/iface.c:133, 289-298) -/
def cleanupIface (p : Plat) (sys : Sys) (k : K) (i : Iface) : K :=
  match p with
  | .linux => k
  | .freebsd =>
    if !i.cleanup then k
    else destroy sys k (ifr (i.name.getD []))

/-- `fastd_iface_open` (src/iface.c:540-574). The argument is the name computed by `fastd_iface_format_name`; empty if the system is to choose one. -/
def ifaceOpen (p : Plat) (sys : Sys) (k : K) (mode : Mode) (ifname : Bytes) (mtu : Nat) : Out (Option Iface) :=
  match openIface p sys k mode (if ifname = [] then none else some ifname) mtu with
  | (none, k) => (none, k)
  | (some (true, i), k) => (some (some i), k)
  | (some (false, i), k) =>
    match i.fd with
    | none => (some none, k)
    | some fd =>
      match close sys k fd with
      | (true, k) => (some none, cleanupIface p sys k i)
      | (false, k) => (some none, k)

/-- `fastd_iface_close` (src/iface.c:577-585) -/
def ifaceClose (p : Plat) (sys : Sys) (k : K) (i : Iface) : K :=
  match i.fd with
  | none => k
  | some fd =>
    match close sys k fd with
    | (true, k) => cleanupIface p sys k i
    | (false, k) => k

/-! ## Packets -/

/-- `fastd_max_payload` (src/fastd.h): with the Ethernet header -/
def maxPayload : Mode → Nat → Nat
  | .tap, mtu => mtu + 14
  | .multitap, mtu => mtu + 14
  | .tun, mtu => mtu

/-- Systems, as far as packets are concerned. -/
structure Af where
  /-- `multiaf_tun` (src/iface.c:42-46) -/
  multiaf : Bool
  /-- `AF_INET` and `AF_INET6` -/
  inet : Nat
  inet6 : Nat

/-- What happens with a packet that is read. -/
inductive Read
  /-- `exit_errno("read")` -/
  | exit
  /-- `exit_bug` in `fastd_buffer_pull` -/
  | bug
  /-- `fastd_send_data(buffer, NULL, iface->peer)` -/
  | data (d : Bytes)
deriving DecidableEq, Repr

/-- `fastd_iface_handle` (src/iface.c:427-446). The kernel has the given packet (with header) for `read`; it is cut off if the buffer is too small. -/
def handle (af : Af) (mode : Mode) (mtu : Nat) : Option Bytes → Read
  | none => .exit
  | some pkt =>
    let got := pkt.take (maxPayload mode mtu)
    if af.multiaf ∧ ifaceType mode = .tun then
      if got.length < 4 then .bug else .data (got.drop 4)
    else .data got

/-- A number in network byte order: `htonl` -/
def be32 (n : Nat) : Bytes :=
  [UInt8.ofNat (n / 16777216 % 256), UInt8.ofNat (n / 65536 % 256), UInt8.ofNat (n / 256 % 256), UInt8.ofNat (n % 256)]

/-- `fastd_iface_write` (src/iface.c:449-478): what is passed to `write`, if anything -/
def write (af : Af) (mode : Mode) (pkt : Bytes) : Option Bytes :=
  match pkt with
  | [] => none
  | b :: _ =>
    if af.multiaf ∧ ifaceType mode = .tun then
      if b >>> 4 = 4 then some (be32 af.inet ++ pkt)
      else if b >>> 4 = 6 then some (be32 af.inet6 ++ pkt)
      else none
    else some pkt

end Fastd.Net.Tun
