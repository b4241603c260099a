import Verif.Config.Caps

/-!
# Setting up sockets (src/socket.c)

Model only. The kernel is a table of open sockets with the options set on them. Which calls succeed, and which descriptors are
handed out, is decided by a tape. Privileges are the subject of `Config/Caps`. Not modelled: Android (src/socket.c:145-150), systems without
`SOCK_NONBLOCK`, and messages; registering sockets for polling is the subject of `Poll/Model`.
-/

namespace Fastd.Net

open Fastd.Config.Exec (Bind isV6LinkLocal)
open Fastd.Daemon (Addr)

abbrev Bytes := List UInt8

/-- Address families of sockets. -/
inductive Family
  | inet | inet6
deriving DecidableEq, Repr

/-- A socket of the kernel, with what has been set by `setsockopt` and `bind`. -/
structure Sk where
  family : Family
  v6only : Bool := false
  pktinfo : Bool := false
  pktinfo6 : Bool := false
  freebind : Bool := false
  device : Option Bytes := none
  noPmtu : Bool := false
  mark : UInt32 := 0
  reuse : Bool := false
  bound : Option Addr := none
deriving DecidableEq, Repr

/-- What is fixed at compile time, by the configuration, and by the system. -/
structure Sys where
  /-- `USE_PKTINFO` -/
  usePktinfo : Bool
  /-- `USE_FREEBIND` -/
  useFreebind : Bool
  /-- `USE_BINDTODEVICE` -/
  useBindToDevice : Bool
  /-- `USE_PMTU` -/
  usePmtu : Bool
  /-- `USE_PACKET_MARK` -/
  usePacketMark : Bool
  /-- `conf.packet_mark` -/
  packetMark : UInt32
  /-- `fastd_use_offload_l2tp()` -/
  offload : Bool
  /-- `if_nametoindex`; 0 is an error -/
  ifIndex : Bytes → UInt32
  /-- the results of system calls: `none` is an error, otherwise the descriptor in case of `socket` -/
  tape : Nat → Option Nat

/-- The kernel. -/
structure K where
  fds : Nat → Option Sk
  pos : Nat

/-- A computation; without result, the process has ended. -/
def M (α : Type) : Type := K → Option α × K

namespace M

def pure {α : Type} (a : α) : M α := fun k => (some a, k)

def bind {α β : Type} (m : M α) (f : α → M β) : M β := fun k =>
  match m k with
  | (some a, k') => f a k'
  | (none, k') => (none, k')

end M

instance : Monad M where
  pure := M.pure
  bind := M.bind

/-- `exit` -/
def exit {α : Type} : M α := fun k => (none, k)

/-- `socket(family, SOCK_DGRAM | SOCK_NONBLOCK, IPPROTO_UDP)`. A descriptor that is in use is never returned. -/
def socket (sys : Sys) (f : Family) : M (Option Nat) := fun k =>
  let k' := { k with pos := k.pos + 1 }
  match sys.tape k.pos with
  | none => (some none, k')
  | some fd =>
    match k.fds fd with
    | some _ => (some none, k')
    | none => (some (some fd), { k' with fds := fun n => if n = fd then some { family := f } else k.fds n })

/-- A call that changes a socket if it succeeds: `setsockopt`, `bind`. -/
def call (sys : Sys) (fd : Nat) (f : Sk → Sk) : M Bool := fun k =>
  let k' := { k with pos := k.pos + 1 }
  match sys.tape k.pos with
  | none => (some false, k')
  | some _ => (some true, { k' with fds := fun n => if n = fd then (k.fds n).map f else k.fds n })

/-- `close`; the descriptor is closed even if it returns an error -/
def close (fd : Nat) : M Unit := fun k => (some (), { k with fds := fun n => if n = fd then none else k.fds n })

/-- `strtoul(s, &end, 10)` assigned to `sin6_scope_id`, and whether `*end` is NUL -/
def strtoul (s : Bytes) : UInt32 × Bool :=
  let r := s.dropWhile Config.Opt.isSpace
  let neg := r.head? = some 0x2d
  let r := if neg || r.head? = some 0x2b then r.drop 1 else r
  let ds := r.takeWhile Config.Opt.isDigit
  if ds = [] then (0, s.isEmpty)
  else
    let n := Config.Opt.digits ds
    let v := if n ≥ 2 ^ 64 then 2 ^ 64 - 1 else if neg then (2 ^ 64 - n) % 2 ^ 64 else n
    (UInt32.ofNat v, (r.dropWhile Config.Opt.isDigit).isEmpty)

/-- The scope of a link-local address (src/socket.c:102-113): the interface may be given as a number. -/
def scopeId (sys : Sys) (dev : Bytes) : UInt32 :=
  let (n, whole) := strtoul dev
  if whole then n else sys.ifIndex dev

/-- The address to bind to (src/socket.c:100-123); `none` is the error in line 111 -/
def bindAddr (sys : Sys) (addr : Bind) (af : Family) : Option Addr :=
  match addr.addr, af with
  | .unspec port, .inet6 => some (.v6 (Config.Exec.vec16 []) port 0 0)
  | .unspec port, .inet => some (.v4 (Config.Exec.vec4 []) port)
  | .v4 ip port, _ => some (.v4 ip port)
  | .v6 ip port flow scope, _ =>
    match addr.bindtodev with
    | some dev =>
      if Daemon.linkLocal ip then
        if scopeId sys dev = 0 then none else some (.v6 ip port flow (scopeId sys dev))
      else some (.v6 ip port flow scope)
    | none => some (.v6 ip port flow scope)

/-- The label `error` (src/socket.c:154-168) -/
def failed (fd : Nat) : M (Option Nat) := do
  close fd
  pure none

/-- `if (cond) { if (setsockopt(...)) goto error; }`, followed by `next` -/
def opt (sys : Sys) (cond : Bool) (fd : Nat) (f : Sk → Sk) (next : M (Option Nat)) : M (Option Nat) := do
  if cond then
    let ok ← call sys fd f
    if ok then next else failed fd
  else next

/-- `bind_socket` (src/socket.c:22-169) from line 53 on, with a socket -/
def setup (sys : Sys) (addr : Bind) (early : Bool) (fd : Nat) (af : Family) : M (Option Nat) :=
  opt sys sys.usePktinfo fd (fun s => { s with pktinfo := true }) <| do
    if sys.useFreebind then
      let _ ← call sys fd fun s => { s with freebind := true }
    opt sys (af = .inet6) fd (fun s => { s with pktinfo6 := true }) <|
      opt sys (sys.useBindToDevice && addr.bindtodev.isSome && !isV6LinkLocal addr.addr) fd (fun s => { s with device := addr.bindtodev }) <|
        opt sys sys.usePmtu fd (fun s => { s with noPmtu := true }) <|
          opt sys (sys.usePacketMark && sys.packetMark ≠ 0) fd (fun s => { s with mark := sys.packetMark }) <|
            match bindAddr sys addr af with
            | none => failed fd
            | some a =>
              opt sys (sys.offload && early) fd (fun s => { s with reuse := true }) <|
                opt sys true fd (fun s => { s with bound := some a }) <|
                  opt sys (sys.offload && !early) fd (fun s => { s with reuse := true }) <|
                    pure (some fd)

/-- `AF_INET` as the fallback (src/socket.c:38-44) -/
def setup4 (sys : Sys) (addr : Bind) (early : Bool) : M (Option Nat) := do
  let fd ← socket sys .inet
  match fd with
  | none => exit
  | some fd => setup sys addr early fd .inet

/-- `bind_socket` (src/socket.c:22-169) -/
def bindSocket (sys : Sys) (addr : Bind) (early : Bool) : M (Option Nat) :=
  match addr.addr with
  | .v4 .. => setup4 sys addr early
  | .v6 .. => do
    let fd ← socket sys .inet6
    match fd with
    | none => pure none
    | some fd => opt sys true fd (fun s => { s with v6only := true }) <| setup sys addr early fd .inet6
  | .unspec _ => do
    let fd ← socket sys .inet6
    match fd with
    | none => setup4 sys addr early
    | some fd => opt sys true fd (fun s => { s with v6only := false }) <| setup sys addr early fd .inet6

/-- `set_bound_address` (src/socket.c:172-181): whether `getsockname` succeeds -/
def getsockname (sys : Sys) : M Unit := fun k =>
  let k' := { k with pos := k.pos + 1 }
  match sys.tape k.pos with
  | none => (none, k')
  | some _ => (some (), k')

/-- `fastd_socket_bind_all` (src/socket.c:184-210). The addresses of `ctx.socks`, `none` for dynamic ones; the result are the
descriptors, `none` for -1. -/
def bindAll (sys : Sys) : List (Option Bind) → M (List (Option Nat))
  | [] => pure []
  | none :: l => do
    let fds ← bindAll sys l
    pure (none :: fds)
  | some addr :: l => do
    let fd ← bindSocket sys addr false
    match fd with
    | none => exit
    | some fd =>
      getsockname sys
      let fds ← bindAll sys l
      pure (some fd :: fds)

/-- `open_dynamic_socket` (src/socket.c:213-223) -/
def openDynamic (sys : Sys) (addr : Bind) (early : Bool) : M (Option Nat) := do
  let fd ← bindSocket sys addr early
  match fd with
  | none => pure none
  | some fd =>
    getsockname sys
    pure (some fd)

/-- `fastd_socket_open` (src/socket.c:226-252); the address is chosen as described by `Caps.socketOpen` -/
def socketOpen (sys : Sys) (conf : Config.Exec.Conf) (v6 : Bool) : M (Option Nat) :=
  match Config.Caps.socketOpen conf v6 with
  | none => pure none
  | some addr => openDynamic sys addr false

end Fastd.Net
