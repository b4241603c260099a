import Verif.Log.Format
import Verif.Crypto.Util

/-!
# Running shell commands: environment and child process (src/shell.c, src/peer.c, src/verify.c)

Model only. What the C library and the kernel decide (`inet_ntop`, `if_indextoname`, `fork`, `chdir`,
`execl`, `waitpid`) are parameters. Strings are lists of bytes without the terminating NUL; buffers on
the stack are memory of the size declared in C and with arbitrary previous contents. Running out of
memory (`exit_errno` in src/alloc.h) is not modelled, and `setenv` is assumed not to fail.
-/

namespace Fastd.ShellEnv

open Fastd.Log (Res writeAt str)

abbrev Bytes := List UInt8

/-- A `fastd_shell_env_t` (src/shell.c:22-32): names and values, `none` for `NULL`. -/
abbrev Env := List (Bytes × Option Bytes)

/-- `fastd_shell_env_set` (src/shell.c:40-44); `fastd_strdup` keeps `NULL` (src/alloc.h:130-139). -/
def envSet (env : Env) (key : Bytes) (value : Option Bytes) : Env := env ++ [(key, value)]

/-- The digits printed by `%u`, given at least as much fuel as there are digits. -/
def decimalAux : Nat → Nat → Bytes
  | 0, _ => []
  | fuel + 1, n =>
    if n < 10 then [UInt8.ofNat (0x30 + n)]
    else decimalAux fuel (n / 10) ++ [UInt8.ofNat (0x30 + n % 10)]

/-- The text of `%u`. -/
def decimal (n : Nat) : Bytes := decimalAux (n + 1) n

/-- The string at the start of `mem`; reading beyond the end is an overrun. -/
def cstr (mem : Bytes) : Res Bytes :=
  if 0 ∈ mem then .ok (mem.takeWhile (· != 0)) else .overrun

/-- `snprintf(buf, sizeof(buf), "%u", n)` and use of `buf` as a string. -/
def printU (buf : Bytes) (n : Nat) : Res (Bytes × Bytes) := do
  let (mem, _) ← Log.snprintf buf 0 buf.length (decimal n)
  let s ← cstr mem
  return (mem, s)

/-- An interface: the fields of `fastd_iface_t`, or of the L2TP offload session
(src/offload/l2tp/l2tp.c:442-446), used here. -/
structure Iface where
  name : Bytes
  mtu : UInt16
deriving DecidableEq, Repr

/-- `fastd_shell_env_set_iface` (src/shell.c:60-70); `buf6` is `char buf[6]` before it is written. -/
def setIface (buf6 : Bytes) (env : Env) (ifname : Option Bytes) (mtu : UInt16) : Res Env := do
  let env := envSet env (str "INTERFACE") ifname
  if mtu ≠ 0 then do
    let (_, s) ← printU buf6 mtu.toNat
    return envSet env (str "INTERFACE_MTU") (some s)
  else
    return envSet env (str "INTERFACE_MTU") none

/-- A `fastd_peer_address_t`, ports in host byte order. -/
inductive PAddr
  | unspec
  | v4 (a : Bytes) (port : UInt16)
  | v6 (a : Bytes) (port : UInt16) (scope : UInt32)
deriving DecidableEq, Repr

/-- What the C library and the kernel know. -/
structure Sys where
  /-- `inet_ntop(AF_INET, ...)` -/
  ntop4 : Bytes → Bytes
  /-- `inet_ntop(AF_INET6, ...)` -/
  ntop6 : Bytes → Bytes
  /-- `if_indextoname` -/
  ifname : UInt32 → Option Bytes

/-- `inet_ntop(..., buf, size)`: leaves the buffer alone if the text doesn't fit (`ENOSPC`; the code
doesn't check for this). -/
def inetNtop (mem : Bytes) (size : Nat) (text : Bytes) : Res Bytes :=
  if text.length + 1 ≤ size then writeAt mem 0 (text ++ [0]) else .ok mem

/-- `IN6_IS_ADDR_LINKLOCAL` -/
def linkLocal (a : Bytes) : Bool := a.getD 0 0 == 0xfe && a.getD 1 0 &&& 0xc0 == 0x80

/-- `INET6_ADDRSTRLEN + IFNAMSIZ` (src/peer.c:28) -/
def addrBufLen : Nat := 46 + 16

/-- Lines 42-45 of `fastd_peer_set_shell_env_addr` (src/peer.c): `if_indextoname` writes all of the
`IFNAMSIZ` bytes it may write (glibc uses `strncpy`), or nothing when it fails. -/
def addScope (mem : Bytes) (name : Option Bytes) : Res Bytes :=
  match name with
  | none => .ok mem
  | some nm => do
    let s ← cstr mem
    let mem ← writeAt mem (s.length + 1) (nm ++ List.replicate (16 - nm.length) 0)
    let s ← cstr mem
    writeAt mem s.length [0x25]

/-- `fastd_peer_set_shell_env_addr` (src/peer.c:24-58); `none` is `NULL`, `buf` the array of
`addrBufLen` bytes before it is written. -/
def setAddr (sys : Sys) (buf : Bytes) (env : Env) (addr : Option PAddr) (addrVar portVar : Bytes) : Res Env :=
  match addr.getD .unspec with
  | .v4 a port => do
    let mem ← inetNtop buf addrBufLen (sys.ntop4 a)
    let s ← cstr mem
    let env := envSet env addrVar (some s)
    let (_, p) ← printU mem port.toNat
    return envSet env portVar (some p)
  | .v6 a port scope => do
    let mem ← inetNtop buf addrBufLen (sys.ntop6 a)
    let mem ← if linkLocal a then addScope mem (sys.ifname scope) else .ok mem
    let s ← cstr mem
    let env := envSet env addrVar (some s)
    let (_, p) ← printU mem port.toNat
    return envSet env portVar (some p)
  | .unspec => .ok (envSet (envSet env addrVar none) portVar none)

/-- The fields of a peer used here. -/
structure Peer where
  name : Option Bytes
  key : Bytes
  /-- the interface of an active L2TP offload session -/
  offload : Option Iface
  iface : Option Iface
  /-- `peer->local_address` -/
  loc : PAddr
  /-- `peer->address` -/
  addr : PAddr
deriving DecidableEq, Repr

/-- Previous contents of the buffers on the stack. -/
structure Stack where
  mtu : Bytes
  loc : Bytes
  rem : Bytes
  pid : Bytes

/-- `fastd_protocol_ec25519_fhmqvc_set_shell_env` (src/protocols/ec25519_fhmqvc/util.c:57-69); `hexdump`
fills its array of 65 bytes exactly, see `Util.hexdump`. -/
def protoEnv (pub : Bytes) (env : Env) (peer : Option Peer) : Env :=
  let env := envSet env (str "LOCAL_KEY") (some (Util.hexdump pub))
  match peer with
  | some p => envSet env (str "PEER_KEY") (some (Util.hexdump p.key))
  | none => envSet env (str "PEER_KEY") none

/-- The interface used for a peer (lines 68-77 of src/peer.c). -/
def peerIface (peer : Option Peer) : Option Iface :=
  match peer with
  | none => none
  | some p => match p.offload with
    | some i => some i
    | none => p.iface

/-- `fastd_peer_set_shell_env` (src/peer.c:62-84) -/
def peerEnv (sys : Sys) (st : Stack) (pub : Bytes) (peer : Option Peer) (loc rem : Option PAddr) : Res Env := do
  let env := envSet [] (str "PEER_NAME") (peer.bind (·.name))
  let i := peerIface peer
  let env ← setIface st.mtu env (i.map (·.name)) ((i.map (·.mtu)).getD 0)
  let env ← setAddr sys st.loc env loc (str "LOCAL_ADDRESS") (str "LOCAL_PORT")
  let env ← setAddr sys st.rem env rem (str "PEER_ADDRESS") (str "PEER_PORT")
  return protoEnv pub env peer

/-- The places in the code where a command is run. -/
inductive Occasion
  /-- src/fastd.c:179-181 -/
  | preUp
  /-- `on_up` of src/fastd.c:184-189 -/
  | up (i : Iface)
  /-- `on_down` of src/fastd.c:192-197 -/
  | down (i : Iface)
  /-- src/fastd.c:200-202 -/
  | postDown
  /-- `on_up` of src/peer.c:102-105; `sync` when the peer's configuration is loaded
  (src/peer.c:419), not for dynamic interfaces and offload (lines 858, 866) -/
  | peerUp (p : Peer) (sync : Bool)
  /-- `on_down` of src/peer.c:108-111; `sync` when the peer is deleted (line 481), not otherwise -/
  | peerDown (p : Peer) (sync : Bool)
  /-- src/protocols/ec25519_fhmqvc/handshake.c:488-494 with the socket's address -/
  | connect (p : Option Peer) (loc : Option PAddr) (bound : Option PAddr) (rem : PAddr)
  /-- src/peer.c:114-117 -/
  | establish (p : Peer)
  /-- src/peer.c:120-124 -/
  | disestablish (p : Peer)
  /-- src/verify.c:88-89 -/
  | verify (p : Peer) (loc rem : PAddr)

/-- The environment handed to `fastd_shell_command_exec`; `none` is `NULL`. -/
def envOf (sys : Sys) (st : Stack) (pub : Bytes) : Occasion → Res (Option Env)
  | .preUp => .ok none
  | .postDown => .ok none
  | .up i => do return some (← setIface st.mtu [] (some i.name) i.mtu)
  | .down i => do return some (← setIface st.mtu [] (some i.name) i.mtu)
  | .peerUp p _ => do return some (← peerEnv sys st pub (some p) none none)
  | .peerDown p _ => do return some (← peerEnv sys st pub (some p) none none)
  | .connect p loc bound rem => do
    let l := match loc with
      | some .unspec => bound
      | some a => some a
      | none => bound
    return some (← peerEnv sys st pub p l (some rem))
  | .establish p => do return some (← peerEnv sys st pub (some p) (some p.loc) (some p.addr))
  | .disestablish p => do return some (← peerEnv sys st pub (some p) (some p.loc) (some p.addr))
  | .verify p loc rem => do return some (← peerEnv sys st pub (some p) (some loc) (some rem))

/-- The environment of a process. -/
abbrev PEnv := Bytes → Option Bytes

/-- `setenv(key, value, 1)` -/
def setenv (e : PEnv) (key value : Bytes) : PEnv := fun k => if k = key then some value else e k

/-- `unsetenv(key)` -/
def unsetenv (e : PEnv) (key : Bytes) : PEnv := fun k => if k = key then none else e k

/-- The loop of `shell_command_setenv` (src/shell.c:84-92). -/
def applyEnv (e : PEnv) : Env → PEnv
  | [] => e
  | (k, some v) :: r => applyEnv (setenv e k v) r
  | (k, none) :: r => applyEnv (unsetenv e k) r

/-- `shell_command_setenv` (src/shell.c:73-93); `buf20` is `char buf[20]` before it is written. -/
def commandSetenv (buf20 : Bytes) (pid : UInt32) (e : PEnv) (env : Option Env) : Res PEnv := do
  let e := unsetenv e (str "NOTIFY_SOCKET")
  let (_, s) ← printU buf20 pid.toNat
  let e := setenv e (str "FASTD_PID") s
  match env with
  | none => return e
  | some env => return applyEnv e env

/-- The loop of `fastd_close_all_fds` (src/fastd.c:206-221) over `n` descriptors from `fd` on. -/
def closeFrom (fds : List Nat) (fd : Nat) : Nat → List Nat
  | 0 => fds
  | n + 1 => closeFrom (fds.filter (· ≠ fd)) (fd + 1) n

/-- `fastd_close_all_fds` (src/fastd.c:206-221). `getrlimit` never returns a positive value, so the
limit is always that of `sysconf(_SC_OPEN_MAX)`, -1 if there is none. -/
def closeAll (openMax : Int) (fds : List Nat) : List Nat := closeFrom fds 3 (openMax.toNat - 3)

/-- A process. -/
structure Proc where
  pid : UInt32
  env : PEnv
  dir : Bytes
  fds : List Nat
  /-- blocked signals -/
  blocked : List Nat

/-- A `fastd_shell_command_t` that is set. -/
structure Cmd where
  command : Bytes
  dir : Bytes
  sync : Bool
deriving DecidableEq, Repr

/-- Exit status of a process. -/
inductive Status
  | exited (code : UInt8)
  | signaled (n : Nat)
deriving DecidableEq, Repr

/-- What the kernel does with a new process. -/
structure Kernel where
  /-- success of `fork`, with the new pid -/
  fork : Option UInt32
  chdir : Bytes → Bool
  exec : Bool
  openMax : Int
  /-- how `/bin/sh -c command` ends when started as this process -/
  run : Bytes → Proc → Status
  /-- success of `waitpid` -/
  wait : Bool

/-- What became of the new process: left before `execl`, or executing the command. -/
inductive Child
  | failed (code : UInt8)
  | runs (command : Bytes) (p : Proc)

/-- The child's part of `shell_command_do_exec` (src/shell.c:107-122); `parent` is fastd. -/
def childMain (k : Kernel) (buf20 : Bytes) (parent : Proc) (pid : UInt32) (c : Cmd) (env : Option Env) :
    Res Child := do
  let p := { parent with pid := pid, fds := closeAll k.openMax parent.fds }
  if !k.chdir c.dir then return .failed 126
  let e ← commandSetenv buf20 parent.pid p.env env
  let p := { p with dir := c.dir, env := e, blocked := [] }
  if k.exec then return .runs c.command p
  return .failed 127

/-- Exit status of the new process. -/
def Child.status (k : Kernel) : Child → Status
  | .failed code => .exited code
  | .runs command p => k.run command p

/-- `fastd_shell_command_exec_sync` (src/shell.c:130-157) for a command that is set: `none` for the
return value `false`, otherwise the status. -/
def execSync (k : Kernel) (buf20 : Bytes) (parent : Proc) (c : Cmd) (env : Option Env) : Res (Option Status) :=
  match k.fork with
  | none => .ok none
  | some pid => do
    let ch ← childMain k buf20 parent pid c env
    return if k.wait then some (ch.status k) else none

/-- `do_verify` (src/verify.c:31-50) with a command set. -/
def doVerify (k : Kernel) (buf20 : Bytes) (parent : Proc) (c : Cmd) (env : Env) : Res Bool := do
  match ← execSync k buf20 parent c (some env) with
  | none => return false
  | some (.signaled _) => return false
  | some (.exited code) => return code == 0

end Fastd.ShellEnv
