import Verif.Shell.Env

/-!
# Android integration (src/android.c)

The messages exchanged with the GUI: the TUN descriptor, the PID, and sockets that are to be protected, i.e. not routed through the tunnel. Everything the
kernel and the GUI do is arbitrary (`Sys`, by a count of calls). Not modelled: the steps of `bind_socket` before the protection (`Net/Socket`), messages, and
the layout of the control buffer, except for the fields the code reads. Only with `__ANDROID__`.
-/

namespace Fastd.Net.Android

abbrev Bytes := List UInt8

/-- What the kernel and the GUI do at a call -/
structure Sys where
  /-- `socket(AF_UNIX, ...)`: a descriptor -/
  socket : Nat → Option Nat
  connect : Nat → Bool
  /-- `recvmsg`: the descriptors that were sent along, `none` for an error -/
  recvmsg : Nat → Option (List Nat)
  /-- `sendmsg` on a socket -/
  sendmsg : Nat → Bool
  /-- `write`: the number of bytes written -/
  write : Nat → Option Nat
  /-- `read`: the bytes that were read, at most 20; none of them at the end of the connection -/
  read : Nat → Option Bytes
  /-- what is in the first byte of the buffer before `read` -/
  stack : Nat → UInt8
  /-- the first part of `bind_socket`: an open and bound socket -/
  bind : Nat → Option Nat
  pid : Nat
  /-- whether descriptor 0 is a socket -/
  stdinSocket : Bool

inductive Ev
  /-- descriptor `fd` was sent; to the GUI or to somebody else -/
  | sentFd (gui : Bool) (fd : Nat)
  | sentPid (gui : Bool) (text : Bytes)
  /-- bytes read from the GUI -/
  | answer (b : Bytes)
  /-- descriptors received from the GUI -/
  | received (fds : List Nat)
  /-- a socket is used for packets from now on -/
  | use (fd : Nat)
  | close (fd : Nat)
deriving DecidableEq, Repr

/-- `ctx.android_ctrl_sock_fd` (`none` for its initial value 0), the number of calls, what has happened -/
structure K where
  ctrl : Option Nat := none
  pos : Nat := 0
  log : List Ev := []
deriving DecidableEq, Repr

inductive Out (α : Type)
  | ok (a : α)
  /-- `exit`, `exit_errno` -/
  | exit
  /-- `exit_bug` -/
  | bug
deriving DecidableEq, Repr

def note (k : K) (e : Ev) : K := { k with log := k.log ++ [e] }

def tick (k : K) : K := { k with pos := k.pos + 1 }

/-- `init_ctrl_sock` (src/android.c:148-167) -/
def initCtrl (sys : Sys) (k : K) : Out K :=
  match sys.socket k.pos with
  | none => .exit
  | some fd => if sys.connect (k.pos + 1) then .ok { k with ctrl := some fd, pos := k.pos + 2 } else .exit

/-- The control buffer of `ancil_recv_fds_with_buffer` for one descriptor: `cmsg_len` without the header, and the data -/
structure Cmsg where
  len : Nat
  fd : Int
deriving DecidableEq, Repr

/-- What `recvmsg` leaves in the buffer: the kernel installs as many of the descriptors as there is room for; without any, it writes nothing. -/
def kernelRights (c : Cmsg) : List Nat → Cmsg
  | [] => c
  | fd :: _ => ⟨4, fd⟩

/-- `ancil_recv_fds_with_buffer` with one descriptor and `ancil_recv_fd` (src/android.c:64-101): whether it is successful, and the descriptor -/
def recvFd (sys : Sys) (k : K) : Option Int × K :=
  match sys.recvmsg k.pos with
  | none => (none, tick k)
  | some fds =>
    let c := kernelRights ⟨4, -1⟩ fds
    (if c.len / 4 = 1 then some c.fd else none, note (tick k) (.received (fds.take 1)))

/-- `fastd_android_receive_tunfd` (src/android.c:170-182) -/
def receiveTun (sys : Sys) (k : K) : Out (Int × K) :=
  match initCtrl sys k with
  | .ok k =>
    match recvFd sys k with
    | (none, k) => .ok (-1, k)
    | (some fd, k) => .ok (fd, k)
  | .exit => .exit
  | .bug => .bug

/-- `fastd_android_send_pid` (src/android.c:185-191), called with the connection to the GUI; the text has at most 10 characters. -/
def sendPid (sys : Sys) (k : K) : Out K :=
  let text := ShellEnv.decimal sys.pid
  if sys.write k.pos = some text.length then .ok (note (tick k) (.sentPid k.ctrl.isSome text)) else .exit

/-- `ancil_send_fd` (src/android.c:104-137): without a connection to the GUI, descriptor 0 is used. -/
def sendFd (sys : Sys) (k : K) (fd : Nat) : Option K :=
  if (k.ctrl.isSome || sys.stdinSocket) && sys.sendmsg k.pos then some (note (tick k) (.sentFd k.ctrl.isSome fd)) else none

/-- `fastd_android_protect_socket` (src/android.c:194-211) -/
def protect (sys : Sys) (integration : Bool) (k : K) (fd : Nat) : Out (Bool × K) :=
  if !integration then .ok (true, k)
  else
    match sendFd sys k fd with
    | none => .exit
    | some k =>
      match sys.read k.pos with
      | none => .exit
      | some b => .ok (b.headD (sys.stack k.pos) == 0x58, note (tick k) (.answer b))

/-- The end of `bind_socket` (src/socket.c:145-171), with the descriptor that was opened and bound -/
def bindSocket (sys : Sys) (integration : Bool) (k : K) : Out (Option Nat × K) :=
  match sys.bind k.pos with
  | none => .ok (none, tick k)
  | some fd =>
    match protect sys integration (tick k) fd with
    | .ok (true, k) => .ok (some fd, note k (.use fd))
    | .ok (false, k) => .ok (none, note k (.close fd))
    | .exit => .exit
    | .bug => .bug

/-- `fastd_socket_bind_all` (src/socket.c:186-213) with `n` bind addresses -/
def bindAll (sys : Sys) (integration : Bool) : Nat → K → Out K
  | 0, k => .ok k
  | n + 1, k =>
    match bindSocket sys integration k with
    | .ok (some _, k) => bindAll sys integration n k
    | .ok (none, _) => .exit
    | .exit => .exit
    | .bug => .bug

/-- `fastd_iface_open` with the `open_iface` of Android (src/iface.c:142-156, 527-561) and with integration; `fastd_poll_fd_register` (src/polling.c:120-122)
refuses negative descriptors. The mode is that for TUN interfaces (src/config.c:547-549). -/
def ifaceOpen (sys : Sys) (k : K) : Out (Nat × K) :=
  match receiveTun sys k with
  | .ok (fd, k) =>
    match sendPid sys k with
    | .ok k => if fd < 0 then .bug else .ok (fd.toNat, k)
    | .exit => .exit
    | .bug => .bug
  | .exit => .exit
  | .bug => .bug

/-- The part of `init` (src/fastd.c:500-508) that matters here, with integration: sockets for `binds` addresses, then the interface -/
def start (sys : Sys) (binds : Nat) : Out (Nat × K) :=
  match bindAll sys true binds {} with
  | .ok k => ifaceOpen sys k
  | .exit => .exit
  | .bug => .bug

/-- Sockets opened for peers later (`fastd_socket_open`, src/socket.c:229-257), one after the other -/
def open_ (sys : Sys) : Nat → K → Out K
  | 0, k => .ok k
  | n + 1, k =>
    match bindSocket sys true k with
    | .ok (_, k) => open_ sys n k
    | .exit => .exit
    | .bug => .bug

end Fastd.Net.Android
