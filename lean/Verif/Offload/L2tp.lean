import Verif.Offload.Netlink
import Verif.Net.Socket

/-!
# L2TP offload (src/offload/l2tp/l2tp.c)

Model only. The kernel answers a request with any datagrams, given by `Sys.answer`; they wait in a queue until they are received.
Sending and receiving may fail. The sockets are those of `Net/Socket`. The self-test's own descriptor is taken from the same table.
Not modelled: messages, and `get_iface`, which returns what is in the session.
-/

namespace Fastd.L2tp

open Fastd.Netlink (Bytes St Cb Out wr rd32 rd16 le16 le32 putHeader putExtraHeader attrPutU8 attrPutU16 attrPutU32 attrPutStrz)
open Fastd.Daemon (Addr)

/-! ## Requests -/

/-- The message up to the extra header, as in src/offload/l2tp/l2tp.c:120-128 and in all other requests: `memset`, the header with type
and flags `NLM_F_REQUEST | NLM_F_ACK`, and the extra header `struct genlmsghdr`. `stack` is what the buffer contains at first. -/
def start (stack : Bytes) (type cmd version : Nat) : Option Bytes := do
  let b := List.replicate stack.length 0
  let b ← putHeader b
  let b ← wr b 4 (le16 type)
  let b ← wr b 6 (le16 5)
  let (b, gh) ← putExtraHeader b 4
  let b ← wr b gh [UInt8.ofNat cmd]
  wr b (gh + 1) [UInt8.ofNat version]

/-- `L2TP_GENL_NAME` -/
def genlName : Bytes := [0x6c, 0x32, 0x74, 0x70]

/-- The request of `genl_get_family_id` (src/offload/l2tp/l2tp.c:113-132): `CTRL_CMD_GETFAMILY` of `GENL_ID_CTRL` with
`CTRL_ATTR_FAMILY_NAME` -/
def getFamilyReq (stack : Bytes) (name : Bytes) : Option Bytes := do
  let b ← start stack 16 3 1
  attrPutStrz b 2 name

/-- The request of `fastd_l2tp_tunnel_create` (src/offload/l2tp/l2tp.c:149-167): `L2TP_CMD_TUNNEL_CREATE` with `L2TP_ATTR_CONN_ID`,
`L2TP_ATTR_PEER_CONN_ID`, `L2TP_ATTR_PROTO_VERSION`, `L2TP_ATTR_ENCAP_TYPE`, `L2TP_ATTR_FD` -/
def tunnelCreateReq (stack : Bytes) (family fd connId : Nat) : Option Bytes := do
  let b ← start stack family 1 1
  let b ← attrPutU32 b 9 connId
  let b ← attrPutU32 b 10 1
  let b ← attrPutU8 b 7 3
  let b ← attrPutU16 b 2 0
  attrPutU32 b 23 fd

/-- The request of `fastd_l2tp_session_create` (src/offload/l2tp/l2tp.c:175-196): `L2TP_CMD_SESSION_CREATE` with `L2TP_ATTR_CONN_ID`,
`L2TP_ATTR_SESSION_ID`, `L2TP_ATTR_PEER_SESSION_ID`, `L2TP_ATTR_PW_TYPE`, `L2TP_ATTR_L2SPEC_TYPE` and maybe `L2TP_ATTR_IFNAME` -/
def sessionCreateReq (stack : Bytes) (family connId : Nat) (ifname : Option Bytes) : Option Bytes := do
  let b ← start stack family 5 1
  let b ← attrPutU32 b 9 connId
  let b ← attrPutU32 b 11 1
  let b ← attrPutU32 b 12 1
  let b ← attrPutU16 b 1 5
  let b ← attrPutU8 b 5 0
  match ifname with
  | some n => attrPutStrz b 8 n
  | none => some b

/-- The request of `fastd_l2tp_session_get_ifname` (src/offload/l2tp/l2tp.c:216-229): `L2TP_CMD_SESSION_GET` -/
def sessionGetReq (stack : Bytes) (family connId : Nat) : Option Bytes := do
  let b ← start stack family 8 1
  let b ← attrPutU32 b 9 connId
  attrPutU32 b 11 1

/-- The request of `fastd_l2tp_session_delete` (src/offload/l2tp/l2tp.c:239-252): `L2TP_CMD_SESSION_DELETE` -/
def sessionDeleteReq (stack : Bytes) (family connId : Nat) : Option Bytes := do
  let b ← start stack family 6 1
  let b ← attrPutU32 b 9 connId
  attrPutU32 b 11 1

/-! ## The system -/

/-- What the system does. -/
structure Sys where
  net : Net.Sys
  /-- the contents of the buffers on the stack, of size `MNL_SOCKET_BUFFER_SIZE` -/
  stack : Nat → Bytes
  /-- `sendto` on the Netlink socket: an error, or the datagrams that are sent back -/
  answer : Nat → Bytes → Except Nat (List Bytes)
  /-- an error of `mnl_socket_recvfrom`, and whether it takes a datagram from the queue -/
  recvError : Nat → Option (Nat × Bool)
  /-- `random()` -/
  random : Nat → Nat
  /-- `connect`: an error or success -/
  connect : Nat → Option Nat
  /-- `fastd_iface_set_mtu`: an error or success -/
  setMtu : Nat → Option Nat

/-- The state of the system and of the offload code. -/
structure W where
  sk : Net.K
  /-- what the sockets are connected to -/
  peers : Nat → Option Addr
  /-- the datagrams waiting at the Netlink socket -/
  queue : List Bytes
  /-- `nl->seq` -/
  seq : Nat
  /-- `ctx.offload_l2tp->family_id` -/
  family : Nat
  errno : Nat
  /-- position in the tapes of `Sys` -/
  pos : Nat
  /-- the requests that have been sent successfully, and the answers; the last one first -/
  log : List (Bytes × List Bytes)
  /-- the MTUs that have been set: the last one first -/
  mtus : List (Bytes × Nat)

/-- Why a computation has no result -/
inductive Stop
  /-- `exit` or `exit_bug` -/
  | exit
  /-- an access outside of a buffer -/
  | oob
  /-- waits for an answer that does not come -/
  | blocked
  /-- not finished after the given number of steps -/
  | fuel
deriving DecidableEq, Repr

/-- A computation -/
def M (α : Type) : Type := W → Except Stop α × W

namespace M

def pure {α : Type} (a : α) : M α := fun w => (.ok a, w)

def bind {α β : Type} (m : M α) (f : α → M β) : M β := fun w =>
  match m w with
  | (.ok a, w') => f a w'
  | (.error e, w') => (.error e, w')

end M

instance : Monad M where
  pure := M.pure
  bind := M.bind

def stop {α : Type} (e : Stop) : M α := fun w => (.error e, w)

/-- A computation of `Net/Socket` -/
def net {α : Type} (m : Net.M α) : M α := fun w =>
  match m w.sk with
  | (some a, k) => (.ok a, { w with sk := k })
  | (none, k) => (.error .exit, { w with sk := k })

/-- A value of a tape -/
def next {α : Type} (tape : Nat → α) : M α := fun w => (.ok (tape w.pos), { w with pos := w.pos + 1 })

/-- `errno = e` -/
def setErrno (e : Nat) : M Unit := fun w => (.ok (), { w with errno := e })

/-! ## Requests and answers -/

/-- A datagram is received into the buffer. -/
def received (buf d : Bytes) : Bytes := d ++ buf.drop d.length

/-- `run_parse_cb` (src/offload/l2tp/l2tp.c:58-67), with the Netlink socket never bound by fastd, so its port ID is 0
(`mnl_socket_open`, src/dep/libmnl/src/socket.c:96-114). Every message has at least 4 bytes, so the number of messages is
limited by that of the bytes, unless it does not terminate. -/
def runParseCb (cb : Option Cb) (seq : Nat) (buf : Bytes) (len : Nat) (s : St) : Out :=
  Netlink.cbRun cb buf len seq 0 (len + 1) s

/-- The loop of `do_nl` (src/offload/l2tp/l2tp.c:86-92) with at most the given number of datagrams. A datagram that is longer than
the buffer is an error of `mnl_socket_recvfrom`. The result is that of `do_nl`: a negative number is converted to `true`.
`run` is `run_parse_cb`. -/
def doNlLoop (sys : Sys) (run : Bytes → Nat → St → Out) : Nat → Bytes → St → M (Bool × St)
  | 0, _, _ => stop .fuel
  | fuel + 1, buf, s => fun w =>
    match sys.recvError w.pos with
    | some (e, takes) =>
      (.ok (true, { s with errno := e }),
        { w with pos := w.pos + 1, errno := e, queue := if takes then w.queue.drop 1 else w.queue })
    | none =>
      let w := { w with pos := w.pos + 1 }
      match w.queue with
      | [] => (.error .blocked, w)
      | d :: q =>
        let w := { w with queue := q }
        if d.length > buf.length then (.ok (true, { s with errno := 28 }), { w with errno := 28 })
        else
          match run (received buf d) d.length s with
          | .oob => (.error .oob, w)
          | .fuel => (.error .fuel, w)
          | .done ret s =>
            if ret > 0 then doNlLoop sys run fuel (received buf d) s w
            else (.ok (decide (ret ≠ -1), s), { w with errno := s.errno })

/-- The sequence number is entered (src/offload/l2tp/l2tp.c:78), and the message handed to `sendto` (line 80). -/
def finish (req : Option Bytes) (seq : Nat) : Option Bytes := do
  let b ← req
  let b ← wr b 8 (le32 seq)
  let len ← rd32 b 0
  if len > b.length then none else some (b.take len)

/-- `do_nl` (src/offload/l2tp/l2tp.c:74-95). `req` is the message in its buffer. If sending fails, the negative result is converted to
`true`. -/
def doNl (sys : Sys) (fuel : Nat) (req : Option Bytes) (cb : Option Cb) (family : Option Nat) (ifname : Bytes) :
    M (Bool × St) := fun w =>
  let seq := (w.seq + 1) % 4294967296
  let w := { w with seq := seq }
  match finish req seq with
  | none => (.error .oob, w)
  | some m =>
    let s : St := { errno := w.errno, family := family, ifname := ifname }
    match sys.answer w.pos m with
    | .error e => (.ok (true, { s with errno := e }), { w with pos := w.pos + 1, errno := e })
    | .ok ds =>
      doNlLoop sys (runParseCb cb seq) fuel (sys.stack w.pos) s { w with pos := w.pos + 1, queue := w.queue ++ ds, log := (m, ds) :: w.log }

/-- The contents of a buffer on the stack -/
def stack (sys : Sys) : M Bytes := next sys.stack

/-- `ctx.offload_l2tp->family_id` -/
def familyId : M Nat := fun w => (.ok w.family, w)

/-- `genl_get_family_id` (src/offload/l2tp/l2tp.c:113-140): `none` is -1. The comparison `err < 0` is never true. -/
def genlGetFamilyId (sys : Sys) (fuel : Nat) (name : Bytes) : M (Option Nat) := do
  let st ← stack sys
  let (_, s) ← doNl sys fuel (getFamilyReq st name) (some .getFamily) none []
  pure s.family

/-- `new_conn_id` (src/offload/l2tp/l2tp.c:142-147) -/
def newConnId (sys : Sys) : M Nat := do
  let a ← next sys.random
  let b ← next sys.random
  pure ((a * 2 % 4294967296) ^^^ (b % 4294967296))

/-- `fastd_l2tp_tunnel_create` (src/offload/l2tp/l2tp.c:149-168) -/
def tunnelCreate (sys : Sys) (fuel fd connId : Nat) : M Bool := do
  let st ← stack sys
  let f ← familyId
  let (r, _) ← doNl sys fuel (tunnelCreateReq st f fd connId) none none []
  pure r

/-- `fastd_l2tp_session_create` (src/offload/l2tp/l2tp.c:175-197) -/
def sessionCreate (sys : Sys) (fuel connId : Nat) (ifname : Option Bytes) : M Bool := do
  let st ← stack sys
  let f ← familyId
  let (r, _) ← doNl sys fuel (sessionCreateReq st f connId ifname) none none []
  pure r

/-- `fastd_l2tp_session_get_ifname` (src/offload/l2tp/l2tp.c:216-236): the array `ifname` if the result is true -/
def sessionGetIfname (sys : Sys) (fuel connId : Nat) : M (Option Bytes) := do
  let st ← stack sys
  let f ← familyId
  let (r, s) ← doNl sys fuel (sessionGetReq st f connId) (some .getIfname) none (List.replicate 16 0)
  if r then
    pure (if s.ifname.head? = some 0 then none else some s.ifname)
  else pure none

/-- `fastd_l2tp_session_delete` (src/offload/l2tp/l2tp.c:239-253) -/
def sessionDelete (sys : Sys) (fuel connId : Nat) : M Bool := do
  let st ← stack sys
  let f ← familyId
  let (r, _) ← doNl sys fuel (sessionDeleteReq st f connId) none none []
  pure r

/-! ## Sessions -/

/-- `struct fastd_offload_state` (src/offload/l2tp/l2tp.c:33-38) -/
structure Session where
  fd : Nat
  /-- `sock->bound_addr` -/
  bound : Option Addr
  connId : Nat
  ifname : Bytes
  mtu : Nat
deriving DecidableEq, Repr

/-- `connect_socket` (src/offload/l2tp/l2tp.c:324-341) -/
def connectSocket (sys : Sys) (fd : Nat) (addr : Addr) : M Bool :=
  match addr with
  | .unspec _ => stop .exit
  | _ => do
    let r ← next sys.connect
    match r with
    | some e => setErrno e; pure false
    | none => fun w => (.ok true, { w with peers := fun n => if n = fd then some addr else w.peers n })

/-- `fastd_socket_close` (src/socket.c:277-289) -/
def closeSocket (fd : Nat) : M Unit := do
  net (Net.close fd)
  fun w => (.ok (), { w with peers := fun n => if n = fd then none else w.peers n })

/-- `free_offload_session` (src/offload/l2tp/l2tp.c:344-359) with a socket -/
def freeOffloadSession (sys : Sys) (fuel fd connId : Nat) (delete : Bool) : M Unit := do
  if delete then
    let _ ← sessionDelete sys fuel connId
  closeSocket fd

/-- `fastd_offload_l2tp_free_session` (src/offload/l2tp/l2tp.c:362-364) -/
def freeSession (sys : Sys) (fuel : Nat) (s : Session) : M Unit := freeOffloadSession sys fuel s.fd s.connId true

/-- `fastd_offload_l2tp_update_session` (src/offload/l2tp/l2tp.c:367-372) -/
def updateSession (sys : Sys) (s : Session) (localAddr addr : Addr) : M Bool := do
  match s.bound with
  | none => pure false
  | some b => if Daemon.addrEq localAddr b then connectSocket sys s.fd addr else pure false

/-- The loop that looks for a connection ID (src/offload/l2tp/l2tp.c:398-413, 267-280) with at most the given number of attempts;
`none` is an error. `EEXIST` is 17. -/
def tunnelLoop (sys : Sys) (fuel fd : Nat) : Nat → M (Option Nat)
  | 0 => stop .fuel
  | n + 1 => do
    let id ← newConnId sys
    if id = 0 then tunnelLoop sys fuel fd n
    else
      let ok ← tunnelCreate sys fuel fd id
      if ok then pure (some id)
      else fun w => if w.errno = 17 then tunnelLoop sys fuel fd n w else (.ok none, w)

/-- `fastd_socket_open_offload` (src/socket.c:255-274), given the device that the parent socket is bound to -/
def openOffload (sys : Sys) (localAddr : Addr) (bindtodev : Option Bytes) : M (Option Nat) :=
  net (Net.openDynamic sys.net { addr := localAddr, bindtodev := bindtodev, default4 := false, default6 := false, dynamic := false } true)

/-- What `fastd_offload_l2tp_init_session` uses of a peer -/
structure Peer where
  localAddr : Addr
  addr : Addr
  /-- `peer->sock->addr->bindtodev` -/
  bindtodev : Option Bytes
  /-- the result of `fastd_iface_format_name`: `none` is an error, an empty string lets the kernel choose -/
  ifname : Option Bytes
  /-- `fastd_peer_get_mtu(peer)` -/
  mtu : Nat

/-- `fastd_offload_l2tp_init_session` (src/offload/l2tp/l2tp.c:375-446) for a peer with a bound socket. `sock->bound_addr` is what
`getsockname` returns: the address that the socket is bound to. -/
def initSession (sys : Sys) (fuel : Nat) (p : Peer) : M (Option Session) :=
  match p.ifname with
  | none => pure none
  | some ifname => do
    let fd ← openOffload sys p.localAddr p.bindtodev
    match fd with
    | none => pure none
    | some fd =>
      if ← connectSocket sys fd p.addr then
        match ← tunnelLoop sys fuel fd fuel with
        | none =>
          freeOffloadSession sys fuel fd 0 false
          pure none
        | some id =>
          if ← sessionCreate sys fuel id (if ifname = [] then none else some ifname) then
            match ← sessionGetIfname sys fuel id with
            | none =>
              freeOffloadSession sys fuel fd id true
              pure none
            | some name =>
              match ← next sys.setMtu with
              | some e =>
                setErrno e
                freeOffloadSession sys fuel fd id true
                pure none
              | none => fun w =>
                (.ok (some { fd := fd, bound := (w.sk.fds fd).bind (·.bound), connId := id, ifname := name, mtu := p.mtu }),
                  { w with mtus := (name, p.mtu) :: w.mtus })
          else
            freeOffloadSession sys fuel fd id false
            pure none
      else
        freeOffloadSession sys fuel fd 0 false
        pure none

/-- `l2tp_selftest` (src/offload/l2tp/l2tp.c:260-292) -/
def selftest (sys : Sys) (fuel : Nat) : M Unit := do
  match ← net (Net.socket sys.net .inet) with
  | none => stop .exit
  | some fd =>
    match ← tunnelLoop sys fuel fd fuel with
    | none => stop .exit
    | some id =>
      if ← sessionCreate sys fuel id none then
        if ← sessionDelete sys fuel id then net (Net.close fd)
        else stop .exit
      else stop .exit

/-- `fastd_offload_l2tp_init` (src/offload/l2tp/l2tp.c:295-309), given whether the Netlink socket can be opened -/
def init (sys : Sys) (fuel : Nat) (opened : Bool) : M Unit := do
  if opened then
    match ← genlGetFamilyId sys fuel genlName with
    | none => stop .exit
    | some f =>
      fun w => (.ok (), { w with family := f % 65536 })
      selftest sys fuel
  else stop .exit

end Fastd.L2tp
