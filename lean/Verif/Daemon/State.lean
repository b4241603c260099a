import Verif.Daemon.Addr
import Verif.Daemon.Backoff
import Verif.Handshake.Codec
import Verif.Protocol.Keys
import Verif.Data.BSearch

/-!
# The daemon: configuration, state and the execution monad

Model only. This is the common state of peer.c, peer_hashtable.c, send.c, receive.c, async.c, resolve.c, verify.c,
the peer part of config.c and protocols/ec25519_fhmqvc, which are modelled in the other files of this directory.

* Peers are referred to by their `id`, which stands for the pointer: using the id of a peer that has been deleted
  is a memory error (`Fail.mem`). That ids are unique and not reused is proved (C38).
* Method sessions are heap objects with handles, dynamic sockets have numbers; freeing one twice or using
  one after it was freed is a memory error.
* The outcomes of everything outside of the model (random numbers, failures of system calls, ...) are taken from an
  arbitrary sequence `Env.tape`.
* Kernel offloading (L2TP), the status socket, statistics and Android integration are not modelled. Shell commands
  are not modelled except for on-verify.
-/

namespace Fastd.Daemon

abbrev Bytes := List UInt8
/-- A public key: 32 bytes. -/
abbrev Key := List UInt8

/-! Build-time constants, in ms (src/build.h.in:103-141). -/

def DEFAULT_HANDSHAKE_INTERVAL : Time := 20000
def DEFAULT_HANDSHAKE_JITTER : Time := 2500
def MAINTENANCE_INTERVAL : Time := 10000
def KEEPALIVE_TIMEOUT : Time := 20000
def PEER_STALE_TIME : Time := 90000
def ETH_ADDR_STALE_TIME : Time := 300000
def MIN_VERIFY_INTERVAL : Time := 10000
def VERIFY_VALID_TIME : Time := 60000
def MIN_HANDSHAKE_INTERVAL : Time := 15000
def MIN_RESOLVE_INTERVAL : Time := 15000

/-- `fastd_mode_t` (src/types.h:41-45) -/
inductive Mode
  | tap | multitap | tun
deriving DecidableEq, Repr

/-- `fastd_peer_state_t` (src/peer.h:19-25) -/
inductive PState
  | inactive | passive | resolving | handshake | established
deriving DecidableEq, Repr

/-- `fastd_peer_config_state_t` (src/peer.h:28-36) -/
inductive CfgState
  | new | static | disabled | dynamic
deriving DecidableEq, Repr

/-- A `fastd_socket_t *`: one of the sockets in `ctx.socks` (which have `addr` set, src/fastd.c:138-165), or a
dynamic socket (`addr` is NULL) opened by `fastd_socket_open`. -/
inductive Sock
  | bound (i : Nat)
  | dyn (n : Nat)
deriving DecidableEq, Repr

/-- `peer->iface`: the common interface `ctx.iface`, or the peer's own one (`iface->peer` is set). -/
inductive Iface
  | shared | own
deriving DecidableEq, Repr

/-- `struct fastd_remote` (src/peer.h:108-117). `addrs` is `addresses`/`n_addresses`. -/
structure Remote where
  hostname : Option Bytes
  address : Addr
  addrs : List Addr := []
  cur : Nat := 0
  lastResolve : Time := 0
deriving DecidableEq, Repr

/-- `protocol_session_t` (src/protocols/ec25519_fhmqvc/ec25519_fhmqvc.h:57-70). `method` identifies the
`fastd_method_info_t`, `mstate` is the handle of the method-specific state; `none` is NULL. -/
structure Session where
  cleaned : Bool := false
  refreshing : Bool := false
  method : Option Nat := none
  mstate : Option Nat := none
deriving DecidableEq, Repr

/-- The handshake cache (src/protocols/ec25519_fhmqvc/ec25519_fhmqvc.h:79-83). -/
structure Cache where
  serial : Nat := 0
  peerKey : Key := List.replicate 32 0
  sigma : Bytes := List.replicate 32 0
  shared : Bytes := List.replicate 32 0
deriving DecidableEq, Repr

/-- `struct fastd_peer` (src/peer.h:40-98) with its `fastd_protocol_peer_state`
(src/protocols/ec25519_fhmqvc/ec25519_fhmqvc.h:73-84), which is allocated by `fastd_peer_add` and lives as long as
the peer. Initial values are those of a zeroed structure. `nextRemote = none` is -1. -/
structure Peer where
  id : Nat := 0
  name : Option Bytes := none
  group : Nat
  fromDir : Bool := false
  remotes : List Remote := []
  floating : Bool := false
  cfg : CfgState := .new
  key : Key
  ifname : Option Bytes := none
  mtu : Nat := 0
  iface : Option Iface := none
  sock : Option Sock := none
  localAddr : Addr := .unspec 0
  addr : Addr := .unspec 0
  lastHsAddr : Addr := .unspec 0
  lastRespAddr : Addr := .unspec 0
  nextRemote : Option Nat := some 0
  state : PState := .inactive
  task : Option Time := none
  nextHs : Time := 0
  lastHsTimeout : Time := 0
  lastRespTimeout : Time := 0
  estHsTimeout : Time := 0
  established : Time := 0
  resetTimeout : Time := 0
  keepalive : Time := 0
  verifyTimeout : Time := 0
  verifyValid : Time := 0
  old : Session := {}
  sess : Session := {}
  lastSerial : Nat := 0
  cache : Cache := {}
  /-- ghost: how often `setup_peer` has been run for the peer -/
  setups : Nat := 0
deriving DecidableEq, Repr

/-- The hash table of peers by address: `ctx.peer_addr_ht_seed`, `ctx.peer_addr_ht`, `ctx.peer_addr_ht_used`;
`ctx.peer_addr_ht_size` is the number of buckets. -/
structure HT where
  seed : UInt32
  buckets : List (List Nat)
  used : Nat
deriving DecidableEq, Repr

/-- `struct fastd_peer_eth_addr` (src/peer.h:101-105). MAC addresses are lists of 6 bytes. -/
structure Eth where
  addr : Bytes
  peer : Option Nat
  timeout : Time
deriving DecidableEq, Repr

/-- A running asynchronous verification: `fastd_async_verify_return_t` with the `verify_data_t` of the protocol
(src/async.h, src/verify.c:102-111, src/protocols/ec25519_fhmqvc/handshake.c:507-510). -/
structure Verif where
  peer : Nat
  sock : Sock
  loc : Addr
  rem : Addr
  hsKey : Key
  flags : UInt8
deriving DecidableEq, Repr

/-- Observable effects, and ghost events used to state properties. -/
inductive Eff
  /-- a datagram handed to `sendmsg` -/
  | send (sock : Sock) (loc rem : Addr) (peer : Option Nat) (data : Bytes)
  /-- a packet written to the interface of a peer -/
  | write (peer : Nat) (data : Bytes)
  /-- an initial handshake is sent -/
  | hsInit (peer : Option Nat) (rem : Addr)
  | established (peer : Nat)
  | disestablished (peer : Nat)
  /-- `new_session` has set up a session from the handshake key with this serial number -/
  | session (peer : Nat) (key : Key) (serial : Nat) (hsKey : Nat) (method : Nat) (initiator : Bool)
  /-- the payload of a packet was encrypted with this session -/
  | encrypt (peer : Nat) (obj : Nat) (data : Bytes)
  /-- a session has accepted a packet -/
  | accept (peer : Nat) (obj : Nat) (data : Bytes)
  /-- decryption of a packet was tried with this session -/
  | tryDecrypt (peer : Nat) (obj : Nat) (data : Bytes)
deriving DecidableEq, Repr

/-- Configuration, and everything outside of the model. -/
class Env where
  /-- the method-specific session state (`fastd_method_session_state_t`) -/
  Sess : Type
  /-- outcomes of random choices and system calls -/
  tape : Nat → Nat
  /-- `sendmsg` fails with `EINVAL` or `ENETUNREACH` when used with packet info (src/send.c:117-131) -/
  pktinfoErr : Nat → Bool
  /-- `conf.mode` -/
  mode : Mode
  /-- `conf.forward` -/
  forward : Bool
  /-- `conf.mtu` -/
  mtu : Nat
  /-- `conf.protocol->name` and `FASTD_VERSION` -/
  protocolName : Bytes
  version : Bytes
  /-- `ctx.max_buffer` -/
  maxBuffer : Nat
  /-- `ctx.iface != NULL` -/
  sharedIface : Bool
  /-- `conf.iface_persist` -/
  ifacePersist : Bool
  /-- `conf.on_verify`: `none` if not set, otherwise whether it is synchronous -/
  onVerify : Option Bool
  /-- `conf.on_verify_group` -/
  verifyGroup : Nat
  /-- `ctx.sock_default_v4`, `ctx.sock_default_v6` -/
  sockV4 : Option Nat
  sockV6 : Option Nat
  /-- the groups from a group up to the root group, following `parent` -/
  chain : Nat → List Nat
  /-- `max_connections` of a group, `none` for -1 -/
  maxConn : Nat → Option Nat
  /-- `fastd_peer_group_lookup(group, methods)`: the method list to use for a group (src/peer_group.h) -/
  groupMethods : Nat → List Bytes
  /-- `fastd_method_get_by_name` -/
  methodByName : Bytes → Option Nat
  /-- the name of a method -/
  methodName : Nat → Bytes
  /-- `METHOD_FORCE_KEEPALIVE` -/
  forceKeepalive : Nat → Bool
  /-- `conf.protocol_config->key.public` -/
  ownKey : Key
  /-- the public key of an ephemeral key pair; key pairs are identified by numbers -/
  pub : Nat → Key
  /-- `ecc_25519_load_packed_legacy` succeeds and the point is not the identity -/
  pointOk : Key → Bool
  /-- `make_shared_handshake_key` (src/protocols/ec25519_fhmqvc/handshake.c:176-250; see C31): initiator, own
  handshake key pair, peer's key, peer's handshake key; the result is sigma and the shared handshake key -/
  shared : Bool → Nat → Key → Key → Option (Bytes × Bytes)
  /-- `fastd_hmacsha256`, key first -/
  hmac : Bytes → Bytes → Bytes
  /-- `derive_key` for a session (src/protocols/ec25519_fhmqvc/handshake.c:39-56): method, A, B, X, Y, sigma, salt -/
  deriveKey : Nat → Key → Key → Key → Key → Bytes → Bytes → Bytes
  /-- `session_init`: method, key, initiator, compat, random number, time -/
  sessInit : Nat → Bytes → Bool → Bool → Nat → Time → Option Sess
  /-- `session_is_valid` -/
  sessValid : Nat → Sess → Time → Bool
  /-- `session_is_initiator` -/
  sessInitiator : Nat → Sess → Bool
  /-- `session_want_refresh` -/
  sessWantRefresh : Nat → Sess → Time → Bool
  /-- `session_superseded` -/
  sessSuperseded : Nat → Sess → Time → Sess
  /-- `encrypt` -/
  encrypt : Nat → Sess → Bytes → Option (Bytes × Sess)
  /-- `decrypt`; on success the payload, whether it was reordered, and the new state. A failed decryption does not
  change the state. -/
  decrypt : Nat → Sess → Bytes → Time → Option (Bytes × Bool × Sess)

variable [Env]

/-- `fastd_context_t ctx` (src/fastd.h), as far as modelled. -/
structure Ctx where
  now : Time
  /-- number of choices taken from `Env.tape` -/
  pos : Nat
  peers : List Peer
  nextId : Nat
  ht : HT
  eth : List Eth
  /-- live method sessions -/
  objs : Nat → Option Env.Sess
  nextObj : Nat
  /-- live dynamic sockets and the peers they belong to -/
  socks : List (Nat × Nat)
  nextSock : Nat
  /-- `ctx.protocol_state`; it is initialised at the start rather than on first use -/
  keys : Protocol.HKeys Nat
  hasFloating : Bool
  /-- running DNS requests: peer id and index of the remote -/
  resolves : List (Nat × Nat)
  verifs : List Verif
  unknown : Backoff.Tables
  /-- `ctx.next_maintenance` -/
  maintenance : Time
  log : List Eff

/-- Abnormal ends: `exit_bug`, invalid memory access or double free, `exit(1)` because of an error in the system, or because of
one in the main configuration, and a loop of the model that ran out of fuel. -/
inductive Fail
  | bug | mem | exit | config | fuel
deriving DecidableEq, Repr

/-- Computations on the state. -/
def M (α : Type) : Type := Ctx → Except Fail (α × Ctx)

namespace M

def pure {α : Type} (a : α) : M α := fun c => .ok (a, c)

def bind {α β : Type} (m : M α) (f : α → M β) : M β := fun c =>
  match m c with
  | .ok (a, c') => f a c'
  | .error e => .error e

instance : Monad M where
  pure := M.pure
  bind := M.bind

end M

def fail {α : Type} (e : Fail) : M α := fun _ => .error e
def get : M Ctx := fun c => .ok (c, c)
def modify (f : Ctx → Ctx) : M Unit := fun c => .ok ((), f c)
def emit (e : Eff) : M Unit := modify fun c => { c with log := c.log ++ [e] }

/-- The next outcome. -/
def draw : M Nat := fun c => .ok (Env.tape c.pos, { c with pos := c.pos + 1 })
def drawBool : M Bool := do return (← draw) % 2 = 1
/-- `fastd_rand(min, max)` (src/random.c): a number in [min, max). -/
def rand (min max : Time) : M Time := do return min + ((← draw) : Int) % (max - min)

/-- Dereferencing a pointer to a peer. -/
def getP (i : Nat) : M Peer := do
  match (← get).peers.find? (·.id = i) with
  | some p => pure p
  | none => fail .mem

def updPeers (ps : List Peer) (i : Nat) (f : Peer → Peer) : List Peer :=
  ps.map fun p => if p.id = i then f p else p

/-- Changing fields of a peer. -/
def modP (i : Nat) (f : Peer → Peer) : M Unit := do
  let _ ← getP i
  modify fun c => { c with peers := updPeers c.peers i f }

/-- A loop over a list. -/
def forEach {α : Type} (f : α → M Unit) : List α → M Unit
  | [] => pure ()
  | a :: as => do
    f a
    forEach f as

def when (b : Bool) (m : M Unit) : M Unit := if b then m else pure ()

/-! ### Small inline helpers of src/peer.h -/

/-- `fastd_peer_is_floating` (src/peer.h:210-212) -/
def Peer.isFloating (p : Peer) : Bool := p.remotes.isEmpty || p.floating
/-- `fastd_peer_is_dynamic` (src/peer.h:215-221) -/
def Peer.isDynamic (p : Peer) : Bool := p.cfg = .dynamic
/-- `fastd_peer_is_enabled` (src/peer.h:224-234) -/
def Peer.isEnabled (p : Peer) : Bool :=
  match p.cfg with
  | .static | .dynamic => true
  | _ => false
/-- `fastd_peer_is_established` (src/peer.h:245-253) -/
def Peer.isEstablished (p : Peer) : Bool := p.state = .established
/-- `fastd_peer_is_socket_dynamic` (src/peer.h:266-268) -/
def Peer.sockDynamic (p : Peer) : Bool :=
  match p.sock with
  | some (.bound _) => false
  | _ => true
/-- `fastd_peer_get_mtu` (src/peer.h:271-279) -/
def Peer.getMtu (p : Peer) : Nat :=
  if Env.mode = .tap then Env.mtu
  else if p.mtu ≠ 0 then p.mtu
  else Env.mtu
/-- `fastd_timeout_min` (src/fastd.h:588-590) -/
def timeoutMin (a b : Time) : Time := if a < b then a else b
/-- `fastd_timeout_advance` (src/fastd.h:593-596) -/
def timeoutAdvance (a v : Time) : Time := if a < v then v else a
/-- `fastd_task_timeout` (src/task.h:36-41) -/
def Peer.taskTimeout (p : Peer) : Time := p.task.getD timeoutInv

/-- `fastd_peer_seen` (src/peer.h:256-258) -/
def seen (i : Nat) : M Unit := do
  let c ← get
  modP i fun p => { p with resetTimeout := c.now + PEER_STALE_TIME }
/-- `fastd_peer_clear_keepalive` (src/peer.h:261-263) -/
def clearKeepalive (i : Nat) : M Unit := do
  let c ← get
  modP i fun p => { p with keepalive := c.now + KEEPALIVE_TIMEOUT }
/-- `fastd_peer_unschedule_handshake` (src/peer.h:184-186) -/
def unscheduleHandshake (i : Nat) : M Unit := modP i fun p => { p with nextHs := timeoutInv }
/-- `fastd_peer_set_verifying` (src/peer.h:190-194) -/
def setVerifying (i : Nat) : M Unit := do
  let c ← get
  modP i fun p => { p with
    verifyTimeout := c.now + MIN_VERIFY_INTERVAL
    resetTimeout := timeoutAdvance p.resetTimeout (c.now + MIN_VERIFY_INTERVAL) }
/-- `fastd_peer_set_verified` (src/peer.h:197-201) -/
def setVerified (i : Nat) (ok : Bool) : M Unit := do
  let c ← get
  modP i fun p => { p with
    verifyValid := c.now + (if ok then VERIFY_VALID_TIME else 0)
    resetTimeout := timeoutAdvance p.resetTimeout (c.now + (if ok then VERIFY_VALID_TIME else 0)) }

end Fastd.Daemon
