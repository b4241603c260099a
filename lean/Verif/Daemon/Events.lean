import Verif.Daemon.Proto

/-!
# Events: received packets, interface data, timers, asynchronous results, reloading
(src/receive.c, src/iface.c:427-446, src/task.c, src/async.c, src/config.c:630-700)

Model only.
-/

namespace Fastd.Daemon

variable [Env]

/-! ### Receiving -/

def PACKET_HANDSHAKE : UInt8 := 1
def PACKET_CONTROL : UInt8 := 0xc8

/-- `is_data_packet` (src/receive.c:169-171) with `PACKET_L2TP_T` = 0x80 -/
def isDataPacket (t : UInt8) : Bool := (t &&& (0x80 : UInt8)) = 0 && t ≠ PACKET_HANDSHAKE

/-- `can_receive_data` (src/receive.c:145-150) -/
def canReceiveData (p : Peer) (loc : Addr) : Bool := p.isEstablished && addrEq p.localAddr loc

def canReceive (peer : Option Nat) (loc : Addr) : M Bool :=
  match peer with
  | none => pure false
  | some i => do
    let p ← getP i
    pure (canReceiveData p loc)

/-- `allow_unknown_peers` (src/receive.c:153-155) -/
def allowUnknown : M Bool := do
  let c ← get
  pure (c.hasFloating || Env.onVerify.isSome)

/-- `backoff_unknown` (src/receive.c:92-142), see `Backoff.backoffUnknown`. -/
def backoff (rem : Addr) : M Bool := do
  let n ← draw
  let c ← get
  match Backoff.backoffUnknown c.unknown c.now rem n with
  | (.bug, _) => fail .bug
  | (.backoff, t) =>
    modify fun c => { c with unknown := t }
    pure true
  | (.send _ _, t) =>
    modify fun c => { c with unknown := t }
    pure false

/-- `fastd_handshake_handle` (src/handshake.c:497-538) -/
def hsPacket (sock : Sock) (loc rem : Addr) (peer : Option Nat) (pkt : Bytes) (control : Bool) : M Unit := do
  match Handshake.handle hsConf control pkt with
  | none => fail .mem
  | some .drop => pure ()
  | some (.error type flags code detail) => sendError sock loc rem peer type flags code detail
  | some (.pass hs) => handshakeHandle sock loc rem peer ⟨pkt, hs⟩

/-- `handle_socket_receive` after the control header has been removed (src/receive.c:217-235) -/
def classify (sock : Sock) (loc rem : Addr) (peer : Option Nat) (pkt : Bytes) (control : Bool) : M Unit := do
  let t ← memIfNone pkt.head?
  let can ← canReceive peer loc
  match isDataPacket t && can, peer with
  | true, some i => handleRecv i pkt
  | _, _ =>
    let ok ← allowUnknown
    if peer = none && !ok then pure ()
    else if t = PACKET_HANDSHAKE then hsPacket sock loc rem peer pkt control
    else if isDataPacket t then
      let b ← backoff rem
      if b then pure ()
      else handshakeInit sock loc rem none
    else pure ()

/-- The peer a packet is from (src/receive.c:183-194): `none` if the packet is ignored, otherwise the peer or NULL. -/
def senderOf (sock : Sock) (rem : Addr) : M (Option (Option Nat)) := do
  match (← sockPeer sock) with
  | some i =>
    let p ← getP i
    pure (if addrEq p.addr rem then some (some i) else none)
  | none =>
    let r ← htLookup rem
    pure (some r)

/-- `handle_socket_receive` (src/receive.c:174-240). -/
def socketReceive (sock : Sock) (loc rem : Addr) (pkt : Bytes) : M Unit := do
  match (← senderOf sock rem) with
  | none => pure ()
  | some peer =>
    let t ← memIfNone pkt.head?
    if t = PACKET_CONTROL then
      if pkt.length < 13 then pure ()
      else if (pkt[1]?).all (fun v => v &&& (0x0f : UInt8) ≠ 3) then pure ()
      else classify sock loc rem peer (pkt.drop 12) true
    else classify sock loc rem peer pkt false

/-! ### Reloading -/

/-- The loop in `fastd_config_load_peer_dirs` (src/config.c:684-695) -/
def reloadMark (p : Peer) : Peer :=
  if p.isDynamic then p
  else if !p.fromDir then { p with cfg := .new }
  else if p.cfg = .disabled then { p with cfg := .static }
  else p

/-- Does `configure_peers` count the peer as a configured one? (src/config.c:637-655) -/
def configured (p : Peer) : Bool := p.cfg = .new && Env.ownKey ≠ p.key

/-- One iteration of the loop of `configure_peers` (src/config.c:635-666) -/
def configurePeer (dirsOnly : Bool) (p : Peer) : M Unit := do
  match p.cfg with
  | .static => peerDelete p.id
  | .dynamic => pure ()
  | .disabled => peerReset p.id
  | .new =>
    if Env.ownKey = p.key then
      modP p.id fun p => { p with cfg := .disabled }
      peerReset p.id
    else
      modify fun c => { c with hasFloating := c.hasFloating || p.isFloating }
      modP p.id fun p => { p with cfg := .static }
      if !p.isEstablished && (p.fromDir || !dirsOnly) then peerReset p.id
      else pure ()

/-- The loop of `configure_peers`: the argument is the number of peers that remain. -/
def configureLoop (dirsOnly : Bool) : Nat → M Unit
  | 0 => pure ()
  | k + 1 => do
    let p ← memIfNone ((← get).peers[k]?)
    configurePeer dirsOnly p
    configureLoop dirsOnly k

/-- `configure_peers` (src/config.c:630-674); buffer sizes are not modelled. -/
def configurePeers (dirsOnly : Bool) : M Unit := do
  modify fun c => { c with hasFloating := false }
  let c ← get
  configureLoop dirsOnly c.peers.length

/-- A peer read from a configuration file, `none` if its key is missing or invalid. -/
structure PeerDef where
  name : Option Bytes
  group : Nat
  remotes : List Remote
  floating : Bool
  key : Option Key
  ifname : Option Bytes
  mtu : Nat

/-- Definitions as the parser accepts them: addresses are set, keys have 32 bytes (src/config.y,
src/protocols/ec25519_fhmqvc/ec25519_fhmqvc.c:36-48). -/
def PeerDef.ok (d : PeerDef) : Prop :=
  (∀ r ∈ d.remotes, r.hostname = none → r.address.isSet = true) ∧ ∀ k, d.key = some k → k.length = 32

/-- The peer structure built by the parser (src/config.c:430-470, src/config.y); the remaining fields are zero. -/
def PeerDef.toPeer (d : PeerDef) (fromDir : Bool) (key : Key) : Peer :=
  { name := d.name, group := d.group, fromDir := fromDir, floating := d.floating, key := key,
    remotes := d.remotes.map fun r => { hostname := r.hostname, address := r.address },
    ifname := d.ifname, mtu := d.mtu }

/-- `fastd_peer_add` for a peer that has just been read (src/peer.c:729-732). -/
def addDef (fromDir : Bool) (d : PeerDef) : M Unit :=
  match d.key with
  | none => pure ()
  | some key => do
    let _ ← peerAdd (d.toPeer fromDir key)

/-- Adding the peers of the main configuration file: a duplicate key is an error there (src/config.y, `peer` rule:
`fastd_peer_add` returns false). -/
def addStatic (d : PeerDef) : M Unit :=
  match d.key with
  | none => fail .config
  | some key => do
    match (← peerAdd (d.toPeer false key)) with
    | .added _ => pure ()
    | _ => fail .config

/-- `fastd_config_load_peer_dirs` (src/config.c:683-699); `defs` are the peers found in the directories, in the
order they are read. -/
def loadPeerDirs (dirsOnly : Bool) (defs : List PeerDef) : M Unit := do
  modify fun c => { c with peers := c.peers.map reloadMark }
  forEach (addDef true) defs
  configurePeers dirsOnly

/-- The state before the first peer is added (src/fastd.c:462-540); `k0` is the zeroed key pair: `ctx` is zeroed, the tables are initialised by
`fastd_receive_unknown_init` (src/receive.c:72-83) and `fastd_peer_hashtable_init` (src/peer_hashtable.c:24-27). -/
def initial (now : Time) (seed useed : UInt32) (k0 : Nat) : Ctx where
  now := now
  pos := 0
  peers := []
  nextId := 0
  ht := HT.empty seed 8
  eth := []
  objs := fun _ => none
  nextObj := 0
  socks := []
  nextSock := 0
  keys := .init k0 now
  hasFloating := false
  resolves := []
  verifs := []
  unknown := Backoff.init now useed
  maintenance := now + MAINTENANCE_INTERVAL
  log := []

/-- Start-up (src/fastd.c:532-540): the main configuration, `fastd_configure_peers`, `fastd_config_load_peer_dirs(true)`. -/
def startup (static dirs : List PeerDef) : M Unit := do
  forEach addStatic static
  configurePeers false
  loadPeerDirs true dirs

/-! ### Asynchronous results -/

/-- `handle_resolve_return` (src/async.c:47-58) -/
def resolveReturn (i k : Nat) (addrs : List Addr) : M Unit := do
  match findById (← get).peers i with
  | none => pure ()
  | some p =>
    if !p.isEnabled then pure ()
    else if p.isDynamic then fail .bug
    else handleResolve p.id k addrs

/-- `handle_verify_return` (src/async.c:63-78) -/
def verifyReturn (v : Verif) (ok : Bool) : M Unit := do
  match findById (← get).peers v.peer with
  | none => pure ()
  | some p =>
    if !p.isDynamic then fail .bug
    else
      setVerified p.id ok
      handleVerifyReturn v ok

/-! ### Events -/

/-- Everything that makes the daemon act. -/
inductive Event
  /-- time passes -/
  | tick (d : Nat)
  /-- the task of a peer is run by `fastd_task_handle` -/
  | task (i : Nat)
  /-- the maintenance task is run -/
  | maintenance
  /-- a datagram is received on a socket -/
  | recv (sock : Sock) (loc rem : Addr) (pkt : Bytes)
  /-- data is read from the common interface, or the own one of a peer -/
  | iface (peer : Option Nat) (data : Bytes)
  /-- the `k`-th of the running DNS requests has finished -/
  | resolved (k : Nat) (addrs : List Addr)
  /-- the `k`-th of the running verifications has finished -/
  | verified (k : Nat) (ok : Bool)
  /-- SIGHUP -/
  | reload (defs : List PeerDef)
  /-- SIGUSR2 -/
  | resetAll

/-- When an event can happen. Sockets and interfaces must exist, a task must be due, addresses are valid: a received
datagram is not empty (src/receive.c:262) and its sender has an address, resolved addresses are set
(src/resolve.c:71-76). -/
def Event.possible (c : Ctx) : Event → Prop
  | .tick _ => True
  | .task i => ∃ p ∈ c.peers, p.id = i ∧ ∃ t, p.task = some t ∧ t ≤ c.now
  | .maintenance => c.maintenance ≤ c.now
  | .recv sock _ rem pkt =>
    pkt ≠ [] ∧ rem.isSet = true ∧
      match sock with
      | .bound _ => True
      | .dyn n => ∃ i, (n, i) ∈ c.socks
  | .iface none _ => Env.sharedIface = true
  | .iface (some i) _ => ∃ p ∈ c.peers, p.id = i ∧ p.iface = some .own
  | .resolved k addrs => k < c.resolves.length ∧ ∀ a ∈ addrs, a.isSet = true
  | .verified k _ => k < c.verifs.length
  | .reload defs => ∀ d ∈ defs, d.ok
  | .resetAll => True

/-- Handling an event. -/
def handle : Event → M Unit
  | .tick d => modify fun c => { c with now := c.now + d }
  | .task i => peerTask i
  | .maintenance => do
    ethCleanup
    modify fun c => { c with maintenance := c.maintenance + MAINTENANCE_INTERVAL }
  | .recv sock loc rem pkt => socketReceive sock loc rem pkt
  | .iface peer data => sendData data none peer
  | .resolved k addrs => do
    let (i, r) ← memIfNone ((← get).resolves[k]?)
    modify fun c => { c with resolves := c.resolves.eraseIdx k }
    resolveReturn i r addrs
  | .verified k ok => do
    let v ← memIfNone ((← get).verifs[k]?)
    modify fun c => { c with verifs := c.verifs.eraseIdx k }
    verifyReturn v ok
  | .reload defs => loadPeerDirs false defs
  | .resetAll => do
    let c ← get
    resetAll (c.peers.length + 1) 0

/-! ### Executions -/

/-- States that are reached from the start with events satisfying `P`; all events succeed. -/
inductive Reach (P : Event → Ctx → Prop) : Ctx → Prop
  | start {now seed useed k0 static dirs c} : (∀ d ∈ static, d.ok) → (∀ d ∈ dirs, d.ok) →
      startup static dirs (initial now seed useed k0) = .ok ((), c) → Reach P c
  | step {e c c'} : Reach P c → e.possible c → P e c → handle e c = .ok ((), c') → Reach P c'

/-- Sequences of events. -/
inductive Steps (P : Event → Ctx → Prop) : Ctx → Ctx → Prop
  | refl {c} : Steps P c c
  | step {c e c' c''} : Steps P c c' → e.possible c' → P e c' → handle e c' = .ok ((), c'') → Steps P c c''

/-- All events. -/
abbrev anyEvent : Event → Ctx → Prop := fun _ _ => True

end Fastd.Daemon
