import Verif.Daemon.HashTable

/-!
# Peers: set-up, reset, addresses, limits (src/peer.c, src/resolve.c, parts of src/socket.c and
src/protocols/ec25519_fhmqvc/state.c)

Model only.
-/

namespace Fastd.Daemon

variable [Env]

/-! ### Sockets -/

/-- Dereferencing a socket: a dynamic one must still exist. -/
def sockLive : Sock → M Unit
  | .bound _ => pure ()
  | .dyn n => do
    match (← get).socks.find? (·.1 = n) with
    | none => fail .mem
    | some _ => pure ()

/-- `sock->peer` -/
def sockPeer : Sock → M (Option Nat)
  | .bound _ => pure none
  | .dyn n => do
    match (← get).socks.find? (·.1 = n) with
    | none => fail .mem
    | some (_, i) => pure (some i)

/-- `free_socket` (src/peer.c:170-183) -/
def freeSocket (i : Nat) : M Unit := do
  let p ← getP i
  match p.sock with
  | none => pure ()
  | some (.bound _) => modP i fun p => { p with sock := none }
  | some (.dyn n) =>
    let o ← sockPeer (.dyn n)
    if o ≠ some i then fail .bug
    else
      modify fun c => { c with socks := c.socks.filter (·.1 ≠ n) }
      modP i fun p => { p with sock := none }

/-- `fastd_socket_open` (src/socket.c:226-252): opening may fail, or end the process, when `socket` fails for IPv4
(src/socket.c:38-42). The details are modelled in `Net/Socket`. -/
def socketOpen (i : Nat) : M (Option Sock) := do
  let n ← draw
  if n % 2 = 1 then
    let c ← get
    modify fun c => { c with socks := c.socks ++ [(c.nextSock, i)], nextSock := c.nextSock + 1 }
    pure (some (.dyn c.nextSock))
  else if n % 4 = 2 then fail .exit
  else pure none

/-- The choice of a new socket in `fastd_peer_reset_socket`: a default socket, or a new one. -/
def newSocket (i : Nat) (dflt : Option Nat) : M Unit :=
  match dflt with
  | some k => modP i fun p => { p with sock := some (.bound k) }
  | none => do
    let s ← socketOpen i
    modP i fun p => { p with sock := s }

/-- `fastd_peer_reset_socket` (src/peer.c:201-229) -/
def resetSocket (i : Nat) : M Unit := do
  let p ← getP i
  if !p.addr.isSet then freeSocket i
  else if !p.sockDynamic then pure ()
  else
    freeSocket i
    match p.addr with
    | .v4 .. => newSocket i Env.sockV4
    | .v6 .. => newSocket i Env.sockV6
    | .unspec _ => pure ()

/-! ### Scheduling -/

/-- The earliest of the deadlines of a peer. -/
def Peer.deadline (p : Peer) : Time := timeoutMin p.resetTimeout (timeoutMin p.keepalive p.nextHs)

/-- `schedule_peer_task` (src/peer.c:231-245). The task queue is represented by the time each task is scheduled for;
that the queue of src/pqueue.c behaves like that is C12. -/
def schedulePeerTask (i : Nat) : M Unit :=
  modP i fun p =>
    if p.deadline = timeoutInv then { p with task := none }
    else if p.taskTimeout > p.deadline then { p with task := some p.deadline }
    else p

/-- `set_next_handshake` (src/peer.c:248-250) -/
def setNextHandshake (i : Nat) (delay : Time) : M Unit := do
  let c ← get
  modP i fun p => { p with nextHs := c.now + delay }

/-- `fastd_peer_handshake_default_rand` (src/peer.h:172-176) -/
def handshakeDefaultRand : M Time :=
  rand (DEFAULT_HANDSHAKE_INTERVAL - DEFAULT_HANDSHAKE_JITTER) (DEFAULT_HANDSHAKE_INTERVAL + DEFAULT_HANDSHAKE_JITTER)

/-- `set_next_handshake_default` (src/peer.c:253-255) -/
def setNextHandshakeDefault (i : Nat) : M Unit := do
  let d ← handshakeDefaultRand
  setNextHandshake i d

/-- `fastd_peer_schedule_handshake` (src/peer.c:263-266) -/
def scheduleHandshake (i : Nat) (delay : Time) : M Unit := do
  setNextHandshake i delay
  schedulePeerTask i

/-- `fastd_peer_schedule_handshake_default` (src/peer.h:179-181) -/
def scheduleHandshakeDefault (i : Nat) : M Unit := do
  let d ← handshakeDefaultRand
  scheduleHandshake i d

/-! ### Protocol state of a peer -/

/-- `session_free`; it accepts NULL. -/
def freeState : Option Nat → M Unit
  | none => pure ()
  | some h => do
    match (← get).objs h with
    | none => fail .mem
    | some _ => modify fun c => { c with objs := fun k => if k = h then none else c.objs k }

/-- `reset_session` (src/protocols/ec25519_fhmqvc/state.c:76-80) without the clearing. -/
def freeSession (s : Session) : M Unit :=
  match s.method with
  | none => pure ()
  | some _ => freeState s.mstate

/-- `fastd_protocol_ec25519_fhmqvc_reset_peer_state` (src/protocols/ec25519_fhmqvc/state.c:83-89) -/
def resetPeerState (i : Nat) : M Unit := do
  let p ← getP i
  freeSession p.old
  modP i fun p => { p with old := {} }
  let p ← getP i
  freeSession p.sess
  modP i fun p => { p with sess := {} }

/-! ### Reset and set-up -/

/-- `reset_peer` (src/peer.c:292-337) -/
def resetPeer (i : Nat) : M Unit := do
  let p ← getP i
  when p.isEstablished (emit (.disestablished i))
  freeSocket i
  resetPeerState i
  modify fun c => { c with eth := ethCompact (fun e => e.peer = some i) c.eth }
  modP i fun p => { p with task := none }
  htRemove i
  modP i fun p => { p with addr := .unspec 0, localAddr := .unspec 0, state := .inactive }
  modP i fun p => { p with
    iface := if !Env.ifacePersist || p.cfg = .disabled || p.isDynamic then none else p.iface }

/-- `has_group_config_constraints` (src/peer.c:186-193) -/
def hasGroupConstraints (g : Nat) : Bool := (Env.chain g).any fun g => (Env.maxConn g).isSome

/-- The delay chosen by `init_handshake` -/
def initDelay (g : Nat) : M Time := if hasGroupConstraints g then rand 0 3000 else pure 0

/-- `init_handshake` (src/peer.c:346-354) -/
def initHandshake (i : Nat) : M Unit := do
  let p ← getP i
  let d ← initDelay p.group
  modP i fun p => { p with state := .handshake }
  scheduleHandshake i d

/-- Accessing a remote of a peer: an index outside of the vector is a memory error. -/
def getR (i k : Nat) : M Remote := do
  let p ← getP i
  match p.remotes[k]? with
  | none => fail .mem
  | some r => pure r

/-- Changing a remote of a peer. -/
def modR (i k : Nat) (f : Remote → Remote) : M Unit := do
  let _ ← getR i k
  modP i fun p => { p with remotes := p.remotes.modify k f }

/-- `fastd_resolve_peer` (src/resolve.c:100-131). Creating the thread may fail. -/
def resolvePeer (i k : Nat) : M Unit := do
  let p ← getP i
  if p.isDynamic then fail .bug
  else
    let r ← getR i k
    let c ← get
    if !timedOut r.lastResolve c.now then pure ()
    else
      modR i k fun r => { r with lastResolve := c.now + MIN_RESOLVE_INTERVAL }
      let ok ← drawBool
      when ok (modify fun c => { c with resolves := c.resolves ++ [(i, k)] })

/-- The loop over the remotes in `setup_peer` (src/peer.c:375-385). -/
def setupRemote (now : Time) (r : Remote) : Remote :=
  { r with lastResolve := now, addrs := if r.hostname = none then [r.address] else r.addrs }

/-- The first part of `setup_peer` (src/peer.c:371-405): only fields of the peer are set. -/
def setupFields (now : Time) (p : Peer) : Peer :=
  { p with
    remotes := p.remotes.map (setupRemote now)
    nextRemote := if p.remotes = [] then none else some 0
    lastHsTimeout := now
    lastHsAddr := .unspec 0
    lastRespTimeout := now
    lastRespAddr := .unspec 0
    estHsTimeout := now
    verifyTimeout := now
    verifyValid := now
    nextHs := timeoutInv
    resetTimeout := if p.isDynamic then now else timeoutInv
    keepalive := timeoutInv
    setups := p.setups + 1 }

/-- Getting an interface in `setup_peer` (src/peer.c:412-425). Opening an interface may fail; the process ends if it is the one of a
peer from the main configuration, or if `/dev/net/tun` cannot be opened (src/iface.c:98-100). -/
def setupIface (i : Nat) : M Unit := do
  let p ← getP i
  if Env.sharedIface then modP i fun p => { p with iface := some .shared }
  else if Env.ifacePersist && p.iface = none && !p.isDynamic then
    let n ← draw
    if n % 2 = 1 then modP i fun p => { p with iface := some .own }
    else if !p.fromDir || n % 4 = 2 then fail .exit
    else pure ()
  else pure ()

/-- Starting to connect in `setup_peer` (src/peer.c:427-442). -/
def setupConnect (i : Nat) : M Unit := do
  let p ← getP i
  match p.nextRemote with
  | none => modP i fun p => { p with state := .passive }
  | some k =>
    modR i k fun r => { r with cur := 0 }
    let r ← getR i k
    if r.hostname ≠ none then
      modP i fun p => { p with state := .resolving }
      resolvePeer i k
      setNextHandshakeDefault i
    else initHandshake i

/-- `setup_peer` (src/peer.c:371-443) -/
def setupPeer (i : Nat) : M Unit := do
  let c ← get
  modP i (setupFields c.now)
  let p ← getP i
  if !p.isEnabled then pure ()
  else
    setupIface i
    setupConnect i
    schedulePeerTask i

/-- `fastd_peer_reset` (src/peer.c:652-659) -/
def peerReset (i : Nat) : M Unit := do
  let p ← getP i
  when (p.state ≠ .inactive) (resetPeer i)
  setupPeer i

/-- `peer_p_find_by_id` (src/peer.c:127-142): index of the peer with an id. -/
def peerIndex (ps : List Peer) (id : Nat) : Option Nat := Data.bsearch (fun p => compare id p.id) ps

/-- `fastd_peer_find_by_id` (src/peer.c:160-167) -/
def findById (ps : List Peer) (id : Nat) : Option Peer := (peerIndex ps id).bind (ps[·]?)

/-- `delete_peer` (src/peer.c:471-486). The protocol state is freed before instead of after the peer is taken out of
the vector. -/
def deletePeer (i : Nat) : M Unit := do
  let _ ← getP i
  match peerIndex (← get).peers i with
  | none => fail .bug
  | some k =>
    resetPeerState i
    modify fun c => { c with peers := c.peers.eraseIdx k }

/-- `fastd_peer_delete` (src/peer.c:662-665) -/
def peerDelete (i : Nat) : M Unit := do
  resetPeer i
  deletePeer i

/-- `fastd_peer_handle_resolve` (src/peer.c:357-368) -/
def handleResolve (i k : Nat) (addrs : List Addr) : M Unit := do
  modR i k fun r => { r with addrs := addrs, cur := 0 }
  let p ← getP i
  when (p.state = .resolving) (initHandshake i)

/-! ### Addresses -/

/-- `reset_peer_address` (src/peer.c:547-554) -/
def resetPeerAddress (i : Nat) : M Unit := do
  let p ← getP i
  if p.isEstablished then peerReset i
  else
    htRemove i
    modP i fun p => { p with addr := .unspec 0 }

/-- `fastd_peer_owns_address` (src/peer.c:557-573) -/
def ownsAddress (p : Peer) (a : Addr) : Bool :=
  if p.isFloating then false
  else p.remotes.any fun r => r.hostname = none && addrEq r.address a

/-- `fastd_peer_matches_address` (src/peer.c:576-591) -/
def matchesAddress (p : Peer) (a : Addr) : Bool :=
  if p.isFloating then true
  else p.remotes.any fun r => r.addrs.any fun b => addrEq b a

/-- How the loop of `fastd_peer_claim_address` ends. -/
inductive Claim
  | free
  | owned
  | held (j : Nat)
deriving DecidableEq

/-- The loop of `fastd_peer_claim_address` (src/peer.c:609-632) up to the point where it is left. -/
def claimScan (i : Nat) (a : Addr) : List Peer → Claim
  | [] => .free
  | p :: ps =>
    if p.id = i then claimScan i a ps
    else if !p.isEnabled then claimScan i a ps
    else if ownsAddress p a then .owned
    else if addrEq p.addr a then .held p.id
    else claimScan i a ps

/-- Taking over the socket at the end of `fastd_peer_claim_address` (src/peer.c:639-642). -/
def claimSock (i : Nat) : Option Sock → M Unit
  | none => pure ()
  | some (.dyn n) => sockLive (.dyn n)
  | some (.bound k) => do
    let p ← getP i
    if p.sock = some (.bound k) then pure ()
    else
      freeSocket i
      modP i fun p => { p with sock := some (.bound k) }

/-- The last part of `fastd_peer_claim_address` (src/peer.c:635-648); `loc` is `none` for NULL. -/
def claimFinish (i : Nat) (sock : Option Sock) (loc : Option Addr) (rem : Addr) : M Bool := do
  htRemove i
  modP i fun p => { p with addr := rem }
  htInsert i
  claimSock i sock
  modP i fun p => { p with localAddr := loc.getD p.localAddr }
  pure true

/-- `fastd_peer_claim_address` (src/peer.c:602-649) -/
def claimAddress (i : Nat) (sock : Option Sock) (loc : Option Addr) (rem : Addr) (force : Bool) : M Bool := do
  if !rem.isSet then
    let p ← getP i
    when p.isEstablished (peerReset i)
    claimFinish i sock loc rem
  else
    match claimScan i rem (← get).peers with
    | .free => claimFinish i sock loc rem
    | .owned =>
      resetPeerAddress i
      pure false
    | .held j =>
      let q ← getP j
      if !force && q.isEstablished then
        resetPeerAddress i
        pure false
      else
        resetPeerAddress j
        claimFinish i sock loc rem

/-! ### Connection limits -/

/-- `is_peer_in_group` (src/peer.c:269-283) -/
def inGroup (p : Peer) (g : Nat) : Bool := (Env.chain p.group).contains g

/-- `count_established_group_peers` (src/peer.c:668-678) -/
def countEstablished (ps : List Peer) (g : Nat) : Nat := (ps.filter fun p => p.isEstablished && inGroup p g).length

/-- `fastd_peer_may_connect` (src/peer.c:681-696) -/
def mayConnect (ps : List Peer) (p : Peer) : Bool :=
  if p.isEstablished then true
  else (Env.chain p.group).all fun g =>
    match Env.maxConn g with
    | none => true
    | some m => !decide (countEstablished ps g ≥ m)

/-! ### Adding peers -/

/-- `peer_configs_equal` (src/peer.c:699-725) -/
def configsEqual (p q : Peer) : Bool :=
  if p.group ≠ q.group then false
  else if p.floating ≠ q.floating then false
  else if p.remotes.length ≠ q.remotes.length then false
  else if p.ifname ≠ q.ifname then false
  else (p.remotes.zip q.remotes).all fun (r, s) => addrEq r.address s.address && r.hostname = s.hostname

/-- Result of `fastd_peer_add`. -/
inductive Added
  | failed
  | unchanged
  | added (i : Nat)
deriving DecidableEq

/-- The end of `fastd_peer_add` (src/peer.c:775-785) with `fastd_protocol_ec25519_fhmqvc_init_peer_state`
(src/protocols/ec25519_fhmqvc/state.c:65-73). -/
def addNew (q : Peer) : M Added := do
  let c ← get
  modify fun c => { c with
    peers := c.peers ++ [{ q with id := c.nextId, lastSerial := c.keys.cur.serial }]
    nextId := c.nextId + 1 }
  pure (.added c.nextId)

/-- `find_key` (src/protocols/ec25519_fhmqvc/handshake.c:403-438) without an address,
`fastd_protocol_ec25519_fhmqvc_find_peer`. -/
def findKey (ps : List Peer) (key : Key) : Option Peer := ps.find? (·.key = key)

/-- `fastd_peer_add` (src/peer.c:728-790); peers without a valid key are dropped before. -/
def peerAdd (q : Peer) : M Added := do
  match findKey (← get).peers q.key with
  | none => addNew q
  | some o =>
    if q.cfg ≠ .new then fail .bug
    else
      match o.cfg with
      | .new | .disabled =>
        modP o.id fun p => { p with cfg := .disabled }
        pure .failed
      | .static =>
        if configsEqual o q then
          modP o.id fun p => { p with name := q.name, cfg := .new }
          pure .unchanged
        else
          peerDelete o.id
          addNew q
      | .dynamic =>
        peerDelete o.id
        addNew q

end Fastd.Daemon
