import Verif.Daemon.Peers

/-!
# Sending: datagrams, handshakes, payload (src/send.c, src/handshake.c, src/receive.c:288-330,
src/protocols/ec25519_fhmqvc/ec25519_fhmqvc.c)

Model only.
-/

namespace Fastd.Daemon

variable [Env]

/-- `fastd_send` (src/send.c:69-155). An unset local address stands for both NULL and `AF_UNSPEC`; packet info is
only used if it is set. -/
def send (sock : Option Sock) (loc rem : Addr) (peer : Option Nat) (data : Bytes) : M Unit := do
  match sock with
  | none => fail .bug
  | some s =>
    if !rem.isSet then fail .bug
    else
      sockLive s
      let c ← get
      modify fun c => { c with pos := c.pos + 1 }
      sendRetry (loc.isSet && Env.pktinfoErr c.pos) peer
      emit (.send s loc rem peer data)
where
  /-- The error handling (src/send.c:117-131). -/
  sendRetry (err : Bool) (peer : Option Nat) : M Unit :=
    match err, peer with
    | true, some i => do
      let p ← getP i
      if p.nextHs = timeoutInv then scheduleHandshakeDefault i
      else pure ()
    | _, _ => pure ()

/-! ### Handshake packets -/

def bugIfNone {α : Type} : Option α → M α
  | none => fail .bug
  | some a => pure a

def memIfNone {α : Type} : Option α → M α
  | none => fail .mem
  | some a => pure a

def hsConf : Handshake.Conf := ⟨Env.protocolName, Env.version, Env.mode = .tun⟩

/-- `fastd_handshake_send_free` (src/handshake.c:279-301) -/
def sendHandshakePkt (sock : Sock) (loc rem : Addr) (peer : Option Nat) (pkt : Bytes) (flags : Option UInt8) :
    M Unit :=
  forEach (fun d => send (some sock) loc rem peer d) (Handshake.sendFree pkt flags)

/-- `fastd_handshake_send_error` (src/handshake.c:304-329) -/
def sendError (sock : Sock) (loc rem : Addr) (peer : Option Nat) (type flags : UInt8) (code : UInt8) (detail : Nat) :
    M Unit := do
  let pkt ← bugIfNone (Handshake.errorPacket Env.maxBuffer type code detail)
  sendHandshakePkt sock loc rem peer pkt (some flags)

/-- `fastd_protocol_ec25519_fhmqvc_maintenance` (src/protocols/ec25519_fhmqvc/state.c:48-63) -/
def protoMaintenance : M Unit := do
  let fresh ← draw
  modify fun c => { c with keys := c.keys.maintenance c.now fresh }

/-- The records added to an initial handshake. -/
def initRecords (peerKey : Option Key) (hsKey : Key) : List (Nat × Bytes) :=
  [(Handshake.RECORD_SENDER_KEY, Env.ownKey)] ++
  (match peerKey with
    | none => []
    | some k => [(Handshake.RECORD_RECIPIENT_KEY, k)]) ++
  [(Handshake.RECORD_SENDER_HANDSHAKE_KEY, hsKey)]

/-- The initial handshake packet. -/
def initPacket (peerKey : Option Key) (hsKey : Key) : Option Bytes :=
  (Handshake.newInit hsConf Env.maxBuffer (3 * Handshake.recordLen 32)).bind fun (pkt, avail) =>
    Handshake.addAll avail pkt (initRecords peerKey hsKey)

/-- The key of a peer that may be NULL. -/
def peerKeyOf : Option Nat → M (Option Key)
  | none => pure none
  | some i => do
    let p ← getP i
    pure (some p.key)

/-- `fastd_protocol_ec25519_fhmqvc_handshake_init` (src/protocols/ec25519_fhmqvc/handshake.c:468-498) -/
def handshakeInit (sock : Sock) (loc rem : Addr) (peer : Option Nat) : M Unit := do
  protoMaintenance
  let k ← peerKeyOf peer
  let c ← get
  let pkt ← bugIfNone (initPacket k (Env.pub c.keys.cur.key))
  emit (.hsInit peer rem)
  sendHandshakePkt sock loc rem peer pkt none

/-! ### Sessions -/

/-- Dereferencing a method session. -/
def getObj (h : Nat) : M Env.Sess := do memIfNone ((← get).objs h)

def setObj (h : Nat) (s : Env.Sess) : M Unit :=
  modify fun c => { c with objs := fun k => if k = h then some s else c.objs k }

/-- A pointer that must not be NULL. -/
def deref {α : Type} : Option α → M α := memIfNone

/-- `is_session_valid` (src/protocols/ec25519_fhmqvc/ec25519_fhmqvc.h:108-110); the methods treat NULL as
invalid. -/
def sessionValid (s : Session) : M Bool :=
  match s.method, s.mstate with
  | some m, some h => do
    let o ← getObj h
    let c ← get
    pure (Env.sessValid m o c.now)
  | _, _ => pure false

/-- `session_want_refresh` called by `check_session_refresh` -/
def wantRefresh (s : Session) : M Bool :=
  if s.refreshing then pure false
  else do
    let m ← deref s.method
    let h ← deref s.mstate
    let o ← getObj h
    let c ← get
    pure (Env.sessWantRefresh m o c.now)

/-- `check_session_refresh` (src/protocols/ec25519_fhmqvc/ec25519_fhmqvc.c:30-39) -/
def checkSessionRefresh (i : Nat) : M Unit := do
  let p ← getP i
  let w ← wantRefresh p.sess
  if w then
    modP i fun p => { p with sess := { p.sess with cleaned := true, refreshing := true } }
    scheduleHandshake i 0
  else pure ()

/-- `check_session` (src/protocols/ec25519_fhmqvc/ec25519_fhmqvc.c:88-95) -/
def checkSession (i : Nat) : M Bool := do
  let p ← getP i
  let v ← sessionValid p.sess
  if v then pure true
  else
    peerReset i
    pure false

/-- `session_is_initiator` -/
def isInitiator (s : Session) : M Bool := do
  let m ← deref s.method
  let h ← deref s.mstate
  let o ← getObj h
  pure (Env.sessInitiator m o)

/-- `use_old_session` (src/protocols/ec25519_fhmqvc/ec25519_fhmqvc.c:98-106) -/
def useOldSession (p : Peer) : M Bool := do
  let a ← isInitiator p.sess
  if a then sessionValid p.old
  else pure false

/-- `session_send` (src/protocols/ec25519_fhmqvc/ec25519_fhmqvc.c:164-181) -/
def sessionSend (i : Nat) (s : Session) (data : Bytes) : M Unit := do
  let m ← deref s.method
  let h ← deref s.mstate
  let o ← getObj h
  match Env.encrypt m o data with
  | none => pure ()
  | some (pkt, o') =>
    setObj h o'
    emit (.encrypt i h data)
    let p ← getP i
    send p.sock p.localAddr p.addr (some i) pkt
    when (!Env.forceKeepalive m) (clearKeepalive i)

/-- `protocol_send` (src/protocols/ec25519_fhmqvc/ec25519_fhmqvc.c:184-198) -/
def protocolSend (i : Nat) (data : Bytes) : M Unit := do
  let p ← getP i
  if !p.isEstablished then pure ()
  else
    let ok ← checkSession i
    if !ok then pure ()
    else
      checkSessionRefresh i
      let p ← getP i
      let old ← useOldSession p
      sessionSend i (if old then p.old else p.sess) data

/-- `fastd_protocol_ec25519_fhmqvc_send_empty` (src/protocols/ec25519_fhmqvc/ec25519_fhmqvc.c:201-203) for the
current session -/
def sendEmpty (i : Nat) : M Unit := do
  let p ← getP i
  sessionSend i p.sess []

/-! ### Payload (src/send.c:159-226) -/

/-- One iteration of the loop of `send_all`. -/
def sendOne (data : Bytes) (source : Option Nat) (p : Peer) : M Unit :=
  if some p.id = source || !p.isEstablished then pure ()
  else protocolSend p.id data

/-- `send_all` (src/send.c:159-176): the loop reads the vector again in each iteration. -/
def sendAll (data : Bytes) (source : Option Nat) : Nat → Nat → M Unit
  | 0, _ => fail .fuel
  | fuel + 1, k => do
    match (← get).peers[k]? with
    | none => pure ()
    | some p =>
      sendOne data source p
      sendAll data source fuel (k + 1)

/-- `fastd_eth_addr_is_unicast` (src/fastd.h:625-627) on the 6 bytes of an address -/
def isUnicast (mac : Bytes) : Bool := (mac.headD 0 &&& (1 : UInt8)) = 0

/-- `fastd_buffer_dest_address`, `fastd_buffer_source_address` (src/fastd.h) -/
def destMac (data : Bytes) : Bytes := data.take 6
def sourceMac (data : Bytes) : Bytes := (data.drop 6).take 6

/-- Learning a local address (src/send.c:190-195) -/
def learnLocal (source : Option Nat) (data : Bytes) : M Unit :=
  match source with
  | none => if isUnicast (sourceMac data) then ethAdd none (sourceMac data) else pure ()
  | some _ => pure ()

/-- `send_data_tap_single` (src/send.c:179-213) -/
def sendTapSingle (data : Bytes) (source : Option Nat) : M Bool := do
  if Env.mode ≠ .tap then pure false
  else if data.length < 14 then pure true
  else
    learnLocal source data
    if !isUnicast (destMac data) then pure false
    else
      match ethFind (← get).eth (destMac data) with
      | none => pure false
      | some none => pure true
      | some (some d) =>
        if some d = source then pure true
        else
          protocolSend d data
          pure true

/-- `fastd_send_data` (src/send.c:216-227) -/
def sendData (data : Bytes) (source dest : Option Nat) : M Unit := do
  match dest with
  | some d => protocolSend d data
  | none =>
    let done ← sendTapSingle data source
    if done then pure ()
    else
      let c ← get
      sendAll data source (c.peers.length + 1) 0

/-! ### Received payload -/

/-- Learning the address of a peer (src/receive.c:296-307); returns `false` if the packet is dropped. -/
def learnRemote (i : Nat) (data : Bytes) : M Bool :=
  if Env.mode ≠ .tap then pure true
  else if data.length < 14 then pure false
  else do
    when (isUnicast (sourceMac data)) (ethAdd (some i) (sourceMac data))
    pure true

/-- `fastd_handle_receive` (src/receive.c:288-330) -/
def handleReceive (i : Nat) (data : Bytes) : M Unit := do
  let p ← getP i
  if p.iface = none then pure ()
  else
    let ok ← learnRemote i data
    if !ok then pure ()
    else
      emit (.write i data)
      if Env.mode = .tap && Env.forward then sendData data (some i) none
      else pure ()

/-- Decrypting with a session. -/
def decryptWith (i : Nat) (s : Session) (pkt : Bytes) : M (Option Bytes) := do
  let m ← deref s.method
  let h ← deref s.mstate
  let o ← getObj h
  let c ← get
  emit (.tryDecrypt i h pkt)
  match Env.decrypt m o pkt c.now with
  | none => pure none
  | some (data, _, o') =>
    setObj h o'
    emit (.accept i h pkt)
    pure (some data)

/-- Trying the old session (src/protocols/ec25519_fhmqvc/ec25519_fhmqvc.c:118-120) -/
def tryOld (i : Nat) (pkt : Bytes) : M (Option Bytes) := do
  let p ← getP i
  let v ← sessionValid p.old
  if v then decryptWith i p.old pkt
  else pure none

/-- The first packet on a session (src/protocols/ec25519_fhmqvc/ec25519_fhmqvc.c:130-146) -/
def dropOld (i : Nat) : M Unit := do
  let p ← getP i
  match p.old.method with
  | none => pure ()
  | some _ =>
    freeState p.old.mstate
    modP i fun p => { p with old := {} }

def cleanHandshakes (i : Nat) : M Unit := do
  let p ← getP i
  if p.sess.cleaned then pure ()
  else
    unscheduleHandshake i
    modP i fun p => { p with sess := { p.sess with cleaned := true } }
    let p ← getP i
    let a ← isInitiator p.sess
    when a (sendEmpty i)

/-- The end of `protocol_handle_recv` (src/protocols/ec25519_fhmqvc/ec25519_fhmqvc.c:149-154) -/
def deliver (i : Nat) (data : Bytes) : M Unit := do
  seen i
  if data.length ≠ 0 then handleReceive i data
  else pure ()

/-- `protocol_handle_recv` (src/protocols/ec25519_fhmqvc/ec25519_fhmqvc.c:109-161) -/
def handleRecv (i : Nat) (pkt : Bytes) : M Unit := do
  let ok ← checkSession i
  if !ok then pure ()
  else
    match (← tryOld i pkt) with
    | some data => deliver i data
    | none =>
      let p ← getP i
      match (← decryptWith i p.sess pkt) with
      | none => pure ()
      | some data =>
        dropOld i
        cleanHandshakes i
        checkSessionRefresh i
        deliver i data

end Fastd.Daemon
