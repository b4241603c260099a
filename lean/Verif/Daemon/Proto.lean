import Verif.Daemon.PeerTask

/-!
# The ec25519-fhmqvc handshake (src/protocols/ec25519_fhmqvc/handshake.c)

Model only. The computation of keys is left open here (`Env.shared`, `Env.deriveKey`, `Env.hmac`); see Crypto.
-/

namespace Fastd.Daemon

variable [Env]

/-! ### Sessions -/

/-- The condition in `supersede_session` (src/protocols/ec25519_fhmqvc/handshake.c:60) -/
def supersedeKeep (p : Peer) : M Bool := do
  let v ← sessionValid p.sess
  if v then
    let w ← sessionValid p.old
    pure !w
  else pure false

/-- The first `if` of `supersede_session` (src/protocols/ec25519_fhmqvc/handshake.c:60-69). In the second case the
session keeps pointing to the freed state; `new_session` overwrites it. -/
def supersedeFirst (i : Nat) : M Unit := do
  let p ← getP i
  let keep ← supersedeKeep p
  if keep then
    freeSession p.old
    modP i fun p => { p with old := p.sess }
  else freeSession p.sess

/-- The second `if` of `supersede_session` (src/protocols/ec25519_fhmqvc/handshake.c:71-81) -/
def supersedeSecond (i m : Nat) : M Unit := do
  let p ← getP i
  match p.old.method with
  | none => pure ()
  | some m' =>
    if m' ≠ m then
      freeState p.old.mstate
      modP i fun p => { p with old := {} }
    else
      let h ← deref p.old.mstate
      let o ← getObj h
      let c ← get
      setObj h (Env.sessSuperseded m' o c.now)

/-- `supersede_session` (src/protocols/ec25519_fhmqvc/handshake.c:59-82) -/
def supersede (i m : Nat) : M Unit := do
  supersedeFirst i
  supersedeSecond i m

/-- What a new session is made of. `hk` is our own handshake key. -/
structure Agreement where
  hk : Protocol.HKey Nat
  A : Key
  B : Key
  X : Key
  Y : Key
  sigma : Bytes
  salt : Bytes

/-- `new_session` (src/protocols/ec25519_fhmqvc/handshake.c:85-108) -/
def newSession (i m : Nat) (initiator compat : Bool) (g : Agreement) : M Bool := do
  supersede i m
  let n ← draw
  let c ← get
  match Env.sessInit m (Env.deriveKey m g.A g.B g.X g.Y g.sigma g.salt) initiator compat n c.now with
  | none =>
    modP i fun p => { p with sess := { p.sess with mstate := none } }
    pure false
  | some o =>
    modify fun c => { c with
      objs := fun k => if k = c.nextObj then some o else c.objs k
      nextObj := c.nextObj + 1 }
    modP i fun p => { p with sess := ⟨false, false, some m, some c.nextObj⟩, lastSerial := g.hk.serial }
    let p ← getP i
    emit (.session i p.key g.hk.serial g.hk.key m initiator)
    pure true

/-- The interface part of `fastd_peer_set_established` (src/peer.c:861-867). Opening an interface may fail, or end the
process, when `/dev/net/tun` cannot be opened (src/iface.c:98-100). -/
def openIface (i : Nat) : M Bool := do
  let p ← getP i
  if p.iface = none then
    let n ← draw
    if n % 2 = 1 then
      modP i fun p => { p with iface := some .own }
      pure true
    else if n % 4 = 2 then fail .exit
    else pure false
  else pure true

/-- `fastd_peer_set_established` (src/peer.c:830-883) without offloading -/
def setEstablished (i : Nat) : M Bool := do
  let ok ← openIface i
  if !ok then pure false
  else
    let p ← getP i
    if p.isEstablished then pure true
    else
      let c ← get
      modP i fun p => { p with state := .established, established := c.now }
      seen i
      clearKeepalive i
      schedulePeerTask i
      emit (.established i)
      pure true

/-- The end of `establish` (src/protocols/ec25519_fhmqvc/handshake.c:141-152) -/
def establishEnd (i : Nat) (initiator : Bool) : M Unit := do
  let c ← get
  modP i fun p => { p with estHsTimeout := c.now + MIN_HANDSHAKE_INTERVAL }
  if initiator then scheduleHandshakeDefault i
  else sendEmpty i

/-- `establish` (src/protocols/ec25519_fhmqvc/handshake.c:111-153) -/
def establish (i m : Nat) (sock : Sock) (loc rem : Addr) (initiator compat : Bool) (g : Agreement) : M Bool := do
  let p ← getP i
  if g.hk.serial ≤ p.lastSerial then pure false
  else
    let ok ← claimAddress i (some sock) (some loc) rem true
    if !ok then
      peerReset i
      pure false
    else
      let ok ← newSession i m initiator compat g
      if !ok then
        peerReset i
        pure false
      else
        let ok ← setEstablished i
        if !ok then
          peerReset i
          pure false
        else
          establishEnd i initiator
          pure true

/-- `get_session_flags` (src/protocols/ec25519_fhmqvc/handshake.c:156-166): compat mode without L2TP support. -/
def isCompat (flags : UInt8) : Bool := flags &&& Handshake.FLAG_L2TP_SUPPORT = (0 : UInt8)

/-! ### Replies -/

/-- `update_shared_handshake_key` (src/protocols/ec25519_fhmqvc/handshake.c:253-269) -/
def updateShared (i : Nat) (hk : Protocol.HKey Nat) (peerHsKey : Key) : M Bool := do
  let p ← getP i
  if p.cache.serial = hk.serial && p.cache.peerKey = peerHsKey then pure true
  else
    match Env.shared false hk.key p.key peerHsKey with
    | none => pure false
    | some (sigma, sh) =>
      modP i fun p => { p with cache := ⟨hk.serial, peerHsKey, sigma, sh⟩ }
      pure true

/-- `clear_shared_handshake_key` (src/protocols/ec25519_fhmqvc/handshake.c:272-278) -/
def clearShared (i : Nat) : M Unit := modP i fun p => { p with cache := {} }

/-- The TLV data of a packet: `fastd_handshake_tlv_data`, `fastd_handshake_tlv_len`. -/
def tlvData (pkt : Bytes) : Bytes := (pkt.drop 4).take ((Handshake.tlvLen pkt).getD 0)

/-- Filling in the MAC of a packet whose last record is the zeroed MAC. -/
def fillMac (pkt : Bytes) (key : Bytes) : Bytes := pkt.take (pkt.length - 32) ++ Env.hmac key (tlvData pkt)

/-- The records added to a reply, in order; the MAC is zero. -/
def replyRecords (peerKey hsKey peerHsKey : Key) : List (Nat × Bytes) :=
  [(Handshake.RECORD_SENDER_KEY, Env.ownKey), (Handshake.RECORD_RECIPIENT_KEY, peerKey),
   (Handshake.RECORD_SENDER_HANDSHAKE_KEY, hsKey), (Handshake.RECORD_RECIPIENT_HANDSHAKE_KEY, peerHsKey),
   (Handshake.RECORD_TLV_MAC, List.replicate 32 0)]

/-- The packet of `respond_handshake` and `finish_handshake` before the MAC is filled in. -/
def replyPacket (type : UInt8) (mtu : Nat) (method : Option Bytes) (methods : Option (List Bytes))
    (peerKey hsKey peerHsKey : Key) : Option Bytes :=
  (Handshake.newReply hsConf Env.maxBuffer type mtu method methods (5 * Handshake.recordLen 32)).bind
    fun (pkt, avail) => Handshake.addAll avail pkt (replyRecords peerKey hsKey peerHsKey)

/-- `respond_handshake` (src/protocols/ec25519_fhmqvc/handshake.c:281-309) -/
def respondHandshake (sock : Sock) (loc rem : Addr) (i : Nat) (peerHsKey : Key) (flags : UInt8) : M Unit := do
  let c ← get
  let ok ← updateShared i c.keys.cur peerHsKey
  if !ok then pure ()
  else
    let p ← getP i
    let pkt ← bugIfNone (replyPacket 2 p.getMtu none (some (Env.groupMethods p.group)) p.key
      (Env.pub c.keys.cur.key) peerHsKey)
    sendHandshakePkt sock loc rem (some i) (fillMac pkt p.cache.shared) (some flags)

/-- A handshake being handled: the packet and the result of parsing it. -/
structure Rcv where
  pkt : Bytes
  hs : Handshake.Hs

/-- The value of a record, `none` if it is missing. -/
def record (r : Rcv) (t : Nat) : M (Option Bytes) :=
  if (r.hs.parsed.recs t).data = none then pure none
  else do
    let b ← memIfNone (Handshake.recBytes r.pkt (r.hs.parsed.recs t))
    pure (some b)

/-- `has_field` and reading the value (src/protocols/ec25519_fhmqvc/handshake.c:171-173) -/
def field (r : Rcv) (t len : Nat) : M (Option Bytes) :=
  if (r.hs.parsed.recs t).length ≠ len then pure none
  else do
    let b ← memIfNone (Handshake.recBytes r.pkt (r.hs.parsed.recs t))
    pure (some b)

/-- The TLV data with the MAC zeroed (src/protocols/ec25519_fhmqvc/handshake.c:332-334). -/
def zeroedTlv (r : Rcv) : Bytes :=
  let off := (r.hs.parsed.recs Handshake.RECORD_TLV_MAC).data.getD 0
  ((r.pkt.take off ++ List.replicate 32 0 ++ r.pkt.drop (off + 32)).drop 4).take r.hs.parsed.tlvLen

/-- Sending the last handshake packet (src/protocols/ec25519_fhmqvc/handshake.c:349-362) -/
def sendFinish (sock : Sock) (loc rem : Addr) (i m : Nat) (hk : Protocol.HKey Nat) (peerHsKey : Key) (sh : Bytes)
    (flags : UInt8) : M Unit := do
  let p ← getP i
  let pkt ← bugIfNone (replyPacket 3 p.getMtu (some (Env.methodName m)) none p.key (Env.pub hk.key) peerHsKey)
  sendHandshakePkt sock loc rem (some i) (fillMac pkt sh) (some flags)

/-- `finish_handshake` (src/protocols/ec25519_fhmqvc/handshake.c:312-363); `mac` is the received MAC. -/
def finishHandshake (sock : Sock) (loc rem : Addr) (i : Nat) (hk : Protocol.HKey Nat) (peerHsKey mac : Key)
    (r : Rcv) : M Unit := do
  let p ← getP i
  let l ← record r Handshake.RECORD_METHOD_LIST
  match Handshake.methodByNameList (Env.groupMethods p.group) Env.methodByName l with
  | .bug => fail .bug
  | .none =>
    sendError sock loc rem (some i) r.hs.type r.hs.flags Handshake.REPLY_UNACCEPTABLE_VALUE
      Handshake.RECORD_METHOD_LIST
  | .some m =>
    match Env.shared true hk.key p.key peerHsKey with
    | none => pure ()
    | some (sigma, sh) =>
      if Env.hmac sh (zeroedTlv r) ≠ mac then pure ()
      else
        let ok ← establish i m sock loc rem true (isCompat r.hs.flags)
          ⟨hk, Env.pub hk.key, peerHsKey, Env.ownKey, p.key, sigma, sh⟩
        if !ok then pure ()
        else sendFinish sock loc rem i m hk peerHsKey sh r.hs.flags

/-- `handle_finish_handshake` (src/protocols/ec25519_fhmqvc/handshake.c:366-400) -/
def handleFinish (sock : Sock) (loc rem : Addr) (i : Nat) (hk : Protocol.HKey Nat) (peerHsKey mac : Key)
    (r : Rcv) : M Unit := do
  let p ← getP i
  let n ← record r Handshake.RECORD_METHOD_NAME
  match Handshake.methodByName (Env.groupMethods p.group) Env.methodByName n with
  | none =>
    sendError sock loc rem (some i) r.hs.type r.hs.flags Handshake.REPLY_UNACCEPTABLE_VALUE
      Handshake.RECORD_METHOD_NAME
  | some m =>
    let ok ← updateShared i hk peerHsKey
    if !ok then pure ()
    else
      let p ← getP i
      if Env.hmac p.cache.shared (zeroedTlv r) ≠ mac then pure ()
      else
        let _ ← establish i m sock loc rem false (isCompat r.hs.flags)
          ⟨hk, peerHsKey, Env.pub hk.key, p.key, Env.ownKey, p.cache.sigma, p.cache.shared⟩
        clearShared i

/-! ### Finding the peer -/

/-- The result of `find_key` and `match_sender_key`: a peer, `EPERM` or `ENOENT`. -/
inductive Found
  | peer (i : Nat)
  | perm
  | noent
deriving DecidableEq

/-- `find_key` with an address (src/protocols/ec25519_fhmqvc/handshake.c:403-438); `ret` is the peer found so far. -/
def findKeyAddr (key : Key) (a : Addr) : List Peer → Option Nat → Found
  | [], none => .noent
  | [], some i => .peer i
  | p :: ps, ret =>
    if !p.isEnabled then findKeyAddr key a ps ret
    else if p.key = key then
      if !matchesAddress p a then .perm
      else findKeyAddr key a ps (some p.id)
    else if ownsAddress p a then .perm
    else findKeyAddr key a ps ret

/-- `match_sender_key` (src/protocols/ec25519_fhmqvc/handshake.c:446-465) -/
def matchSenderKey (sock : Sock) (a : Addr) (peer : Option Nat) (key : Key) : M Found := do
  let sp ← sockPeer sock
  if sp ≠ none ∧ peer ≠ sp then fail .bug
  else
    let c ← get
    match peer with
    | none => pure (findKeyAddr key a c.peers none)
    | some i =>
      let p ← getP i
      if p.key = key then pure (.peer i)
      else if ownsAddress p a then pure .perm
      else pure (findKeyAddr key a c.peers none)

/-! ### Dynamic peers -/

/-- `add_dynamic` (src/protocols/ec25519_fhmqvc/handshake.c:513-570) -/
def addDynamic (sock : Sock) (key : Key) : M (Option Nat) := do
  if Env.onVerify = none then pure none
  else
    let sp ← sockPeer sock
    let c ← get
    if sp ≠ none then pure none
    else if Env.ownKey = key then pure none
    else if (findKey c.peers key).isSome then pure none
    else if !Env.pointOk key then pure none
    else
      let q : Peer := { group := Env.verifyGroup, cfg := .dynamic, key := key }
      if !mayConnect c.peers q then pure none
      else
        match (← peerAdd q) with
        | .added i =>
          modP i fun p => { p with lastSerial := p.lastSerial - 1 }
          peerReset i
          pure (some i)
        | _ => fail .bug

/-- Result of `fastd_verify_peer`; `undef` is the asynchronous case. -/
inductive Tri
  | yes | no | undef
deriving DecidableEq

/-- `fastd_verify_peer` (src/verify.c:80-131). Whether the limit of verifications is reached or creating the thread
fails is taken from the tape (the limit is C43). -/
def verifyPeer (i : Nat) (v : Verif) : M Tri := do
  match Env.onVerify with
  | none => fail .bug
  | some sync =>
    setVerifying i
    let ok ← drawBool
    if sync then
      setVerified i ok
      pure (if ok then .yes else .no)
    else if !ok then pure .no
    else
      modify fun c => { c with verifs := c.verifs ++ [v] }
      pure .undef

/-- `handle_dynamic` (src/protocols/ec25519_fhmqvc/handshake.c:573-598) -/
def handleDynamic (sock : Sock) (loc rem : Addr) (i : Nat) (hs : Handshake.Hs) (peerHsKey : Key) : M Bool := do
  let p ← getP i
  let c ← get
  if hs.type > 2 || !timedOut p.verifyTimeout c.now then pure (!timedOut p.verifyValid c.now)
  else
    match (← verifyPeer i ⟨i, sock, loc, rem, peerHsKey, hs.flags⟩) with
    | .undef => pure false
    | .no =>
      peerDelete i
      pure false
    | .yes => pure true

/-- `fastd_protocol_ec25519_fhmqvc_handle_verify_return` (src/protocols/ec25519_fhmqvc/handshake.c:601-613) -/
def handleVerifyReturn (v : Verif) (ok : Bool) : M Unit := do
  if !ok then pure ()
  else
    let c ← get
    modP v.peer fun p => { p with lastRespTimeout := c.now + MIN_HANDSHAKE_INTERVAL, lastRespAddr := v.rem }
    respondHandshake v.sock v.loc v.rem v.peer v.hsKey v.flags

/-! ### Handling a handshake -/

/-- `fastd_handshake_check_mtu` (src/handshake.c:429-441) -/
def checkMtu (sock : Sock) (loc rem : Addr) (i : Nat) (r : Rcv) : M Bool := do
  let p ← getP i
  if (r.hs.parsed.recs Handshake.RECORD_MTU).length ≠ 2 then pure true
  else
    let v ← memIfNone (Handshake.asUint16 r.pkt (r.hs.parsed.recs Handshake.RECORD_MTU))
    if v ≠ p.getMtu then
      sendError sock loc rem (some i) r.hs.type r.hs.flags Handshake.REPLY_UNACCEPTABLE_VALUE Handshake.RECORD_MTU
      pure false
    else pure true

/-- An initial handshake (src/protocols/ec25519_fhmqvc/handshake.c:694-709) -/
def hsInitial (sock : Sock) (loc rem : Addr) (i : Nat) (peerHsKey : Key) (flags : UInt8) : M Unit := do
  let p ← getP i
  let c ← get
  if !timedOut p.lastRespTimeout c.now && addrEq rem p.lastRespAddr then pure ()
  else
    modP i fun p => { p with lastRespTimeout := c.now + MIN_HANDSHAKE_INTERVAL, lastRespAddr := rem }
    respondHandshake sock loc rem i peerHsKey flags

/-- A reply (src/protocols/ec25519_fhmqvc/handshake.c:711-772) -/
def hsReply (sock : Sock) (loc rem : Addr) (i : Nat) (peerHsKey : Key) (r : Rcv) : M Unit := do
  let rk ← field r Handshake.RECORD_RECIPIENT_KEY 32
  let rhk ← field r Handshake.RECORD_RECIPIENT_HANDSHAKE_KEY 32
  let mac ← field r Handshake.RECORD_TLV_MAC 32
  match rk, rhk, mac with
  | some _, some k, some mac =>
    let c ← get
    match c.keys.find c.now (fun n => Env.pub n = k) with
    | none => pure ()
    | some hk =>
      if r.hs.type = 2 then finishHandshake sock loc rem i hk peerHsKey mac r
      else if r.hs.type = 3 then handleFinish sock loc rem i hk peerHsKey mac r
      else pure ()
  | _, _, _ => pure ()

/-- The checks of a handshake from a known peer before dynamic peers are verified
(src/protocols/ec25519_fhmqvc/handshake.c:657-684). The result is the peer's handshake key. -/
def hsCheck (sock : Sock) (loc rem : Addr) (i : Nat) (r : Rcv) : M (Option Key) := do
  let ok ← checkMtu sock loc rem i r
  if !ok then pure none
  else
    match (← field r Handshake.RECORD_SENDER_HANDSHAKE_KEY 32) with
    | none => pure none
    | some k =>
      let p ← getP i
      let c ← get
      if !mayConnect c.peers p then pure none
      else if !timedOut p.estHsTimeout c.now then pure none
      else
        match (← field r Handshake.RECORD_RECIPIENT_KEY 32) with
        | none => pure (some k)
        | some rk => pure (if rk = Env.ownKey then some k else none)

/-- Verification of dynamic peers (src/protocols/ec25519_fhmqvc/handshake.c:686-691) -/
def hsVerified (sock : Sock) (loc rem : Addr) (i : Nat) (k : Key) (r : Rcv) : M Bool := do
  let p ← getP i
  if p.isDynamic then handleDynamic sock loc rem i r.hs k
  else pure true

/-- A handshake from a known peer (src/protocols/ec25519_fhmqvc/handshake.c:657-773) -/
def hsKnown (sock : Sock) (loc rem : Addr) (i : Nat) (r : Rcv) : M Unit := do
  match (← hsCheck sock loc rem i r) with
  | none => pure ()
  | some k =>
    let ok ← hsVerified sock loc rem i k r
    if !ok then pure ()
    else if r.hs.type = 1 then hsInitial sock loc rem i k r.hs.flags
    else hsReply sock loc rem i k r

/-- `fastd_protocol_ec25519_fhmqvc_handshake_handle` (src/protocols/ec25519_fhmqvc/handshake.c:627-773) -/
def handshakeHandle (sock : Sock) (loc rem : Addr) (peer : Option Nat) (r : Rcv) : M Unit := do
  protoMaintenance
  match (← field r Handshake.RECORD_SENDER_KEY 32) with
  | none => pure ()
  | some key =>
    match (← matchSenderKey sock rem peer key) with
    | .perm => pure ()
    | .peer i => hsKnown sock loc rem i r
    | .noent =>
      match (← addDynamic sock key) with
      | none => pure ()
      | some i => hsKnown sock loc rem i r

end Fastd.Daemon
