import Verif.Daemon.Send

/-!
# The periodic task of a peer (src/peer.c:798-827, 939-1041)

Model only.
-/

namespace Fastd.Daemon

variable [Env]

/-- The first part of `send_handshake` (src/peer.c:799-808): choosing an address for a peer that is not
established. `false` if there is none. `r` is the index of the remote, `none` for NULL. -/
def chooseAddress (i : Nat) (r : Option Nat) : M Bool := do
  let p ← getP i
  if p.isEstablished then pure true
  else
    let k ← deref r
    let r ← getR i k
    if r.addrs.length = 0 then pure false
    else
      let a ← memIfNone (r.addrs[r.cur]?)
      let _ ← claimAddress i none none a false
      resetSocket i
      pure true

/-- The rate limit of `send_handshake` (src/peer.c:818-822). -/
def recentHandshake (now : Time) (p : Peer) : Bool := !timedOut p.lastHsTimeout now && addrEq p.addr p.lastHsAddr

/-- `send_handshake` (src/peer.c:798-827) -/
def sendHandshake (i : Nat) (r : Option Nat) : M Unit := do
  let ok ← chooseAddress i r
  if !ok then pure ()
  else
    let p ← getP i
    let c ← get
    match p.sock with
    | none => pure ()
    | some s =>
      if !p.addr.isSet then pure ()
      else if recentHandshake c.now p then pure ()
      else
        modP i fun p => { p with lastHsTimeout := c.now + MIN_HANDSHAKE_INTERVAL, lastHsAddr := p.addr }
        handshakeInit s p.localAddr p.addr (some i)

/-- The end of `handle_task_handshake` (src/peer.c:968-975). -/
def nextRemote (i : Nat) : M Unit := do
  modP i fun p => { p with nextRemote := match p.nextRemote with
    | none => some 0
    | some k => if k ≥ p.remotes.length then some 0 else some k }
  let p ← getP i
  let k ← deref p.nextRemote
  modR i k fun r => { r with cur := 0 }
  let r ← getR i k
  if r.hostname ≠ none then resolvePeer i k
  else pure ()

/-- The block in `handle_task_handshake` after sending (src/peer.c:957-965): the next address of this remote or the
next remote. `next_remote` is not NULL here if the peer is not established. -/
def advanceRemote (i : Nat) (r : Option Nat) : M Unit := do
  let p ← getP i
  if p.isEstablished then pure ()
  else
    let k ← deref r
    modP i fun p => { p with state := .handshake }
    modR i k fun r => { r with cur := r.cur + 1 }
    let r ← getR i k
    if r.cur < r.addrs.length then pure ()
    else
      modP i fun p => { p with nextRemote := p.nextRemote.map (· + 1) }
      nextRemote i

/-- `handle_task_handshake` (src/peer.c:939-976) -/
def handleTaskHandshake (i : Nat) : M Unit := do
  setNextHandshakeDefault i
  let p ← getP i
  let c ← get
  if !mayConnect c.peers p then modP i fun p => { p with nextRemote := none }
  else if p.nextRemote ≠ none || p.isEstablished then
    sendHandshake i p.nextRemote
    advanceRemote i p.nextRemote
  else nextRemote i

/-- Sending a keepalive (src/peer.c:996-1001) -/
def handleTaskKeepalive (i : Nat) : M Unit := do
  let p ← getP i
  let c ← get
  if timedOut p.keepalive c.now then
    protocolSend i []
    clearKeepalive i
  else pure ()

/-- The handshake part of `fastd_peer_handle_task` (src/peer.c:1003-1004) -/
def handleTaskDueHandshake (i : Nat) : M Unit := do
  let p ← getP i
  let c ← get
  if timedOut p.nextHs c.now then handleTaskHandshake i
  else pure ()

/-- `fastd_peer_handle_task` (src/peer.c:983-1007) after the task has been taken out of the queue by `handle_task`
(src/task.c:24-28). -/
def peerTask (i : Nat) : M Unit := do
  modP i fun p => { p with task := none }
  let p ← getP i
  let c ← get
  if timedOut p.resetTimeout c.now then
    if p.isDynamic then peerDelete i
    else peerReset i
  else
    handleTaskKeepalive i
    handleTaskDueHandshake i
    schedulePeerTask i

/-- `fastd_peer_reset_all` (src/peer.c:1028-1041) -/
def resetAll : Nat → Nat → M Unit
  | 0, _ => fail .fuel
  | fuel + 1, k => do
    match (← get).peers[k]? with
    | none => pure ()
    | some p =>
      if p.isDynamic then
        peerDelete p.id
        resetAll fuel k
      else
        peerReset p.id
        resetAll fuel (k + 1)

end Fastd.Daemon
