/-!
# The interface of a peer: TUN/TAP or offloaded (src/peer.c:60-111, 292-337, 371-425, 471-487, 652-665, 830-885)

Model only, of one peer. What is done is recorded in a trace: interfaces and offloaded sessions that come and go, and commands that are run, with the interface
they are told in their environment. How interfaces are opened is the subject of `Net/Tun`, how sessions are offloaded of `Offload/L2tp`; here, the results are
arguments. Commands are recorded as if all of them were configured. Android, where interfaces have no name, is not modelled.
-/

namespace Fastd.Net.PeerIface

/-- An interface: its name, and a number that tells apart interfaces with the same name -/
structure Dev where
  name : List UInt8
  id : Nat
deriving DecidableEq, Repr

inductive Ev
  /-- `fastd_iface_open` or `init_session` has succeeded -/
  | create (d : Dev)
  /-- `fastd_iface_close` or `free_session` -/
  | destroy (d : Dev)
  | up (iface : Option (List UInt8))
  | down (iface : Option (List UInt8))
  | establish (iface : Option (List UInt8))
  | disestablish (iface : Option (List UInt8))
deriving DecidableEq, Repr

/-- `fastd_peer_config_state_t` (src/peer.h) -/
inductive ConfigState
  | new | static | disabled | dynamic
deriving DecidableEq, Repr

/-- Parts of `conf` and `ctx`. -/
structure Conf where
  /-- `ctx.iface`: the interface that is used by all peers -/
  shared : Option Dev
  /-- `conf.iface_persist` -/
  persist : Bool
  /-- `conf.offload_l2tp` -/
  offload : Bool

/-- What the configuration check (src/config.c:554-560) and `init` (src/fastd.c:504) ensure: offloading is for multi-TAP mode without persistent interfaces,
a shared interface is for TAP mode. -/
def Conf.Ok (c : Conf) : Prop := c.offload = true → c.shared = none ∧ c.persist = false

/-- Fields of `fastd_peer_t` -/
structure Peer where
  /-- `iface`, and whether `iface->peer` is set -/
  iface : Option (Dev × Bool)
  /-- `offload` and `offload_state`: the provider and the interface of the session -/
  offload : Option (Nat × Dev)
  /-- `state == STATE_INACTIVE` -/
  inactive : Bool
  /-- `state == STATE_ESTABLISHED` -/
  established : Bool
  config : ConfigState
  trace : List Ev
deriving DecidableEq, Repr

/-- A new peer -/
def Peer.fresh (config : ConfigState) : Peer :=
  { iface := none, offload := none, inactive := true, established := false, config, trace := [] }

def Peer.log (p : Peer) (l : List Ev) : Peer := { p with trace := p.trace ++ l }

/-- The interface in the environment of commands (src/peer.c:67-78) -/
def Peer.env (p : Peer) : Option (List UInt8) :=
  match p.offload with
  | some (_, d) => some d.name
  | none =>
    match p.iface with
    | some (d, _) => some d.name
    | none => none

/-- `on_down(peer, …)` and `offload->free_session` (src/peer.c:324-326, 840-842) -/
def freeOffload (p : Peer) : Peer :=
  match p.offload with
  | none => p
  | some (_, d) => { p.log [.down p.env, .destroy d] with offload := none }

/-- `if (peer->iface && peer->iface->peer) { on_down(peer, …); fastd_iface_close(peer->iface); }` (src/peer.c:330-333, 480-483, 847-850), with the assignment
of NULL that follows, or the end of the peer -/
def closeIface (p : Peer) : Peer :=
  match p.iface with
  | some (d, true) => { p.log [.down p.env, .destroy d] with iface := none }
  | _ => { p with iface := none }

/-- `reset_peer` (src/peer.c:292-337) -/
def resetPeer (c : Conf) (p : Peer) : Peer :=
  let p := if p.established then p.log [.disestablish p.env] else p
  let p := { p with inactive := true, established := false }
  let p := freeOffload p
  if c.persist = false ∨ p.config = .disabled ∨ p.config = .dynamic then closeIface p else p

/-- `setup_peer` (src/peer.c:371-443). `opened` is the result of `fastd_iface_open`; `fromDir`: `config_source_dir` is set. `none`: exit -/
def setupPeer (c : Conf) (opened : Option Dev) (fromDir : Bool) (p : Peer) : Option Peer :=
  if p.config = .new ∨ p.config = .disabled then some p
  else
    let go : Option Peer :=
      match c.shared with
      | some d => some { p with iface := some (d, false) }
      | none =>
        if c.persist = true ∧ p.iface = none ∧ p.config ≠ .dynamic then
          match opened with
          | some d =>
            let p := { p.log [.create d] with iface := some (d, true) }
            some (p.log [.up p.env])
          | none => if fromDir then some p else none
        else some p
    go.map fun p => { p with inactive := false }

/-- `fastd_peer_reset` (src/peer.c:652-659) -/
def peerReset (c : Conf) (opened : Option Dev) (fromDir : Bool) (p : Peer) : Option Peer :=
  setupPeer c opened fromDir (if p.inactive then p else resetPeer c p)

/-- `fastd_peer_delete` (src/peer.c:662-665) with `delete_peer` (src/peer.c:471-487) -/
def peerDelete (c : Conf) (p : Peer) : Peer := closeIface (resetPeer c p)

/-- `fastd_peer_set_established`, part 1 (src/peer.c:831-844): an old offloaded session is kept or freed. `updated` is the result of `update_session`. -/
def dropOffload (offload : Option Nat) (updated : Bool) (p : Peer) : Peer :=
  match p.offload with
  | none => p
  | some (o, _) => if (if some o = offload then !updated else true) then freeOffload p else p

/-- Part 2 (src/peer.c:846-859): a session is offloaded. `session` is the result of `init_session`. -/
def startOffload (offload : Option Nat) (session : Option Dev) (p : Peer) : Bool × Peer :=
  match offload with
  | none => (true, p)
  | some o =>
    if p.offload = none then
      let p := closeIface p
      match session with
      | none => (false, p)
      | some d =>
        let p := { p.log [.create d] with offload := some (o, d) }
        (true, p.log [.up p.env])
    else (true, p)

/-- Part 3 (src/peer.c:861-867): an interface is opened. -/
def startIface (opened : Option Dev) (p : Peer) : Bool × Peer :=
  if p.iface = none ∧ p.offload = none then
    match opened with
    | none => (false, p)
    | some d =>
      let p := { p.log [.create d] with iface := some (d, true) }
      (true, p.log [.up p.env])
  else (true, p)

/-- Part 4 (src/peer.c:869-884) -/
def startSession (p : Peer) : Peer :=
  if p.established then p
  else
    let p := { p with established := true, inactive := false }
    p.log [.establish p.env]

/-- `fastd_peer_set_established` (src/peer.c:830-885). `offload` is the provider of the method. -/
def setEstablished (offload : Option Nat) (updated : Bool) (session opened : Option Dev) (p : Peer) : Bool × Peer :=
  let p := dropOffload offload updated p
  match startOffload offload session p with
  | (false, p) => (false, p)
  | (true, p) =>
    match startIface opened p with
    | (false, p) => (false, p)
    | (true, p) => (true, startSession p)

/-- What happens to a peer. Sessions are only established with peers that are not inactive: `fastd_protocol_ec25519_fhmqvc_find_peer` finds no other ones. If
`fastd_peer_set_established` fails, the peer is reset (src/protocols/ec25519_fhmqvc/handshake.c:136-140). -/
inductive Op
  /-- `config_state` is changed while the configuration is read -/
  | config (s : ConfigState)
  | reset (opened : Option Dev) (fromDir : Bool)
  | establish (offload : Option Nat) (updated : Bool) (session opened opened' : Option Dev) (fromDir : Bool)

/-- `none`: fastd exits -/
def apply (c : Conf) (p : Peer) : Op → Option Peer
  | .config s => some { p with config := s }
  | .reset opened fromDir => peerReset c opened fromDir p
  | .establish offload updated session opened opened' fromDir =>
    if p.inactive = true ∨ (c.offload = false ∧ offload ≠ none) then some p
    else
      let (ok, p) := setEstablished offload updated session opened p
      if ok then some p else peerReset c opened' fromDir p

/-- All of a list -/
def applyAll (c : Conf) (p : Peer) : List Op → Option Peer
  | [] => some p
  | o :: l => (apply c p o).bind fun p => applyAll c p l

end Fastd.Net.PeerIface
