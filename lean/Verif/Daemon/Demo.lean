import Verif.Daemon.StepSpec

/-!
# A concrete environment and executions

Used for examples beside the theorems. The cryptographic functions are toys.
-/

namespace Fastd.Daemon.Demo

open Fastd.Daemon

def keyOf (b : UInt8) : Key := List.replicate 32 b
def addrOf (b : UInt8) : Addr := .v4 #v[10, 0, 0, b] 1000
def sum (l : Bytes) : UInt8 := l.foldl (· + ·) 0

/-- What differs between examples. -/
structure Cfg where
  own : UInt8 := 1
  mode : Mode := .tap
  forward : Bool := false
  onVerify : Option Bool := none
  maxConn : Nat → Option Nat := fun _ => none
  tape : Nat → Nat := id
  pktinfoErr : Nat → Bool := fun _ => false

/-- The node with key `own`: two methods, sessions are valid forever, "encryption" prepends a byte that depends on the key. -/
@[reducible] def env (f : Cfg) : Env where
  Sess := Bytes
  tape := f.tape
  pktinfoErr := f.pktinfoErr
  mode := f.mode
  forward := f.forward
  mtu := 1400
  protocolName := [101, 99]
  version := [118]
  maxBuffer := 2000
  sharedIface := true
  ifacePersist := true
  onVerify := f.onVerify
  verifyGroup := 0
  sockV4 := some 0
  sockV6 := none
  chain := fun g => if g = 0 then [0] else [g, 0]
  maxConn := f.maxConn
  groupMethods := fun _ => [[109], [110]]
  methodByName := fun n => if n = [109] then some 0 else if n = [110] then some 1 else none
  methodName := fun n => if n = 0 then [109] else [110]
  forceKeepalive := fun _ => false
  ownKey := keyOf f.own
  pub := fun n => keyOf (UInt8.ofNat (100 + n))
  pointOk := fun _ => true
  shared := fun _ n k k' => some ([7], [UInt8.ofNat n, sum k, sum k'])
  hmac := fun k d => keyOf (sum k + sum d)
  deriveKey := fun m A B _ _ _ _ => [UInt8.ofNat m + 3 * sum (A.take 1) + 5 * sum (B.take 1)]
  sessInit := fun _ k _ _ _ _ => some k
  sessValid := fun _ _ _ => true
  sessInitiator := fun _ _ => true
  sessWantRefresh := fun _ _ _ => false
  sessSuperseded := fun _ s _ => s
  encrypt := fun _ s d => some (2 :: s.headD 0 :: d, s)
  decrypt := fun _ s d _ =>
    match d with
    | _ :: b :: d => if b = s.headD 0 then some (d, false, s) else none
    | _ => none

/-! ### Checking whether an event is possible -/

def possibleB [Env] (c : Ctx) : Event → Bool
  | .tick _ => true
  | .task i => c.peers.any fun p => decide (p.id = i) && p.task.any fun t => decide (t ≤ c.now)
  | .maintenance => decide (c.maintenance ≤ c.now)
  | .recv sock _ rem pkt => !pkt.isEmpty && rem.isSet &&
      match sock with
      | .bound _ => true
      | .dyn n => c.socks.any fun s => decide (s.1 = n)
  | .iface none _ => Env.sharedIface
  | .iface (some i) _ => c.peers.any fun p => decide (p.id = i) && decide (p.iface = some .own)
  | .resolved k addrs => decide (k < c.resolves.length) && addrs.all (·.isSet)
  | .verified k _ => decide (k < c.verifs.length)
  | .reload defs => defs.all fun d =>
      (d.remotes.all fun r => r.hostname.isSome || r.address.isSet) && d.key.all fun k => decide (k.length = 32)
  | .resetAll => true

theorem possible_of [Env] {c : Ctx} {e : Event} (h : possibleB c e = true) : e.possible c := by
  cases e with
  | tick | resetAll => trivial
  | task i =>
    simp only [possibleB, List.any_eq_true, Bool.and_eq_true, decide_eq_true_eq, Option.any_eq_true] at h
    obtain ⟨p, hp, hi, t, ht, hn⟩ := h
    exact ⟨p, hp, hi, t, ht, hn⟩
  | maintenance => simpa [possibleB, Event.possible] using h
  | recv sock loc rem pkt =>
    simp only [possibleB, Bool.and_eq_true, Bool.not_eq_true', List.isEmpty_eq_false_iff] at h
    refine ⟨h.1.1, h.1.2, ?_⟩
    cases sock with
    | bound => trivial
    | dyn n =>
      have := h.2
      simp only [List.any_eq_true, decide_eq_true_eq] at this
      obtain ⟨⟨a, b⟩, hs, rfl⟩ := this
      exact ⟨b, hs⟩
  | iface peer data =>
    cases peer with
    | none => exact h
    | some i =>
      simp only [possibleB, List.any_eq_true, Bool.and_eq_true, decide_eq_true_eq] at h
      obtain ⟨p, hp, hi, h⟩ := h
      exact ⟨p, hp, hi, h⟩
  | resolved k addrs =>
    simp only [possibleB, Bool.and_eq_true, decide_eq_true_eq, List.all_eq_true] at h
    exact h
  | verified k ok => simpa [possibleB, Event.possible] using h
  | reload defs =>
    simp only [possibleB, List.all_eq_true, Bool.and_eq_true] at h
    intro d hd
    obtain ⟨h1, h2⟩ := h d hd
    refine ⟨fun r hr hn => ?_, fun k hk => ?_⟩
    · have := h1 r hr
      rw [hn] at this
      simpa using this
    · rw [hk] at h2
      simpa using h2

/-! ### Running -/

def steps [Env] : List Event → Ctx → Option Ctx
  | [], c => some c
  | e :: es, c =>
    if possibleB c e then
      match handle e c with
      | .ok ((), c') => steps es c'
      | .error _ => none
    else none

def okDefs (ds : List PeerDef) : Bool := ds.all fun d =>
  (d.remotes.all fun r => r.hostname.isSome || r.address.isSet) && d.key.all fun k => decide (k.length = 32)

theorem okDefs_ok {ds : List PeerDef} (h : okDefs ds = true) : ∀ d ∈ ds, d.ok := by
  simp only [okDefs, List.all_eq_true, Bool.and_eq_true] at h
  intro d hd
  obtain ⟨h1, h2⟩ := h d hd
  refine ⟨fun r hr hn => ?_, fun k hk => ?_⟩
  · have := h1 r hr
    rw [hn] at this
    simpa using this
  · rw [hk] at h2
    simpa using h2

/-- The state after starting at time 0 and the given events. -/
def run [Env] (static dirs : List PeerDef) (es : List Event) : Option Ctx :=
  if okDefs static && okDefs dirs then
    match startup static dirs (initial 0 0 0 0) with
    | .ok ((), c) => steps es c
    | .error _ => none
  else none

theorem steps_reach [Env] {es : List Event} {c c' : Ctx} (h : steps es c = some c') : Steps anyEvent c c' := by
  have key : ∀ {c0 : Ctx}, Steps anyEvent c0 c → Steps anyEvent c0 c' := by
    induction es generalizing c with
    | nil =>
      intro c0 hs
      cases h
      exact hs
    | cons e es ih =>
      intro c0 hs
      unfold steps at h
      split at h
      · rename_i hp
        cases he : handle e c with
        | error f => rw [he] at h; cases h
        | ok r =>
          obtain ⟨⟨⟩, c1⟩ := r
          rw [he] at h
          exact ih h (.step hs (possible_of hp) trivial he)
      · cases h
  exact key .refl

theorem run_reach [Env] {static dirs : List PeerDef} {es : List Event} {c : Ctx} (h : run static dirs es = some c) :
    Reach anyEvent c := by
  unfold run at h
  split at h
  · rename_i ho
    rw [Bool.and_eq_true] at ho
    cases hs : startup static dirs (initial 0 0 0 0) with
    | error f => rw [hs] at h; cases h
    | ok r =>
      obtain ⟨⟨⟩, c1⟩ := r
      rw [hs] at h
      have h0 : Reach anyEvent c1 := .start (okDefs_ok ho.1) (okDefs_ok ho.2) hs
      have hst := steps_reach h
      clear h hs
      induction hst with
      | refl => exact h0
      | step _ hp hP he ih => exact .step ih hp hP he
  · cases h

/-- A property of the state after a run. -/
def after [Env] (static dirs : List PeerDef) (es : List Event) (P : Ctx → Bool) : Bool :=
  match run static dirs es with
  | some c => P c
  | none => false

theorem after_reach [Env] {static dirs : List PeerDef} {es : List Event} {P : Ctx → Bool}
    (h : after static dirs es P = true) : ∃ c, Reach anyEvent c ∧ P c = true := by
  unfold after at h
  split at h
  · exact ⟨_, run_reach (by assumption), h⟩
  · cases h

/-- A property of the states before and after the last event of a run. -/
def afterStep [Env] (static dirs : List PeerDef) (es : List Event) (e : Event) (P : Ctx → Ctx → Bool) : Bool :=
  match run static dirs es with
  | some c => possibleB c e && match handle e c with
    | .ok ((), c') => P c c'
    | .error _ => false
  | none => false

theorem afterStep_reach [Env] {static dirs : List PeerDef} {es : List Event} {e : Event} {P : Ctx → Ctx → Bool}
    (h : afterStep static dirs es e P = true) :
    ∃ c c', Reach anyEvent c ∧ e.possible c ∧ handle e c = .ok ((), c') ∧ P c c' = true := by
  unfold afterStep at h
  split at h
  · rename_i c hr
    rw [Bool.and_eq_true] at h
    obtain ⟨hp, h⟩ := h
    cases he : handle e c with
    | error f => rw [he] at h; cases h
    | ok r =>
      obtain ⟨⟨⟩, c'⟩ := r
      rw [he] at h
      exact ⟨c, c', run_reach hr, possible_of hp, he, h⟩
  · cases h

/-! ### Peers and packets -/

/-- A peer with key `b` and the given remotes. -/
def peer (b : UInt8) (remotes : List Addr) (floating : Bool := false) (group : Nat := 0) : PeerDef where
  name := none
  group := group
  remotes := remotes.map fun a => { hostname := none, address := a }
  floating := floating
  key := some (keyOf b)
  ifname := none
  mtu := 0

/-- A reply (type 2) or final handshake (type 3) from the peer with key `b` to the node with key 1, whose handshake key
pair is `n`; the peer's handshake key is `keyOf h`. -/
def hsPkt (type : UInt8) (b : UInt8) (n : Nat) (h : UInt8) : Bytes :=
  letI := env { own := b }
  match replyPacket type 1400 (if type = 3 then some [109] else none) (if type = 2 then some [[109], [110]] else none) (keyOf 1)
      (keyOf h) (Env.pub n) with
  | none => []
  | some p => ([200, 3, 0, 12, 0, 0, 0, 0, 0, 0, 0, 0] : Bytes) ++ fillMac p [UInt8.ofNat n, sum (keyOf b), sum (keyOf h)]

/-- Two peers: one with a remote, one without. -/
def duo : List PeerDef := [peer 2 [addrOf 2], peer 3 []]

/-- Both of them are established: we are the initiator of the first session, and reply to an unknown sender of a handshake in the
second one. -/
def duoUp : List Event :=
  [.tick 5000, .task 0, .recv (.bound 0) (addrOf 1) (addrOf 2) (hsPkt 2 2 1 50),
   .recv (.bound 0) (addrOf 1) (addrOf 3) (hsPkt 3 3 1 60)]

/-- A data packet from the peer with key 2 or 3 once `duoUp` has happened. -/
def dataPkt (b : UInt8) (d : Bytes) : Bytes := (2 : UInt8) :: (if b = 2 then 41 else 173) :: d

/-- An ethernet frame. -/
def frame (dst src : UInt8) : Bytes := [2, 0, 0, 0, 0, dst, 2, 0, 0, 0, 0, src, 8, 0]

end Fastd.Daemon.Demo
