import Verif.Daemon.StepSpec
import Verif.Daemon.KeysSpec
import Verif.Daemon.Demo

/-!
# C65: the daemon does not abort and makes no invalid memory access

In the model, using a deleted peer, a freed session or a closed socket, an index out of bounds, and a violated internal assertion
(`exit_bug`) are explicit outcomes of an event. None of them happens in executions that satisfy two conditions on the events and
some on the environment (`C65_partial`); the counterexamples show that the conditions on events are necessary.
-/

namespace Fastd.Daemon

set_option linter.unusedSectionVars false

section

variable [Env]

/-- The environment: the system never refuses the local address of a packet, handshakes fit into buffers, all methods exist. -/
structure Sane : Prop where
  noErr : ∀ n, Env.pktinfoErr n = false
  buf : 1232 ≤ Env.maxBuffer
  name : (0 : UInt8) ∉ Env.protocolName
  ownKey : Env.ownKey.length = 32
  pub : ∀ n, (Env.pub n).length = 32
  methods : ∀ g, Env.groupMethods g ≠ [] ∧ ∀ n ∈ Env.groupMethods g, ∃ m, Env.methodByName n = some m
  fit : Handshake.reserved hsConf 0 none none (3 * Handshake.recordLen 32) ≤ Handshake.MAX_HANDSHAKE_SIZE ∧
    ∀ g mtu, Handshake.reserved hsConf mtu none (some (Env.groupMethods g)) (5 * Handshake.recordLen 32) ≤
        Handshake.MAX_HANDSHAKE_SIZE ∧
      ∀ n ∈ Env.groupMethods g, ∀ m, Env.methodByName n = some m →
        Handshake.reserved hsConf mtu (some (Env.methodName m)) none (5 * Handshake.recordLen 32) ≤ Handshake.MAX_HANDSHAKE_SIZE

/-- A handshake packet, after the control header, with the given sender key. -/
def HandshakeOf (key : Key) (pkt : Bytes) : Prop :=
  ∃ q b hs off, payload pkt = some (q, b) ∧ Handshake.handle hsConf b q = some (.pass hs) ∧
    (hs.parsed.recs Handshake.RECORD_SENDER_KEY).data = some off ∧ (hs.parsed.recs Handshake.RECORD_SENDER_KEY).length = 32 ∧
    off + 32 ≤ q.length ∧ (q.drop off).take 32 = key

/-- The event is not a handshake from one peer that is received on the own socket of another one, and the time of a task is not
the special value for infinity. -/
def Harmless (e : Event) (c : Ctx) : Prop :=
  (∀ i, e = .task i → c.now < timeoutInv) ∧
  ∀ n loc rem pkt key, e = .recv (.dyn n) loc rem pkt → HandshakeOf key pkt → ∀ p ∈ c.peers, (n, p.id) ∈ c.socks → p.key = key

theorem Sane.ok (h : Sane) : EnvOk :=
  ⟨h.noErr, h.buf, h.name, h.ownKey, h.pub, fun g => (h.methods g).1, fun g => (h.methods g).2, h.fit.1, fun g mtu => (h.fit.2 g mtu).1,
    fun g n hn m hm mtu => (h.fit.2 g mtu).2 n hn m hm⟩

theorem Harmless.fine {e : Event} {c : Ctx} (h : Harmless e c) : e.fine c := by
  cases e with
  | task i => exact h.1 i rfl
  | recv sock loc rem pkt =>
    intro q b hq n j p hs key hsock hj hp hpi hh hk
    subst hsock
    subst hpi
    refine h.2 n loc rem pkt key rfl ?_ p hp hj
    obtain ⟨hlen, hv⟩ := hk
    unfold Handshake.recBytes at hv
    cases hd : (hs.parsed.recs Handshake.RECORD_SENDER_KEY).data with
    | none => simp [hd] at hv
    | some off =>
      simp only [hd, Option.bind_eq_bind, Option.bind_some] at hv
      simp only [] at hlen
      rw [hlen] at hv
      split at hv
      · rename_i hle
        exact ⟨q, b, hs, off, hq, hh, hd, hlen, hle, by simpa using hv⟩
      · cases hv
  | _ => trivial

/-- Only reading the main configuration at start-up ends with the error for a wrong configuration. -/
theorem handle_noConfig (e : Event) (c : Ctx) : handle e c ≠ .error .config := by
  intro he
  by_cases hd : ∃ d, e = .tick d
  · obtain ⟨d, rfl⟩ := hd
    cases he
  · have := ks_handle e (fun d h => hd ⟨d, h⟩) c
    rw [he] at this
    exact this.1 rfl

/-- **C65**, partially: in executions without handshakes for one peer on the socket of another one no event leads to an invalid memory
access or an internal abort, and all loops terminate. The only abnormal end is an exit because of a failed system call.
Missing: the excluded executions, in which the claim is wrong (`Demo.C65_socket_false`). -/
theorem C65_partial (hE : Sane) {c : Ctx} (h : Reach Harmless c) {e : Event} (hp : e.possible c) (hh : Harmless e c) {f : Fail}
    (he : handle e c = .error f) : f = .exit := by
  have hI : Inv True nobody nobody nobody c := h.inv fun _ => ⟨hE.ok, fun _ _ => Harmless.fine⟩
  have := wp_handle hI hp (fun _ => ⟨hE.ok, hh.fine⟩) (Q := fun _ _ => True) fun _ _ _ => trivial
  unfold wp at this
  rw [he] at this
  cases f with
  | exit => rfl
  | config => exact absurd he (handle_noConfig e c)
  | fuel => exact this.elim
  | bug => exact absurd trivial this
  | mem => exact absurd trivial this

/-- **C65**: starting the daemon does not abort either, in any environment: it ends at most because of a failed system call or because
the main configuration is wrong. -/
theorem C65_start {now : Time} {seed useed : UInt32} {k0 : Nat} {static dirs : List PeerDef} (hs : ∀ d ∈ static, d.ok)
    (hd : ∀ d ∈ dirs, d.ok) {f : Fail} (he : startup static dirs (initial now seed useed k0) = .error f) :
    f = .exit ∨ f = .config := by
  have := wp_startup (S := True) (now := now) (seed := seed) (useed := useed) (k0 := k0) hs hd (Q := fun _ _ => True)
    fun _ _ _ _ => trivial
  unfold wp at this
  rw [he] at this
  cases f with
  | exit => exact .inl rfl
  | config => exact .inr rfl
  | fuel => exact this.elim
  | bug => exact absurd trivial this
  | mem => exact absurd trivial this

/-- **C65**: all loops terminate, in all executions and environments. -/
theorem C65_loops {c : Ctx} (h : Reach anyEvent c) {e : Event} (hp : e.possible c) : handle e c ≠ .error .fuel := by
  have hI : Inv False nobody nobody nobody c := h.inv fun s => s.elim
  have := wp_handle hI hp (fun s => s.elim) (Q := fun _ _ => True) fun _ _ _ => trivial
  intro he
  unfold wp at this
  rw [he] at this
  exact this

end

/-! ### Examples -/

namespace Demo

/-- The outcome of the last event of a run. -/
def failsWith [Env] (static : List PeerDef) (es : List Event) (e : Event) (f : Fail) : Bool :=
  match run static [] es with
  | some c => possibleB c e && match handle e c with
    | .ok _ => false
    | .error f' => decide (f' = f)
  | none => false

theorem failsWith_reach [Env] {static : List PeerDef} {es : List Event} {e : Event} {f : Fail} (h : failsWith static es e f = true) :
    ∃ c, Reach anyEvent c ∧ e.possible c ∧ handle e c = .error f := by
  unfold failsWith at h
  split at h
  · rename_i c hr
    rw [Bool.and_eq_true] at h
    obtain ⟨hp, h⟩ := h
    refine ⟨c, run_reach hr, possible_of hp, ?_⟩
    split at h
    · cases h
    · rename_i f' he
      rw [he, of_decide_eq_true h]
  · cases h

def harmlessB [Env] (c : Ctx) : Event → Bool
  | .task _ => decide (c.now < timeoutInv)
  | .recv (.dyn _) .. => false
  | _ => true

theorem harmless_of [Env] {e : Event} {c : Ctx} (h : harmlessB c e = true) : Harmless e c := by
  refine ⟨fun i he => ?_, fun n loc rem pkt key he => ?_⟩
  · subst he; exact of_decide_eq_true h
  · subst he; cases h

def safeSteps [Env] : List Event → Ctx → Option Ctx
  | [], c => some c
  | e :: es, c =>
    if possibleB c e && harmlessB c e then
      match handle e c with
      | .ok ((), c') => safeSteps es c'
      | .error _ => none
    else none

theorem safeSteps_reach [Env] {es : List Event} {c c' : Ctx} (h : safeSteps es c = some c') (hr : Reach Harmless c) :
    Reach Harmless c' := by
  induction es generalizing c with
  | nil => cases h; exact hr
  | cons e es ih =>
    unfold safeSteps at h
    split at h
    · rename_i hp
      rw [Bool.and_eq_true] at hp
      cases he : handle e c with
      | error f => rw [he] at h; cases h
      | ok r =>
        obtain ⟨⟨⟩, c1⟩ := r
        rw [he] at h
        exact ih h (.step hr (possible_of hp.1) (harmless_of hp.2) he)
    · cases h

/-- A property of the state after a run of harmless events. -/
def safeRun [Env] (static : List PeerDef) (es : List Event) (P : Ctx → Bool) : Bool :=
  okDefs static && match startup static [] (initial 0 0 0 0) with
    | .ok ((), c) => match safeSteps es c with
      | some c' => P c'
      | none => false
    | .error _ => false

theorem safeRun_reach [Env] {static : List PeerDef} {es : List Event} {P : Ctx → Bool} (h : safeRun static es P = true) :
    ∃ c, Reach Harmless c ∧ P c = true := by
  unfold safeRun at h
  rw [Bool.and_eq_true] at h
  obtain ⟨ho, h⟩ := h
  split at h
  · rename_i c hs
    split at h
    · rename_i c' hc
      exact ⟨c', safeSteps_reach hc (.start (okDefs_ok ho) (fun _ h => by cases h) hs), h⟩
    · cases h
  · cases h

section
local instance abortEnv : Env := env {}

/-- The environment of the examples satisfies the conditions. -/
theorem sane : Sane := by
  have fit : ∀ mtu, Handshake.reserved hsConf mtu none (some [[109], [110]]) (5 * Handshake.recordLen 32) ≤ Handshake.MAX_HANDSHAKE_SIZE ∧
      ∀ k : Fin 2, Handshake.reserved hsConf mtu (some (Env.methodName k.val)) none (5 * Handshake.recordLen 32) ≤
        Handshake.MAX_HANDSHAKE_SIZE := by
    intro mtu
    by_cases h : mtu = 0
    · subst h; decide +kernel
    · have : Handshake.reserved hsConf mtu = Handshake.reserved hsConf 1 := by
        funext a b c
        unfold Handshake.reserved
        simp only [if_pos h, ne_eq, one_ne_zero, not_false_eq_true, if_true]
      rw [this]; decide +kernel
  refine ⟨fun _ => rfl, by decide, by decide, by decide, fun _ => List.length_replicate .., fun _ => ⟨(by intro h; cases h), ?_⟩, by decide +kernel,
    fun g mtu => ⟨(fit mtu).1, fun n hn m hm => ?_⟩⟩
  · intro n hn
    change n ∈ [[109], [110]] at hn
    simp only [List.mem_cons, List.not_mem_nil, or_false] at hn
    rcases hn with rfl | rfl
    · exact ⟨0, rfl⟩
    · exact ⟨1, rfl⟩
  · change n ∈ [[109], [110]] at hn
    simp only [List.mem_cons, List.not_mem_nil, or_false] at hn
    rcases hn with rfl | rfl
    · cases hm; exact (fit mtu).2 0
    · cases hm; exact (fit mtu).2 1

/-- All events on shared sockets are harmless, so `C65_partial` applies to the states of most examples, like those with two connected peers. -/
example : ∃ c, Reach Harmless c ∧ decide (c.peers.map (·.state) = [.established, .established]) = true :=
  safeRun_reach (static := duo) (es := duoUp) (by decide +kernel)

end

section
local instance abortEnvSock : Env := { env { tape := fun _ => 1 } with sockV4 := none }

/-- A peer that may change its address is connected by its own socket. Another peer sends a valid handshake from the
same address: the first peer is reset and its socket is closed, and afterwards the socket is used. -/
theorem C65_socket_false : ¬ ∀ (c : Ctx) (e : Event), Reach anyEvent c → e.possible c → handle e c ≠ .error .mem := by
  intro h
  obtain ⟨c, hr, hp, he⟩ := failsWith_reach (static := [peer 2 [addrOf 2] true, peer 3 []])
    (es := [.tick 5000, .task 0, .recv (.dyn 0) (addrOf 1) (addrOf 2) (hsPkt 2 2 1 50)])
    (e := .recv (.dyn 0) (addrOf 1) (addrOf 2) (hsPkt 3 3 1 60)) (f := .mem) (by decide +kernel)
  exact h c _ hr hp he

end

section
local instance abortEnvErr : Env := env { pktinfoErr := fun _ => true }

/-- If the system refuses a local address, a handshake is scheduled for a peer without remotes, and a remote that does not exist
is accessed. -/
theorem C65_remote_false : ¬ ∀ (c : Ctx) (e : Event), Reach anyEvent c → e.possible c → handle e c ≠ .error .mem := by
  intro h
  obtain ⟨c, hr, hp, he⟩ := failsWith_reach (static := [peer 3 []])
    (es := [.tick 5000, .recv (.bound 0) (addrOf 1) (addrOf 3) (hsPkt 1 3 1 60), .tick 30000]) (e := .task 0) (f := .mem)
    (by decide +kernel)
  exact h c _ hr hp he

end

end Demo

end Fastd.Daemon
