import Verif.Props.Abort

/-!
# C92: the daemon keeps running

A failure to open a socket or a TUN/TAP interface for a single peer may end the whole process (src/socket.c:33-42, src/peer.c:422-424,
src/iface.c:98-100). With one interface for all peers and bound sockets for both IP versions (`Equipped`) nothing is opened for single
peers, and no event ends the process: handling it always succeeds (`C92_runs`). This also means that none of the failures excluded by
the condition of `C65_partial` on events happens.
-/

namespace Fastd.Daemon

set_option linter.unusedSectionVars false

section

variable [Env]

/-- The clock has not reached the largest time, which stands for "never" (292 million years after the start of the system). -/
def InTime (e : Event) (c : Ctx) : Prop := ∀ i, e = .task i → c.now < timeoutInv

theorem InTime.fine {e : Event} {c : Ctx} (h : InTime e c) (hs : c.socks = []) : e.fine c := by
  cases e with
  | task i => exact h i rfl
  | recv sock loc rem pkt =>
    intro q b _ n j p _ _ _ hj
    rw [hs] at hj
    cases hj
  | _ => trivial

/-- **C92**: with a common interface and bound sockets no event ends the process, in all executions. -/
theorem C92_no_exit (hE : Equipped) {c : Ctx} (h : Reach anyEvent c) {e : Event} (hp : e.possible c) : handle e c ≠ .error .exit := by
  have hI : Inv False nobody nobody nobody c := h.inv fun s => s.elim
  have := wp_handle hI hp (fun s => s.elim) (Q := fun _ _ => True) fun _ _ _ => trivial
  intro he
  unfold wp at this
  rw [he] at this
  exact this hE

theorem inv_inTime (hE : Equipped) (hS : Sane) {c : Ctx} (h : Reach InTime c) : Inv True nobody nobody nobody c := by
  induction h with
  | start hs hd he => exact wp_ok (Q := fun (_ : Unit) c => Inv True nobody nobody nobody c) (wp_startup hs hd fun c' h _ _ => h) he
  | step _ hp hP he ih =>
    exact wp_ok (Q := fun (_ : Unit) c => Inv True nobody nobody nobody c)
      (wp_handle ih hp (fun _ => ⟨hS.ok, hP.fine (ih.socks.none hE)⟩) fun c' h _ => h) he

/-- **C92**: handling an event always succeeds. There is no condition on the events other than that of the clock. -/
theorem C92_runs (hE : Equipped) (hS : Sane) {c : Ctx} (h : Reach InTime c) {e : Event} (hp : e.possible c) (ht : InTime e c) :
    ∃ c', handle e c = .ok ((), c') := by
  have hI := inv_inTime hE hS h
  have := wp_handle hI hp (fun _ => ⟨hS.ok, ht.fine (hI.socks.none hE)⟩) (Q := fun _ _ => True) fun _ _ _ => trivial
  unfold wp at this
  cases he : handle e c with
  | ok v => exact ⟨v.2, rfl⟩
  | error f =>
    rw [he] at this
    cases f with
    | exit => exact absurd hE this
    | config => exact absurd he (handle_noConfig e c)
    | fuel => exact this.elim
    | bug => exact absurd trivial this
    | mem => exact absurd trivial this

/-- **C92**: no socket is ever opened for a single peer. -/
theorem C92_sockets (hE : Equipped) {c : Ctx} (h : Reach anyEvent c) : c.socks = [] :=
  (h.inv (S := False) fun s => s.elim).socks.none hE

/-- **C92**: starting fails at most because of the main configuration. -/
theorem C92_start (hE : Equipped) {now : Time} {seed useed : UInt32} {k0 : Nat} {static dirs : List PeerDef} (hs : ∀ d ∈ static, d.ok)
    (hd : ∀ d ∈ dirs, d.ok) {f : Fail} (he : startup static dirs (initial now seed useed k0) = .error f) : f = .config := by
  have := wp_startup (S := True) (now := now) (seed := seed) (useed := useed) (k0 := k0) hs hd (Q := fun _ _ => True)
    fun _ _ _ _ => trivial
  unfold wp at this
  rw [he] at this
  cases f with
  | exit => exact absurd hE this
  | config => rfl
  | fuel => exact this.elim
  | bug => exact absurd trivial this
  | mem => exact absurd trivial this

end

/-! ### Examples -/

namespace Demo

section
local instance runEnv : Env := { env {} with sockV6 := some 1 }

/-- The conditions of `C92_runs` hold for a node with two sockets and one interface, also after two peers have connected. -/
example : Equipped ∧ ∃ c, Reach Harmless c ∧ decide (c.peers.map (·.state) = [.established, .established]) = true :=
  ⟨⟨rfl, rfl, rfl⟩, safeRun_reach (static := duo) (es := duoUp) (by decide +kernel)⟩

end

section
local instance runEnvSock : Env := { env { tape := fun _ => 2 } with sockV4 := none }

/-- Without a bound socket the process ends if opening one for a peer fails: the operating system refuses one more socket when a
handshake is sent. -/
theorem C92_socket_false : ¬ ∀ (c : Ctx) (e : Event), Reach anyEvent c → e.possible c → handle e c ≠ .error .exit := by
  intro h
  obtain ⟨c, hr, hp, he⟩ := failsWith_reach (static := [peer 2 [addrOf 2] true]) (es := [.tick 5000]) (e := .task 0) (f := .exit)
    (by decide +kernel)
  exact h c _ hr hp he

end

section
local instance runEnvIface : Env := { env { tape := fun _ => 2 } with sharedIface := false, ifacePersist := false }

/-- With an interface for each peer the process ends if opening one fails when the reply to a handshake arrives. -/
theorem C92_iface_false : ¬ ∀ (c : Ctx) (e : Event), Reach anyEvent c → e.possible c → handle e c ≠ .error .exit := by
  intro h
  obtain ⟨c, hr, hp, he⟩ := failsWith_reach (static := [peer 2 [addrOf 2]])
    (es := [.tick 5000, .task 0]) (e := .recv (.bound 0) (addrOf 1) (addrOf 2) (hsPkt 2 2 2 50)) (f := .exit)
    (by decide +kernel)
  exact h c _ hr hp he

end

end Demo

end Fastd.Daemon
