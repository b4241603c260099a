import Verif.Daemon.History
import Verif.Daemon.Demo

/-!
# C20: addresses of statically configured peers can not be taken over

The property holds as long as no reload of the configuration assigns an address that is in use by another peer
(`C20_partial`). A reload does not take the address away from a connected peer (`Demo.C20_false`).
-/

namespace Fastd.Daemon

set_option linter.unusedSectionVars false

section

variable [Env]

/-- The address is configured for a peer: it is enabled, does not float, and has a remote with this address. -/
def Configured (q : Peer) (a : Addr) : Prop :=
  (q.cfg = .static ∨ q.cfg = .dynamic) ∧ q.floating = false ∧ ∃ r ∈ q.remotes, r.hostname = none ∧ addrEq r.address a = true

/-- No peer uses an address that is configured for another one. -/
def Respected (c : Ctx) : Prop :=
  ∀ p ∈ c.peers, ∀ q ∈ c.peers, p.id ≠ q.id → p.addr.isSet = true → ¬ Configured q p.addr

/-- The event is not a reload that configures an address which is in use by another peer. -/
def NoConflict (e : Event) (c : Ctx) : Prop :=
  ∀ defs c', e = .reload defs → handle e c = .ok ((), c') → Respected c'

theorem owns_iff {q : Peer} {a : Addr} : ownsAddress q a = true ↔
    q.floating = false ∧ ∃ r ∈ q.remotes, r.hostname = none ∧ addrEq r.address a = true := by
  unfold ownsAddress Peer.isFloating
  constructor
  · intro h
    split at h
    · cases h
    · rename_i hf
      simp only [Bool.or_eq_true, not_or, Bool.not_eq_true] at hf
      simp only [List.any_eq_true, Bool.and_eq_true, decide_eq_true_eq] at h
      exact ⟨hf.2, h⟩
  · rintro ⟨hf, r, hr, hn, ha⟩
    rw [if_neg]
    · simp only [List.any_eq_true, Bool.and_eq_true, decide_eq_true_eq]
      exact ⟨r, hr, hn, ha⟩
    · rw [hf, List.isEmpty_eq_false_iff.2 (List.ne_nil_of_mem hr)]
      simp

theorem respected_iff {c : Ctx} : Respected c ↔ OwnOk c := by
  have en (q : Peer) : q.isEnabled = true ↔ q.cfg = .static ∨ q.cfg = .dynamic := by
    unfold Peer.isEnabled; cases q.cfg <;> simp
  constructor
  · intro h p hp q hq hne hen ha
    by_contra ho
    rw [Bool.not_eq_false] at ho
    exact h p hp q hq hne ha ⟨(en q).1 hen, owns_iff.1 ho⟩
  · intro h p hp q hq hne ha ⟨hc, ho⟩
    have := h p hp q hq hne ((en q).2 hc) ha
    rw [owns_iff.2 ho] at this
    cases this

/-- **C20**, partially: no peer gets an address that is configured for another enabled peer, in all executions in which no
reload configures an address that is in use at this moment. Missing: that no further peer
gets an address after a reload has configured it while it is in use (`Demo.C20_false` shows that the user keeps it). -/
theorem C20_partial {c : Ctx} (h : Reach NoConflict c) : Respected c := by
  induction h with
  | start h1 h2 h3 =>
    rename_i now seed useed k0 static dirs c
    have hi : Ids (initial now seed useed k0) := ⟨.nil, fun _ h => by cases h⟩
    have t : Tr Reloading _ c := pr_startup (E := Reloading) trivial (fun _ => trivial) id id _ _ _ hi h3
    intro p hp q hq hne ha
    obtain ⟨l, _, hb⟩ := t.back
    rcases hb p hp with ⟨p0, hp0, _⟩ | ⟨_, b⟩
    · cases hp0
    · rw [b.addr trivial] at ha; cases ha
  | step hr hp hc he ih =>
    rename_i e c c'
    have hI : Inv False nobody nobody nobody c := (hr.inv fun s => s.elim)
    cases htk : e.isTick with
    | true =>
      cases e with
      | tick d => cases he; exact ih
      | _ => cases htk
    | false =>
      cases hrl : e.isReload with
      | true =>
        cases e with
        | reload ds => exact hc ds c' rfl he
        | _ => cases hrl
      | false =>
        have t := pr_handle hrl htk _ _ _ hI.idsOk he
        exact respected_iff.2 (t.own trivial (respected_iff.1 ih))

end

/-! ### Examples -/

namespace Demo

section
local instance ownEnv : Env := env {}

/-- A peer that may have any address tries to use the address of another one: nothing is established. The owner's address works. -/
example : ∃ c, Reach anyEvent c ∧ decide (c.peers.map (·.state) = [.handshake, .passive]) = true :=
  after_reach (static := duo) (dirs := []) (es := [.tick 5000, .task 0, .recv (.bound 0) (addrOf 1) (addrOf 2) (hsPkt 3 3 1 60)])
    (by decide +kernel)

/-- `Respected` does not hold in all reachable states: a reload may configure the address of a connected peer for another one,
and the connection is kept. -/
theorem C20_false : ¬ ∀ c : Ctx, Reach anyEvent c → Respected c := by
  intro h
  obtain ⟨c, hr, hb⟩ := after_reach (static := [peer 3 []]) (dirs := [])
    (es := [.tick 5000, .recv (.bound 0) (addrOf 1) (addrOf 3) (hsPkt 3 3 0 60), .reload [peer 5 [addrOf 3]]])
    (P := fun c => (c.peers.any fun p => decide (p.id = 0) && decide (p.addr = addrOf 3) && decide (p.state = .established)) &&
      (c.peers.any fun q => decide (q.id = 1) && decide (q.cfg = .static) && decide (q.floating = false) &&
        q.remotes.any fun r => decide (r.hostname = none) && decide (addrEq r.address (addrOf 3) = true))) (by decide +kernel)
  simp only [Bool.and_eq_true, List.any_eq_true, decide_eq_true_eq] at hb
  obtain ⟨⟨p, hp, ⟨hi, ha⟩, _⟩, ⟨q, hq, ⟨⟨hqi, hqc⟩, hqf⟩, r, hr', hrn, hra⟩⟩ := hb
  exact h c hr p hp q hq (by omega) (by rw [ha]; rfl) ⟨.inl hqc, hqf, r, hr', hrn, by rw [ha]; exact hra⟩

end

end Demo

end Fastd.Daemon
