import Verif.Props.Packets
import Verif.Daemon.VerifySpec

/-!
# Sessions of dynamic peers

C118: peers that are not in the configuration get sessions only while the on-verify command has approved them.
-/

namespace Fastd.Daemon

section

variable [Env]

/-- The event is a positive result of the asynchronous on-verify command (which is the default) for the peer `i`. -/
def Approves (c : Ctx) (e : Event) (i : Nat) : Prop := ∃ k v, e = .verified k true ∧ c.verifs[k]? = some v ∧ v.peer = i

/-- The on-verify command has approved the peer `i` within the last minute. -/
def Approved (c : Ctx) (i : Nat) : Prop :=
  ∃ c0 e c1, Reach anyEvent c0 ∧ e.possible c0 ∧ Approves c0 e i ∧ handle e c0 = .ok ((), c1) ∧ Steps anyEvent c1 c ∧
    c.now < c0.now + 60000

theorem verified_from {c : Ctx} (h : Reach anyEvent c) (ha : Env.onVerify ≠ some true) {p : Peer} (hp : p ∈ c.peers) :
    p.verifyValid = 0 ∨ p.verifyValid ≤ c.now ∨ ∃ c0 e c1, Reach anyEvent c0 ∧ e.possible c0 ∧ Approves c0 e p.id ∧
      handle e c0 = .ok ((), c1) ∧ Steps anyEvent c1 c ∧ p.verifyValid = c0.now + 60000 := by
  induction h generalizing p with
  | start h1 h2 hs =>
    have := (vf_startup (A := fun _ => False) _ _ _ _ _ hs)
    rcases this.2 p hp with h | h | ⟨q, hq, _⟩ | ⟨h, _⟩
    · rw [← this.1] at h; exact .inr (.inl h)
    · exact .inl h
    · cases hq
    · exact h.elim
  | @step e c c' hr hpos _ he ih =>
    have old : ∀ q ∈ c.peers, q.id = p.id → p.verifyValid = q.verifyValid → c.now ≤ c'.now → p.verifyValid = 0 ∨ p.verifyValid ≤ c'.now ∨
        ∃ c0 e c1, Reach anyEvent c0 ∧ e.possible c0 ∧ Approves c0 e p.id ∧ handle e c0 = .ok ((), c1) ∧ Steps anyEvent c1 c' ∧
          p.verifyValid = c0.now + 60000 := by
      intro q hq hi hv hn
      rcases ih hq with h | h | ⟨c0, e0, c1, h0, h1, h2, h3, h4, h5⟩
      · exact .inl (hv.trans h)
      · exact .inr (.inl (by rw [hv]; exact Int.le_trans h hn))
      · exact .inr (.inr ⟨c0, e0, c1, h0, h1, by rw [← hi]; exact h2, h3, .step h4 hpos trivial he, hv.trans h5⟩)
    by_cases ht : ∃ d, e = .tick d
    · obtain ⟨d, rfl⟩ := ht
      cases he
      exact old p hp rfl rfl (by simp only []; omega)
    · have rel : VRel (Approves c e) c c' := by
        by_cases hv : ∃ k, e = .verified k true
        · obtain ⟨k, rfl⟩ := hv
          have hk : k < c.verifs.length := hpos
          exact vf_verified (hr.inv (S := False) nofun).ids (List.getElem?_eq_getElem hk)
            ⟨k, _, rfl, List.getElem?_eq_getElem hk, rfl⟩ _ _ he
        · exact vf_handle (fun h => absurd h ha) e (fun d h => ht ⟨d, h⟩) (fun k h => hv ⟨k, h⟩) _ _ _ he
      rcases rel.2 p hp with h | h | ⟨q, hq, hi, hv⟩ | ⟨h1, h2⟩
      · rw [← rel.1] at h; exact .inr (.inl h)
      · exact .inl h
      · exact old q hq hi hv (Int.le_of_eq rel.1.symm)
      · exact .inr (.inr ⟨c, e, c', hr, hpos, h1, he, .refl, h2⟩)

/-- **C118**: with an asynchronous on-verify command, the peer of a new session is in the configuration, or the command has approved it
within the last minute: an unknown key is never enough. -/
theorem C118_session {c c' : Ctx} (h : Reach anyEvent c) (ha : Env.onVerify ≠ some true) (h0 : 0 ≤ c.now) {e : Event} (hp : e.possible c)
    (he : handle e c = .ok ((), c')) {l : List Eff} (hl : c'.log = c.log ++ l) {i : Nat} {key : Key} {serial hsKey m : Nat} {init : Bool}
    (hm : .session i key serial hsKey m init ∈ l) :
    ∃ p ∈ c.peers, p.id = i ∧ p.key = key ∧ (p.cfg ≠ .dynamic ∨ Approved c i) := by
  obtain ⟨_, _, _, _, _, _, _, _, _, _, _, _, _, _, _, hj, _⟩ := C32_session h hp he hl hm
  rcases hj with ⟨p, hpm, hi, hk, _, _, _, _, htr, _⟩ | ⟨_, ho, _⟩
  · refine ⟨p, hpm, hi, hk, ?_⟩
    by_cases hd : p.cfg = .dynamic
    · refine .inr ?_
      rcases htr hd with hv | hv
      · rcases verified_from h ha hpm with h1 | h1 | ⟨c0, e0, c1, g0, g1, g2, g3, g4, g5⟩
        · omega
        · omega
        · exact ⟨c0, e0, c1, g0, g1, by rw [← hi]; exact g2, g3, g4, by omega⟩
      · exact absurd hv ha
    · exact .inl hd
  · exact absurd ho ha

theorem verifyPeer_yes {c c' : Ctx} {i : Nat} {v : Verif} (h : verifyPeer i v c = .ok (.yes, c')) :
    Env.onVerify = some true ∧ Env.tape c.pos % 2 = 1 := by
  unfold verifyPeer at h
  cases ho : Env.onVerify with
  | none => rw [ho] at h; cases h
  | some sync =>
    rw [ho] at h
    simp only [bind_def] at h
    cases hs : setVerifying i c with
    | error e => rw [hs] at h; cases h
    | ok w =>
      obtain ⟨_, c1⟩ := w
      rw [hs] at h
      have hpos : c1.pos = c.pos := by
        unfold setVerifying modP at hs
        simp only [bind_def, get] at hs
        cases hg : getP i c with
        | error e => rw [hg] at hs; cases hs
        | ok w =>
          obtain ⟨p, c2⟩ := w
          rw [hg] at hs
          obtain ⟨rfl, _⟩ := getP_ok hg
          cases hs
          rfl
      have hd : drawBool c1 = .ok (decide (Env.tape c1.pos % 2 = 1), { c1 with pos := c1.pos + 1 }) := rfl
      simp only [hd, hpos] at h
      cases sync with
      | true =>
        by_cases ht : Env.tape c.pos % 2 = 1
        · exact ⟨rfl, ht⟩
        · simp only [ht, decide_false, if_true, bind_def] at h
          cases hv : setVerified i false { c1 with pos := c.pos + 1 } with
          | error e => rw [hv] at h; cases h
          | ok w => rw [hv] at h; cases h
      | false =>
        by_cases ht : Env.tape c.pos % 2 = 1 <;> simp only [ht, decide_true, decide_false] at h <;> cases h

/-- **C118**, synchronous commands: a dynamic peer passes only if it has been verified before, or if the command that is run now approves
it. -/
theorem C118_sync {c c' : Ctx} {sock : Sock} {loc rem : Addr} {i : Nat} {k : Key} {r : Rcv}
    (h : hsVerified sock loc rem i k r c = .ok (true, c')) :
    ∃ p ∈ c.peers, p.id = i ∧ (p.isDynamic = false ∨ c.now < p.verifyValid ∨ (Env.onVerify = some true ∧ Env.tape c.pos % 2 = 1)) := by
  unfold hsVerified at h
  rw [bind_def] at h
  cases hg : getP i c with
  | error e => rw [hg] at h; cases h
  | ok v =>
    obtain ⟨p, c1⟩ := v
    rw [hg] at h
    obtain ⟨rfl, hp, hi⟩ := getP_ok hg
    refine ⟨p, hp, hi, ?_⟩
    cases hd : p.isDynamic with
    | false => exact .inl rfl
    | true =>
      refine .inr ?_
      simp only [hd, if_true] at h
      unfold handleDynamic at h
      rw [bind_def, hg] at h
      have h : (if r.hs.type > 2 || !timedOut p.verifyTimeout c1.now then pure (!timedOut p.verifyValid c1.now)
        else do
          match (← verifyPeer i ⟨i, sock, loc, rem, k, r.hs.flags⟩) with
          | .undef => pure false
          | .no =>
            peerDelete i
            pure false
          | .yes => pure true : M Bool) c1 = .ok (true, c') := h
      split at h
      · have h' : (.ok (!timedOut p.verifyValid c1.now, c1) : Except Fail (Bool × Ctx)) = .ok (true, c') := h
        injection h' with h'
        injection h' with h' _
        exact .inl (by simpa [timedOut] using h')
      · rw [bind_def] at h
        cases hv : verifyPeer i ⟨i, sock, loc, rem, k, r.hs.flags⟩ c1 with
        | error e => rw [hv] at h; cases h
        | ok w =>
          obtain ⟨t, c2⟩ := w
          rw [hv] at h
          cases t with
          | undef => cases h
          | yes => exact .inr (verifyPeer_yes hv)
          | no =>
            simp only [bind_def] at h
            cases hx : peerDelete i c2 with
            | error e => rw [hx] at h; cases h
            | ok w => rw [hx] at h; cases h

end

/-! ### Examples -/

namespace Demo

section
local instance verifyEnv : Env := env { onVerify := some false, tape := fun _ => 1 }

/-- A session with the key 5. -/
def isSession5 : Eff → Bool
  | .session _ k _ _ _ _ => decide (k = keyOf 5)
  | _ => false

/-- A reply from an unknown key starts a verification; once the result is there, a session is set up by the next handshake. -/
example : ∃ c c', Reach anyEvent c ∧ (Event.recv (.bound 0) (addrOf 1) (addrOf 5) (hsPkt 3 5 1 60)).possible c ∧
    handle (.recv (.bound 0) (addrOf 1) (addrOf 5) (hsPkt 3 5 1 60)) c = .ok ((), c') ∧
    (decide (0 ≤ c.now) && (c'.log.drop c.log.length).any isSession5) = true :=
  afterStep_reach (static := duo) (dirs := [])
    (es := [.tick 5000, .task 0, .recv (.bound 0) (addrOf 1) (addrOf 5) (hsPkt 2 5 1 60), .tick 100, .verified 0 true, .tick 59999])
    (by decide +kernel)

/-- One millisecond later, or without the result, there is none. -/
example : ∃ c c', Reach anyEvent c ∧ (Event.recv (.bound 0) (addrOf 1) (addrOf 5) (hsPkt 3 5 1 60)).possible c ∧
    handle (.recv (.bound 0) (addrOf 1) (addrOf 5) (hsPkt 3 5 1 60)) c = .ok ((), c') ∧
    (!(c'.log.drop c.log.length).any isSession5) = true :=
  afterStep_reach (static := duo) (dirs := [])
    (es := [.tick 5000, .task 0, .recv (.bound 0) (addrOf 1) (addrOf 5) (hsPkt 2 5 1 60), .tick 100, .verified 0 true, .tick 60000])
    (by decide +kernel)

example : ∃ c c', Reach anyEvent c ∧ (Event.recv (.bound 0) (addrOf 1) (addrOf 5) (hsPkt 3 5 1 60)).possible c ∧
    handle (.recv (.bound 0) (addrOf 1) (addrOf 5) (hsPkt 3 5 1 60)) c = .ok ((), c') ∧
    (!(c'.log.drop c.log.length).any isSession5) = true :=
  afterStep_reach (static := duo) (dirs := [])
    (es := [.tick 5000, .task 0, .recv (.bound 0) (addrOf 1) (addrOf 5) (hsPkt 2 5 1 60), .tick 100])
    (by decide +kernel)

end

end Demo

end Fastd.Daemon
