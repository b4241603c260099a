import Verif.Daemon.SinceSpec
import Verif.Props.Peers
import Verif.Props.Mac
import Verif.Daemon.Trail

/-!
# Connections are kept alive

C120: the task of an established peer is scheduled in time, and sends an empty packet if a keepalive is due.
-/

namespace Fastd.Daemon

section

variable [Env]

/-! ## Lemmas -/

/-- The peer is not established. -/
def Off (i : Nat) (c : Ctx) : Prop := ∀ q ∈ c.peers, q.id = i → q.state ≠ .established

theorem Off.step {α : Type} {i : Nat} {c c' : Ctx} {m : M α} {a : α} (h : Off i c) (hm : Es False m) (ho : m c = .ok (a, c')) : Off i c' := by
  obtain ⟨-, l, -, hr⟩ := hm c a c' ho
  intro q hq hi he
  rcases hr q hq he with ⟨f, _⟩ | ⟨_, p, hp, hpi, hps, _⟩
  · exact f
  · exact h p hp (hpi.trans hi) hps

theorem off_resetPeer {i : Nat} {c c' : Ctx} {u : Unit} (h : resetPeer i c = .ok (u, c')) : Off i c' := by
  unfold resetPeer at h
  replace h := bind_ok h
  obtain ⟨_, _, -, h⟩ := h
  replace h := bind_ok h
  obtain ⟨_, _, -, h⟩ := h
  replace h := bind_ok h
  obtain ⟨_, _, -, h⟩ := h
  replace h := bind_ok h
  obtain ⟨_, _, -, h⟩ := h
  replace h := bind_ok h
  obtain ⟨_, _, -, h⟩ := h
  replace h := bind_ok h
  obtain ⟨_, _, -, h⟩ := h
  replace h := bind_ok h
  obtain ⟨_, _, -, h⟩ := h
  replace h := bind_ok h
  obtain ⟨_, c1, h1, h⟩ := h
  refine Off.step (c := c1) ?_ ?_ h
  swap
  · exact Es.modP fun _ => ⟨rfl, rfl, rfl⟩
  rw [(modP_ok h1).2]
  intro q hq hi
  simp only [updPeers, List.mem_map] at hq
  obtain ⟨p, -, rfl⟩ := hq
  split at hi
  · rename_i hp; rw [if_pos hp]; exact nofun
  · rename_i hp; exact absurd hi hp

theorem off_peerReset {i : Nat} {c c' : Ctx} {u : Unit} (h : peerReset i c = .ok (u, c'))
    (hs : ∀ p, getP i c = .ok (p, c) → p.state = .established) : Off i c' := by
  unfold peerReset at h
  replace h := bind_ok h
  obtain ⟨p, c1, h1, h⟩ := h
  have hc := (getP_ok h1).1
  subst hc
  replace h := bind_ok h
  obtain ⟨_, c2, h2, h⟩ := h
  have hp := hs p h1
  rw [hp] at h2
  have h2 : resetPeer i c1 = .ok (_, c2) := h2
  exact (off_resetPeer h2).step (es_setupPeer i) h

/-- What is in the log stays there. -/
theorem log_mono {α : Type} {c c' : Ctx} {m : M α} {a : α} (hm : Es True m) (ho : m c = .ok (a, c')) : ∃ l, c'.log = c.log ++ l := by
  obtain ⟨-, l, h, -⟩ := hm c a c' ho
  exact ⟨l, h⟩

/-- An empty packet was encrypted for the peer and sent to it. -/
def KeptAlive (i : Nat) (l : List Eff) : Prop :=
  ∃ k m o o' pkt s loc rem, .encrypt i k [] ∈ l ∧ Env.encrypt m o [] = some (pkt, o') ∧ .send s loc rem (some i) pkt ∈ l

theorem KeptAlive.append {i : Nat} {l : List Eff} (h : KeptAlive i l) (a b : List Eff) : KeptAlive i (a ++ l ++ b) := by
  obtain ⟨k, m, o, o', pkt, s, loc, rem, h1, h2, h3⟩ := h
  exact ⟨k, m, o, o', pkt, s, loc, rem, by simp [h1], h2, by simp [h3]⟩

theorem keep_send {s : Option Sock} {loc rem : Addr} {o : Option Nat} {d : Bytes} {c c' : Ctx} {u : Unit} (h : send s loc rem o d c = .ok (u, c')) :
    ∃ l s, c'.log = c.log ++ l ∧ .send s loc rem o d ∈ l := by
  unfold send at h
  split at h
  · cases h
  · rename_i s
    split at h
    · cases h
    · replace h := bind_ok h
      obtain ⟨_, c1, h1, h⟩ := h
      replace h := bind_ok h
      obtain ⟨_, c2, h2, h⟩ := h
      replace h := bind_ok h
      obtain ⟨_, c3, h3, h⟩ := h
      replace h := bind_ok h
      obtain ⟨_, c4, h4, h⟩ := h
      cases h2
      cases h3
      obtain ⟨l1, g1⟩ := log_mono (es_sockLive _) h1
      obtain ⟨l2, g2⟩ := log_mono (es_sendRetry _ _) h4
      cases h
      refine ⟨l1 ++ l2 ++ [.send s loc rem o d], s, ?_, by simp⟩
      show c4.log ++ _ = _
      rw [g2]
      show c1.log ++ l2 ++ _ = _
      rw [g1]; simp

theorem keep_sessionSend (hE : ∀ m (o : Env.Sess), Env.encrypt m o [] ≠ none) {i : Nat} {s : Session} {c c' : Ctx} {u : Unit}
    (h : sessionSend i s [] c = .ok (u, c')) : ∃ l, c'.log = c.log ++ l ∧ KeptAlive i l := by
  unfold sessionSend at h
  replace h := bind_ok h
  obtain ⟨m, c1, h1, h⟩ := h
  replace h := bind_ok h
  obtain ⟨k, c2, h2, h⟩ := h
  replace h := bind_ok h
  obtain ⟨o, c3, h3, h⟩ := h
  obtain ⟨l1, g1⟩ := log_mono (es_deref _) h1
  obtain ⟨l2, g2⟩ := log_mono (es_deref _) h2
  obtain ⟨l3, g3⟩ := log_mono (es_getObj _) h3
  cases he : Env.encrypt m o [] with
  | none => exact absurd he (hE _ _)
  | some r =>
    obtain ⟨pkt, o'⟩ := r
    simp only [he] at h
    replace h := bind_ok h
    obtain ⟨_, c4, h4, h⟩ := h
    replace h := bind_ok h
    obtain ⟨_, c5, h5, h⟩ := h
    replace h := bind_ok h
    obtain ⟨p, c6, h6, h⟩ := h
    replace h := bind_ok h
    obtain ⟨_, c7, h7, h⟩ := h
    obtain ⟨l4, g4⟩ := log_mono (es_setObj _ _) h4
    obtain ⟨rfl, -⟩ := getP_ok h6
    obtain ⟨l7, s', g7, hm⟩ := keep_send h7
    obtain ⟨l8, g8⟩ := log_mono (Es.when (es_clearKeepalive _)) h
    cases h5
    refine ⟨l1 ++ l2 ++ l3 ++ l4 ++ (.encrypt i k [] :: l7) ++ l8, ?_, ?_⟩
    · rw [g8, g7]
      show c4.log ++ _ ++ _ ++ _ = _
      rw [g4, g3, g2, g1]; simp
    · exact KeptAlive.append ⟨k, m, o, o', pkt, s', p.localAddr, p.addr, by simp, he, by simp [hm]⟩ _ _

theorem keep_sessionValid {s : Session} {c c' : Ctx} {v : Bool} (h : sessionValid s c = .ok (v, c')) :
    c' = c ∧ ∀ m k o, s.method = some m → s.mstate = some k → c.objs k = some o → Env.sessValid m o c.now = v := by
  unfold sessionValid at h
  cases hm : s.method with
  | none => simp only [hm] at h; cases h; exact ⟨rfl, fun m k o a => nomatch a⟩
  | some m =>
  cases hk : s.mstate with
  | none => simp only [hm, hk] at h; cases h; exact ⟨rfl, fun m k o _ b => nomatch b⟩
  | some k =>
    simp only [hm, hk] at h
    replace h := bind_ok h
    obtain ⟨o, c1, h1, h⟩ := h
    obtain ⟨rfl, ho⟩ := getObj_ok h1
    cases h
    refine ⟨rfl, fun m' k' o' a b d => ?_⟩
    cases a; cases b
    rw [ho] at d; cases d; rfl

/-- The connection has ended for a reason: the session can't be used any more. -/
def Expired (c : Ctx) (p : Peer) : Prop :=
  ∀ m k o, p.sess.method = some m → p.sess.mstate = some k → c.objs k = some o → Env.sessValid m o c.now = false

theorem keep_protocolSend (hE : ∀ m (o : Env.Sess), Env.encrypt m o [] ≠ none) {i : Nat} {c c' : Ctx} {u : Unit}
    (hs : ∀ p, getP i c = .ok (p, c) → p.state = .established) (h : protocolSend i [] c = .ok (u, c')) :
    (Off i c' ∧ ∃ p, getP i c = .ok (p, c) ∧ Expired c p) ∨ ∃ l, c'.log = c.log ++ l ∧ KeptAlive i l := by
  unfold protocolSend at h
  replace h := bind_ok h
  obtain ⟨p, c1, h1, h⟩ := h
  obtain ⟨rfl, -⟩ := getP_ok h1
  have hp : p.isEstablished = true := by simp [Peer.isEstablished, hs p h1]
  simp only [hp, Bool.not_true, Bool.false_eq_true, if_false] at h
  replace h := bind_ok h
  obtain ⟨ok, c2, h2, h⟩ := h
  cases ok with
  | false =>
    left
    simp only [Bool.not_false, if_true] at h
    cases h
    unfold checkSession at h2
    replace h2 := bind_ok h2
    obtain ⟨p', c3, h3, h2⟩ := h2
    obtain ⟨rfl, -⟩ := getP_ok h3
    replace h2 := bind_ok h2
    obtain ⟨v, c4, h4, h2⟩ := h2
    cases v with
    | true => simp only [if_true] at h2; cases h2
    | false =>
      simp only [Bool.false_eq_true, if_false] at h2
      replace h2 := bind_ok h2
      obtain ⟨_, c5, h5, h2⟩ := h2
      cases h2
      obtain ⟨hc, hx⟩ := keep_sessionValid h4
      subst hc
      exact ⟨off_peerReset h5 hs, p', h3, hx⟩
  | true =>
    right
    simp only [Bool.not_true, Bool.false_eq_true, if_false] at h
    replace h := bind_ok h
    obtain ⟨_, c3, h3, h⟩ := h
    replace h := bind_ok h
    obtain ⟨p', c4, h4, h⟩ := h
    replace h := bind_ok h
    obtain ⟨old, c5, h5, h⟩ := h
    obtain ⟨l2, g2⟩ := log_mono (es_checkSession _) h2
    obtain ⟨l3, g3⟩ := log_mono (es_checkSessionRefresh _) h3
    obtain ⟨rfl, -⟩ := getP_ok h4
    obtain ⟨l5, g5⟩ := log_mono (es_useOldSession _) h5
    obtain ⟨l, g, ha⟩ := keep_sessionSend hE h
    exact ⟨l2 ++ l3 ++ l5 ++ l ++ [], by rw [g, g5, g3, g2]; simp, ha.append _ _⟩

/-! ## Properties -/

/-- **C120**: the task of an established peer is scheduled within the next `KEEPALIVE_TIMEOUT`, and no later than the time its next keepalive is due. -/
theorem C120_scheduled {c : Ctx} (h : Reach anyEvent c) {p : Peer} (hp : p ∈ c.peers) (hs : p.state = .established)
    (hn : c.now + 20000 < timeoutInv) : ∃ t, p.task = some t ∧ t ≤ p.keepalive ∧ t ≤ c.now + 20000 := by
  have hI : Inv False nobody nobody nobody c := h.inv fun s => s.elim
  have hk := (hI.timers p hp hs).2
  have hk : p.keepalive ≤ c.now + 20000 := hk
  obtain ⟨t, ht, hle⟩ := C40_no_timer_missed h hp (by rw [hs]; exact nofun) (.inr (.inl rfl)) (Int.lt_of_le_of_lt hk hn)
  exact ⟨t, ht, hle, Int.le_trans hle hk⟩

/-- **C120**: when the task of an established peer is run and a keepalive is due, an empty packet is encrypted and sent to the peer, unless the
connection ends because nothing was received for too long or the session has expired. -/
theorem C120_sent (hE : ∀ m (o : Env.Sess), Env.encrypt m o [] ≠ none) {c c' : Ctx} (h : Reach anyEvent c) {i : Nat}
    (he : handle (.task i) c = .ok ((), c')) {p : Peer} (hp : p ∈ c.peers) (hi : p.id = i)
    (hs : p.state = .established) (hk : p.keepalive ≤ c.now) :
    ((∀ q ∈ c'.peers, q.id = i → q.state ≠ .established) ∧ (p.resetTimeout ≤ c.now ∨
      ∀ m k o, p.sess.method = some m → p.sess.mstate = some k → c.objs k = some o → Env.sessValid m o c.now = false)) ∨
    ∃ l k m o o' pkt s loc rem, c'.log = c.log ++ l ∧ .encrypt i k [] ∈ l ∧ Env.encrypt m o [] = some (pkt, o') ∧ .send s loc rem (some i) pkt ∈ l := by
  have hI : Inv False nobody nobody nobody c := h.inv fun s => s.elim
  have hu : ∀ q ∈ c.peers, q.id = i → q = p := fun q hq hqi => sorted_inj hI.ids hq hp (hqi.trans hi.symm)
  have he : peerTask i c = .ok ((), c') := he
  unfold peerTask at he
  replace he := bind_ok he
  obtain ⟨_, c1, h1, he⟩ := he
  have hc1 := (modP_ok h1).2
  have g1 : ∀ q, getP i c1 = .ok (q, c1) → q = { p with task := none } := by
    intro q hq
    obtain ⟨-, hm, hqi⟩ := getP_ok hq
    rw [hc1] at hm
    simp only [updPeers, List.mem_map] at hm
    obtain ⟨r, hr, rfl⟩ := hm
    split at hqi
    · rename_i hri; rw [if_pos hri, hu r hr hri]
    · rename_i hri; exact absurd hqi hri
  have l1 : c1.log = c.log := by rw [hc1]
  have n1 : c1.now = c.now := by rw [hc1]
  have hst : ∀ q, getP i c1 = .ok (q, c1) → q.state = .established := fun q hq => by rw [g1 q hq]; exact hs
  replace he := bind_ok he
  obtain ⟨q, c2, h2, he⟩ := he
  obtain ⟨rfl, -⟩ := getP_ok h2
  replace he := bind_ok he
  obtain ⟨_, _, hc, he⟩ := he
  cases hc
  split at he
  · rename_i hto
    left
    rw [g1 _ h2, n1] at hto
    refine ⟨?_, .inl (by simpa [timedOut] using hto)⟩
    split at he
    · unfold peerDelete at he
      replace he := bind_ok he
      obtain ⟨_, c3, h3, he⟩ := he
      exact (off_resetPeer h3).step (es_deletePeer i) he
    · exact off_peerReset he hst
  · replace he := bind_ok he
    obtain ⟨_, c3, h3, he⟩ := he
    replace he := bind_ok he
    obtain ⟨_, c4, h4, he⟩ := he
    unfold handleTaskKeepalive at h3
    replace h3 := bind_ok h3
    obtain ⟨r, c5, h5, h3⟩ := h3
    obtain ⟨rfl, -⟩ := getP_ok h5
    replace h3 := bind_ok h3
    obtain ⟨_, _, hc, h3⟩ := h3
    cases hc
    have ht : timedOut r.keepalive c5.now = true := by
      rw [g1 r h5, n1]
      simpa [timedOut] using hk
    simp only [ht, if_true] at h3
    replace h3 := bind_ok h3
    obtain ⟨_, c6, h6, h3⟩ := h3
    rcases keep_protocolSend hE hst h6 with ⟨ho, q', hq', hx⟩ | ⟨l, g, k, m, o, o', pkt, s, loc, rem, ha, hb, hd⟩
    · refine .inl ⟨((ho.step (es_clearKeepalive i) h3).step (es_handleTaskDueHandshake i) h4).step (es_schedulePeerTask i) he, .inr ?_⟩
      rw [g1 q' hq'] at hx
      intro m k o a b d
      rw [← n1]
      exact hx m k o a b (by rw [hc1]; exact d)
    · right
      obtain ⟨l3, g3⟩ := log_mono (es_clearKeepalive _) h3
      obtain ⟨l4, g4⟩ := log_mono (es_handleTaskDueHandshake _) h4
      obtain ⟨l5, g5⟩ := log_mono (es_schedulePeerTask _) he
      exact ⟨l ++ l3 ++ l4 ++ l5, k, m, o, o', pkt, s, loc, rem, by rw [g5, g4, g3, g, l1]; simp, by simp [ha], hb, by simp [hd]⟩

end

namespace Demo

section

local instance keepEnv : Env := env {}

/-- The methods of the demonstration encrypt all empty packets. -/
example : ∀ m (o : Env.Sess), Env.encrypt m o [] ≠ none := fun _ _ => nofun

/-- Two peers are established. Their tasks are due within 20 seconds; if one is run then, an empty packet is sent to the peer, which stays connected. -/
example : after duo [] (learning ++ [.tick 20000]) (fun c => match handle (.task 1) c with
    | .ok (_, c') => decide (c.peers.map (fun p => (p.state, decide (p.keepalive ≤ c.now))) = [(.established, true), (.established, true)]) &&
        (c'.log.drop c.log.length).any (fun e => match e with | .encrypt 1 _ [] => true | _ => false) &&
        (c'.log.drop c.log.length).any (fun e => match e with | .send _ _ _ (some 1) _ => true | _ => false) &&
        c'.peers.all (fun p => p.state = .established)
    | .error _ => false) = true := by
  decide +kernel

end

end Demo

end Fastd.Daemon
