import Verif.Daemon.Trail

/-!
# What a task changes about the times of peers

For C60: the tasks that are due at one point in time are finitely many.
-/

namespace Fastd.Daemon

set_option linter.unusedSectionVars false

variable [Env] {α β : Type}

/-- What decides when the task of a peer is due, and what it does. -/
structure Tm where
  reset : Time
  keepalive : Time
  nextHs : Time
  dyn : Bool
  est : Bool

def Peer.tm (p : Peer) : Tm := ⟨p.resetTimeout, p.keepalive, p.nextHs, p.isDynamic, p.isEstablished⟩

/-- Nothing of this changes about peers other than `i`. -/
structure Oth (i : Nat) (c c' : Ctx) : Prop where
  now : c'.now = c.now
  maint : c'.maintenance = c.maintenance
  peers : List.Forall₂ (fun p q : Peer => q.id = p.id ∧ (p.id ≠ i → q.tm = p.tm ∧ q.task = p.task)) c.peers c'.peers

theorem Oth.refl {i : Nat} {c : Ctx} : Oth i c c := ⟨rfl, rfl, forall₂_refl' fun _ _ => ⟨rfl, fun _ => ⟨rfl, rfl⟩⟩⟩

theorem Oth.trans {i : Nat} {a b c : Ctx} (h : Oth i a b) (h' : Oth i b c) : Oth i a c :=
  ⟨h'.now.trans h.now, h'.maint.trans h.maint, forall₂_trans (fun _ _ _ h1 h2 => ⟨h2.1.trans h1.1, fun hn => by
    obtain ⟨h3, h4⟩ := h1.2 hn
    obtain ⟨h5, h6⟩ := h2.2 (by rw [h1.1]; exact hn)
    exact ⟨h5.trans h3, h6.trans h4⟩⟩) h.peers h'.peers⟩

theorem Oth.ids {i : Nat} {c c' : Ctx} (h : Oth i c c') : c'.peers.map (·.id) = c.peers.map (·.id) := by
  have := h.peers
  generalize c.peers = l at this
  generalize c'.peers = l' at this
  induction this with
  | nil => rfl
  | cons hab _ ih => simp only [List.map_cons, ih, hab.1]

theorem Oth.sorted {i : Nat} {c c' : Ctx} (h : Oth i c c') (hs : Sorted c.peers) : Sorted c'.peers := by
  unfold Sorted at hs ⊢
  rw [h.ids]
  exact hs

/-- A property of the times of peer `i`. -/
def Ownt (i : Nat) (P : Time → Tm → Prop) (c : Ctx) : Prop := ∀ p ∈ c.peers, p.id = i → P c.now p.tm

variable {i : Nat} {P Q R : Time → Tm → Prop}

/-- If `P` holds for peer `i`, then `Q` does afterwards. -/
def Tk (i : Nat) (P Q : Time → Tm → Prop) (m : M α) : Prop := ∀ c a c', Sorted c.peers → c.now < timeoutInv → Ownt i P c →
  m c = .ok (a, c') → Oth i c c' ∧ Ownt i Q c'

theorem Tk.pure {a : α} : Tk i P P (Pure.pure a : M α) := by
  intro c a' c' _ _ hP h
  cases h
  exact ⟨Oth.refl, hP⟩

theorem Tk.fail {f : Fail} : Tk i P Q (fail f : M α) := by
  intro c a' c' _ _ _ h
  cases h

theorem Tk.bind' {m : M α} {f : α → M β} (h : Tk i P Q m)
    (h' : ∀ a c c1, Sorted c.peers → c.now < timeoutInv → Ownt i P c → m c = .ok (a, c1) → Sorted c1.peers → c1.now < timeoutInv →
      Ownt i Q c1 → ∀ b c', f a c1 = .ok (b, c') → Oth i c1 c' ∧ Ownt i R c') : Tk i P R (m >>= f) := by
  intro c b c' hs hn hP hm
  obtain ⟨a, c1, h1, h2⟩ := bind_ok hm
  obtain ⟨o1, hQ⟩ := h c a c1 hs hn hP h1
  obtain ⟨o2, hR⟩ := h' a c c1 hs hn hP h1 (o1.sorted hs) (by rw [o1.now]; exact hn) hQ b c' h2
  exact ⟨o1.trans o2, hR⟩

theorem Tk.bind {m : M α} {f : α → M β} (h : Tk i P Q m) (h' : ∀ a, Tk i Q R (f a)) : Tk i P R (m >>= f) :=
  Tk.bind' h fun a _ c1 _ _ _ _ hs hn hQ b c' h2 => h' a c1 b c' hs hn hQ h2

theorem Tk.seq {m : M α} {f : α → M β} (h : Tk i P P m) (h' : ∀ a, Tk i P R (f a)) : Tk i P R (m >>= f) := Tk.bind h h'

theorem Tk.ite {p : Prop} [Decidable p] {m m' : M α} (h : Tk i P Q m) (h' : Tk i P Q m') : Tk i P Q (if p then m else m') := by
  split
  · exact h
  · exact h'

theorem Tk.when {b : Bool} {m : M Unit} (h : Tk i P P m) : Tk i P P (when b m) := Tk.ite h Tk.pure

theorem Tk.get : Tk i P P get := by
  intro c a' c' _ _ hP h
  cases h
  exact ⟨Oth.refl, hP⟩

theorem Tk.getP {j : Nat} : Tk i P P (getP j) := by
  intro c a' c' _ _ hP h
  obtain ⟨rfl, _⟩ := getP_ok h
  exact ⟨Oth.refl, hP⟩

theorem Tk.modify {f : Ctx → Ctx} (hp : ∀ c, (f c).peers = c.peers) (hn : ∀ c, (f c).now = c.now)
    (hm : ∀ c, (f c).maintenance = c.maintenance) : Tk i P P (modify f) := by
  intro c a' c' _ _ hP h
  cases h
  refine ⟨⟨hn c, hm c, ?_⟩, fun p hpp hpi => ?_⟩
  · rw [hp c]; exact forall₂_refl' fun _ _ => ⟨rfl, fun _ => ⟨rfl, rfl⟩⟩
  · rw [hn c]; exact hP p (by rw [← hp c]; exact hpp) hpi

theorem Tk.draw : Tk i P P draw := by
  intro c a' c' _ _ hP h
  cases h
  exact ⟨⟨rfl, rfl, forall₂_refl' fun _ _ => ⟨rfl, fun _ => ⟨rfl, rfl⟩⟩⟩, hP⟩

theorem Tk.drawBool : Tk i P P drawBool := Tk.bind Tk.draw fun _ => Tk.pure

theorem Tk.rand {a b : Time} : Tk i P P (rand a b) := Tk.bind Tk.draw fun _ => Tk.pure

theorem Tk.emit {e : Eff} : Tk i P P (emit e) := Tk.modify (fun _ => rfl) (fun _ => rfl) (fun _ => rfl)

theorem Oth.upd {c : Ctx} {j : Nat} {f : Peer → Peer} (hid : ∀ p, (f p).id = p.id)
    (hf : j ≠ i → ∀ p, (f p).tm = p.tm ∧ (f p).task = p.task) : Oth i c { c with peers := updPeers c.peers j f } := by
  refine ⟨rfl, rfl, forall₂_updPeers (fun p _ hpj => ⟨hid p, fun hn => hf (by rw [← hpj]; exact hn) p⟩) fun _ _ _ => ⟨rfl, fun _ => ⟨rfl, rfl⟩⟩⟩

/-- Changing peer `i`. -/
theorem Tk.own {f : Peer → Peer} (hid : ∀ p, (f p).id = p.id) (hf : ∀ now p, now < timeoutInv → P now p.tm → Q now (f p).tm) :
    Tk i P Q (modP i f) := by
  intro c a c' _ hn hP h
  obtain ⟨_, rfl⟩ := modP_ok h
  refine ⟨Oth.upd hid fun h => absurd rfl h, fun p hp hpi => ?_⟩
  rcases mem_upd_cases hp with ⟨_, hne⟩ | ⟨q, hq, hqi, rfl⟩
  · exact absurd hpi hne
  · exact hf _ q hn (hP q hq hqi)

/-- Changing something else. -/
theorem Tk.modP {j : Nat} {f : Peer → Peer} (hid : ∀ p, (f p).id = p.id) (hf : ∀ p, (f p).tm = p.tm) (ht : ∀ p, (f p).task = p.task) :
    Tk i P P (modP j f) := by
  intro c a c' _ hn hP h
  obtain ⟨_, rfl⟩ := modP_ok h
  refine ⟨Oth.upd hid fun _ p => ⟨hf p, ht p⟩, fun p hp hpi => ?_⟩
  rcases mem_upd_cases hp with ⟨hp, hne⟩ | ⟨q, hq, hqi, rfl⟩
  · exact hP p hp hpi
  · rw [hf]; exact hP q hq (by rw [← hid q]; exact hpi)

theorem Tk.forEach {f : α → M Unit} (hf : ∀ a, Tk i P P (f a)) (l : List α) : Tk i P P (forEach f l) := by
  induction l with
  | nil => exact Tk.pure
  | cons a as ih => exact Tk.bind (hf a) fun _ => ih

/-- Proves `Tk` for a program of known parts. -/
syntax "tk" "[" term,* "]" : tactic

macro_rules
  | `(tactic| tk [$ls,*]) => `(tactic| repeat' (first
      | exact Tk.pure
      | exact Tk.fail
      | exact Tk.get
      | exact Tk.getP
      | exact Tk.draw
      | exact Tk.drawBool
      | exact Tk.rand
      | exact Tk.emit
      | exact Tk.modify (fun _ => rfl) (fun _ => rfl) (fun _ => rfl)
      | exact Tk.modP (fun _ => rfl) (fun _ => rfl) (fun _ => rfl)
      | (first $[| exact $(ls.getElems)]*)
      | with_reducible refine Tk.seq ?_ fun _ => ?_
      | with_reducible refine Tk.when ?_
      | with_reducible refine Tk.forEach (fun _ => ?_) _
      | with_reducible refine Tk.ite ?_ ?_
      | split))

theorem Tk.unit : Tk i P P (Pure.pure () : M Unit) := Tk.pure

/-! ### Hash table, sockets -/

theorem tk_htInsertFuel (n j : Nat) : Tk i P P (htInsertFuel n j) := by
  induction n generalizing j with
  | zero => exact Tk.fail
  | succ n ih => unfold htInsertFuel; tk [ih _]

theorem tk_htInsert (j : Nat) : Tk i P P (htInsert j) := tk_htInsertFuel 2 j

theorem tk_htRemove (j : Nat) : Tk i P P (htRemove j) := by unfold htRemove; tk [Tk.unit]

theorem tk_sockLive (s : Sock) : Tk i P P (sockLive s) := by unfold sockLive; tk [Tk.unit]

theorem tk_sockPeer (s : Sock) : Tk i P P (sockPeer s) := by unfold sockPeer; tk [Tk.unit]

theorem tk_freeSocket (j : Nat) : Tk i P P (freeSocket j) := by unfold freeSocket; tk [tk_sockPeer _]

theorem tk_socketOpen (j : Nat) : Tk i P P (socketOpen j) := by unfold socketOpen; tk [Tk.unit]

theorem tk_newSocket (j : Nat) (d : Option Nat) : Tk i P P (newSocket j d) := by unfold newSocket; tk [tk_socketOpen _]

theorem tk_resetSocket (j : Nat) : Tk i P P (resetSocket j) := by unfold resetSocket; tk [tk_freeSocket _, tk_newSocket _ _]

theorem tk_memIfNone (o : Option α) : Tk i P P (memIfNone o) := by unfold memIfNone; split <;> tk [Tk.unit]

theorem tk_bugIfNone (o : Option α) : Tk i P P (bugIfNone o) := by unfold bugIfNone; split <;> tk [Tk.unit]

theorem tk_deref (o : Option α) : Tk i P P (deref o) := tk_memIfNone o

/-! ### Scheduling -/

theorem tk_schedulePeerTask : Tk i P P (schedulePeerTask i) := by
  unfold schedulePeerTask
  refine Tk.own (fun p => ?_) fun now p _ h => ?_
  · split; rfl; split <;> rfl
  · split; exact h; split <;> exact h

/-- Closed under setting the time of the next handshake. -/
def Hsc (P : Time → Tm → Prop) (ok : Time → Time → Prop) : Prop := ∀ now k t, ok now t → P now k → P now { k with nextHs := t }

theorem tk_setNextHandshake {ok : Time → Time → Prop} {d : Time} (hok : ∀ now k t, ok now t → P now k → Q now { k with nextHs := t })
    (hd : ∀ now, ok now (now + d)) : Tk i P Q (setNextHandshake i d) := by
  unfold setNextHandshake
  refine Tk.bind' Tk.get fun c0 c c1 hs hn hP h hs1 hn1 hP1 b c' h' => ?_
  cases h
  obtain ⟨_, rfl⟩ := modP_ok h'
  refine ⟨Oth.upd (fun _ => rfl) fun h => absurd rfl h, fun p hp hpi => ?_⟩
  rcases mem_upd_cases hp with ⟨_, hne⟩ | ⟨q, hq, hqi, rfl⟩
  · exact absurd hpi hne
  · exact hok _ _ _ (hd _) (hP q hq hqi)

theorem rand_default {c c' : Ctx} {d : Time} (h : handshakeDefaultRand c = .ok (d, c')) : 0 < d := by
  cases h
  have := Int.emod_nonneg (Env.tape c.pos : Int)
    (show (DEFAULT_HANDSHAKE_INTERVAL + DEFAULT_HANDSHAKE_JITTER) - (DEFAULT_HANDSHAKE_INTERVAL - DEFAULT_HANDSHAKE_JITTER) ≠ 0 by decide)
  have h2 : (DEFAULT_HANDSHAKE_INTERVAL - DEFAULT_HANDSHAKE_JITTER : Int) = 17500 := by decide
  simp only [h2] at *
  omega

theorem tk_setNextHandshakeDefault (hok : ∀ now k t, now < t → P now k → Q now { k with nextHs := t }) :
    Tk i P Q (setNextHandshakeDefault i) := by
  unfold setNextHandshakeDefault
  refine Tk.bind' (Tk.rand : Tk i P P handshakeDefaultRand) fun d c c1 hs hn hP h hs1 hn1 hP1 b c' h' => ?_
  have := rand_default h
  exact tk_setNextHandshake (ok := fun now t => now < t) hok (fun now => by show now < now + d; omega) c1 b c' hs1 hn1 hP1 h'

theorem tk_scheduleHandshakeDefault (hok : Hsc P fun now t => now < t) : Tk i P P (scheduleHandshakeDefault i) := by
  unfold scheduleHandshakeDefault scheduleHandshake
  refine Tk.bind' (Tk.rand : Tk i P P handshakeDefaultRand) fun d c c1 hs hn hP h hs1 hn1 hP1 b c' h' => ?_
  have := rand_default h
  exact Tk.bind (tk_setNextHandshake (ok := fun now t => now < t) hok (fun now => by show now < now + d; omega)) (fun _ => tk_schedulePeerTask)
    c1 b c' hs1 hn1 hP1 h'

/-! ### Sending -/

theorem tk_sendRetry {b : Bool} (hok : Hsc P fun now t => now < t) : Tk i P P (send.sendRetry b (some i)) := by
  cases b with
  | false => unfold send.sendRetry; exact Tk.pure
  | true => unfold send.sendRetry; tk [tk_scheduleHandshakeDefault hok]

theorem tk_send {s : Option Sock} {l r : Addr} {d : Bytes} (hok : Hsc P fun now t => now < t) : Tk i P P (send s l r (some i) d) := by
  unfold send; tk [tk_sockLive _, tk_sendRetry hok]

theorem tk_sendHandshakePkt {s : Sock} {l r : Addr} {d : Bytes} {f : Option UInt8} (hok : Hsc P fun now t => now < t) :
    Tk i P P (sendHandshakePkt s l r (some i) d f) := by
  unfold sendHandshakePkt; tk [tk_send hok]

theorem tk_protoMaintenance : Tk i P P protoMaintenance := by unfold protoMaintenance; tk [Tk.unit]

theorem tk_peerKeyOf (o : Option Nat) : Tk i P P (peerKeyOf o) := by unfold peerKeyOf; tk [Tk.unit]

theorem tk_handshakeInit {s : Sock} {l r : Addr} (hok : Hsc P fun now t => now < t) : Tk i P P (handshakeInit s l r (some i)) := by
  unfold handshakeInit
  tk [tk_protoMaintenance, tk_peerKeyOf _, tk_bugIfNone _, tk_sendHandshakePkt hok]

/-! ### The handshake part -/

theorem tk_getR (j k : Nat) : Tk i P P (getR j k) := by unfold getR; tk [Tk.unit]

theorem tk_modR (j k : Nat) (f : Remote → Remote) : Tk i P P (modR j k f) := by unfold modR; tk [tk_getR _ _]

theorem tk_resolvePeer (j k : Nat) : Tk i P P (resolvePeer j k) := by unfold resolvePeer; tk [tk_getR _ _, tk_modR _ _ _]

theorem tk_nextRemote (j : Nat) : Tk i P P (nextRemote j) := by
  unfold nextRemote; tk [tk_deref _, tk_modR _ _ _, tk_getR _ _, tk_resolvePeer _ _]

/-- A peer that is not established. -/
def Idle (c : Ctx) (j : Nat) : Prop := ∀ p ∈ c.peers, p.id = j → p.isEstablished = false

theorem tk_resetPeerAddress {j : Nat} {c c' : Ctx} {a : Unit} (hs : Sorted c.peers) (hn : c.now < timeoutInv) (hP : Ownt i P c)
    (hj : Idle c j) (h : resetPeerAddress j c = .ok (a, c')) : Oth i c c' ∧ Ownt i P c' := by
  unfold resetPeerAddress at h
  obtain ⟨p, c1, h1, h2⟩ := bind_ok h
  clear h
  obtain ⟨rfl, hp, hpi⟩ := getP_ok h1
  rw [if_neg (by rw [hj p hp hpi]; decide)] at h2
  exact (by tk [tk_htRemove _] : Tk i P P (do
    htRemove j
    modP j fun p => { p with addr := .unspec 0 } : M Unit)) _ _ _ hs hn hP h2

theorem tk_claimFinish (j : Nat) (s : Option Sock) (l : Option Addr) (r : Addr) : Tk i P P (claimFinish j s l r) := by
  have : Tk i P P (claimSock j s) := by unfold claimSock; tk [tk_sockLive _, tk_freeSocket _]
  unfold claimFinish; tk [tk_htRemove _, tk_htInsert _, this]

theorem tk_claimAddress {s : Option Sock} {l : Option Addr} {r : Addr} {b : Bool} {c c' : Ctx} (hs : Sorted c.peers) (hn : c.now < timeoutInv)
    (hP : Ownt i P c) (hj : Idle c i) (h : claimAddress i s l r false c = .ok (b, c')) : Oth i c c' ∧ Ownt i P c' := by
  unfold claimAddress at h
  split at h
  · obtain ⟨p, c1, h1, h2⟩ := bind_ok h
    clear h
    obtain ⟨rfl, hp, hpi⟩ := getP_ok h1
    unfold when at h2
    rw [if_neg (by rw [hj p hp hpi]; decide)] at h2
    obtain ⟨_, c2, h3, h4⟩ := bind_ok h2
    cases h3
    exact tk_claimFinish _ _ _ _ _ _ _ hs hn hP h4
  · obtain ⟨c0, c1, h1, h2⟩ := bind_ok h
    clear h
    have e1 : c1 = c0 ∧ c0 = c := by cases h1; exact ⟨rfl, rfl⟩
    obtain ⟨rfl, rfl⟩ := e1
    cases hc : claimScan i r c1.peers with
    | free =>
      simp only [hc] at h2
      exact tk_claimFinish _ _ _ _ _ _ _ hs hn hP h2
    | owned =>
      simp only [hc] at h2
      obtain ⟨_, c2, h3, h4⟩ := bind_ok h2
      cases h4
      exact tk_resetPeerAddress hs hn hP hj h3
    | held j =>
      simp only [hc] at h2
      obtain ⟨q, c2, h3, h4⟩ := bind_ok h2
      clear h2
      obtain ⟨rfl, hq, hqj⟩ := getP_ok h3
      split at h4
      · obtain ⟨_, c3, h5, h6⟩ := bind_ok h4
        cases h6
        exact tk_resetPeerAddress hs hn hP hj h5
      · rename_i he
        obtain ⟨_, c3, h5, h6⟩ := bind_ok h4
        have hi : Idle c2 j := fun p hp hpj => by
          rw [sorted_inj hs hp hq (hpj.trans hqj.symm)]
          simpa using he
        obtain ⟨o3, hP3⟩ := tk_resetPeerAddress hs hn hP hi h5
        obtain ⟨o4, hP4⟩ := tk_claimFinish _ _ _ _ _ _ _ (o3.sorted hs) (by rw [o3.now]; exact hn) hP3 h6
        exact ⟨o3.trans o4, hP4⟩

theorem tk_chooseAddress (r : Option Nat) : Tk i P P (chooseAddress i r) := by
  unfold chooseAddress
  refine Tk.bind' Tk.getP fun p c c1 hs hn hP h hs1 hn1 hP1 b c' h' => ?_
  obtain ⟨rfl, hp, hpi⟩ := getP_ok h
  split at h'
  · cases h'; exact ⟨Oth.refl, hP⟩
  · rename_i he
    have hi : Idle c1 i := fun q hq hqi => by
      rw [sorted_inj hs hq hp (hqi.trans hpi.symm)]
      simpa using he
    obtain ⟨k, c2, h1, h2⟩ := bind_ok h'
    obtain ⟨rr, c3, h3, h4⟩ := bind_ok h2
    have e2 : c2 = c1 := by
      unfold deref memIfNone at h1
      split at h1
      · cases h1
      · cases h1; rfl
    subst e2
    have e3 : c3 = c2 := by
      unfold getR at h3
      obtain ⟨p', c4, h5, h6⟩ := bind_ok h3
      obtain ⟨rfl, _⟩ := getP_ok h5
      cases hx : p'.remotes[k]? with
      | none => simp only [hx] at h6; cases h6
      | some _ => simp only [hx] at h6; cases h6; rfl
    subst e3
    split at h4
    · cases h4; exact ⟨Oth.refl, hP⟩
    · obtain ⟨a, c4, h5, h6⟩ := bind_ok h4
      have e4 : c4 = c3 := by
        unfold memIfNone at h5
        cases hx : rr.addrs[rr.cur]? with
        | none => simp only [hx] at h5; cases h5
        | some _ => simp only [hx] at h5; cases h5; rfl
      subst e4
      obtain ⟨_, c5, h7, h8⟩ := bind_ok h6
      obtain ⟨o5, hP5⟩ := tk_claimAddress hs hn hP hi h7
      obtain ⟨o6, hP6⟩ := (by tk [tk_resetSocket _] : Tk i P P (do
        resetSocket i
        pure true : M Bool)) _ _ _ (o5.sorted hs) (by rw [o5.now]; exact hn) hP5 h8
      exact ⟨o5.trans o6, hP6⟩

theorem tk_sendHandshake {r : Option Nat} (hok : Hsc P fun now t => now < t) : Tk i P P (sendHandshake i r) := by
  unfold sendHandshake; tk [tk_chooseAddress _, tk_handshakeInit hok]

theorem tk_advanceRemote (r : Option Nat) : Tk i P P (advanceRemote i r) := by
  unfold advanceRemote
  refine Tk.bind' Tk.getP fun p c c1 hs hn hP h hs1 hn1 hP1 b c' h' => ?_
  obtain ⟨rfl, hp, hpi⟩ := getP_ok h
  split at h'
  · cases h'; exact ⟨Oth.refl, hP⟩
  · rename_i he
    have hi : Ownt i (fun now k => P now k ∧ k.est = false) c1 := fun q hq hqi => ⟨hP q hq hqi, by
      show q.isEstablished = false
      rw [sorted_inj hs hq hp (hqi.trans hpi.symm)]
      simpa using he⟩
    have : Tk i (fun now k => P now k ∧ k.est = false) P (modP i fun p => { p with state := .handshake }) :=
      Tk.own (fun _ => rfl) fun now q _ ⟨h1, h2⟩ => by
        have e : ({ q with state := .handshake } : Peer).tm = q.tm := by
          have h2' : q.isEstablished = false := h2
          unfold Peer.tm
          rw [h2']
          rfl
        rw [e]; exact h1
    refine (Tk.bind (tk_deref r) fun k => Tk.bind this fun _ => ?_ : Tk i (fun now k => P now k ∧ k.est = false) P _) c1 b c' hs hn hi h'
    tk [tk_modR _ _ _, tk_getR _ _, tk_nextRemote _]

/-- The handshake part puts off the next handshake. -/
theorem tk_handleTaskHandshake (hP : ∀ now k t, now < t → P now k → Q now { k with nextHs := t }) (hQ : Hsc Q fun now t => now < t) :
    Tk i P Q (handleTaskHandshake i) := by
  unfold handleTaskHandshake
  refine Tk.bind (tk_setNextHandshakeDefault hP) fun _ => ?_
  tk [tk_sendHandshake hQ, tk_advanceRemote _, tk_nextRemote _]

/-! ### The keepalive part -/

/-- The peer is not about to be reset, except if it is dynamic. -/
def Stays (now : Time) (k : Tm) : Prop := now < k.reset ∨ k.dyn = true

theorem stays_hs : Hsc Stays fun _ _ => True := fun _ _ _ _ h => h

theorem tk_freeState (o : Option Nat) : Tk i P P (freeState o) := by unfold freeState; tk [Tk.unit]

theorem tk_freeSession (s : Session) : Tk i P P (freeSession s) := by unfold freeSession; tk [tk_freeState _]

theorem tk_resetPeerState (j : Nat) : Tk i P P (resetPeerState j) := by unfold resetPeerState; tk [tk_freeSession _]

theorem tk_resetPeer (hP : ∀ now k, P now k → P now { k with est := false }) : Tk i P P (resetPeer i) := by
  unfold resetPeer
  tk [tk_freeSocket _, tk_resetPeerState _, tk_htRemove _, Tk.own (fun _ => rfl) (fun _ p _ h => hP _ _ h), Tk.own (fun _ => rfl) (fun _ _ _ h => h)]

/-- Any times. -/
def Anyt (_ : Time) (_ : Tm) : Prop := True

theorem tk_initHandshake : Tk i Stays Stays (initHandshake i) := by
  have h1 : ∀ g, Tk i Stays Stays (initDelay g) := fun g => by unfold initDelay; tk [Tk.unit]
  have h2 : ∀ d, Tk i Stays Stays (setNextHandshake i d) := fun d => tk_setNextHandshake (ok := fun _ _ => True) stays_hs fun _ => trivial
  unfold initHandshake scheduleHandshake
  tk [h1 _, h2 _, tk_schedulePeerTask, Tk.own (fun _ => rfl) (fun _ _ _ h => h)]

theorem tk_setupPeer : Tk i Anyt Stays (setupPeer i) := by
  have h1 : Tk i Stays Stays (setupIface i) := by unfold setupIface; tk [Tk.unit]
  have h2 : Tk i Stays Stays (setupConnect i) := by
    unfold setupConnect
    tk [tk_getR _ _, tk_modR _ _ _, tk_resolvePeer _ _, tk_setNextHandshakeDefault (fun _ _ _ _ h => h), tk_initHandshake,
      Tk.own (fun _ => rfl) (fun _ _ _ h => h)]
  unfold setupPeer
  refine Tk.bind' (Q := Anyt) Tk.get fun c0 c c1 hs hn hP h hs1 hn1 hP1 b c' h' => ?_
  cases h
  obtain ⟨_, c2, h3, h4⟩ := bind_ok h'
  obtain ⟨_, e2⟩ := modP_ok h3
  have hid : ∀ p : Peer, (setupFields c0.now p).id = p.id := fun _ => rfl
  have o2 : Oth i c0 c2 ∧ Ownt i Stays c2 := by
    rw [e2]
    refine ⟨Oth.upd hid fun h => absurd rfl h, fun p hp hpi => ?_⟩
    rcases mem_upd_cases hp with ⟨_, hne⟩ | ⟨q, hq, hqi, rfl⟩
    · exact absurd hpi hne
    · show _ < (if q.isDynamic then c0.now else timeoutInv) ∨ q.isDynamic = true
      cases hd : q.isDynamic with
      | true => exact .inr rfl
      | false => exact .inl hn
  obtain ⟨o3, hP3⟩ := (by tk [h1, h2, tk_schedulePeerTask] : Tk i Stays Stays (do
    let p ← getP i
    if !p.isEnabled then pure ()
    else
      setupIface i
      setupConnect i
      schedulePeerTask i : M Unit)) _ _ _ (o2.1.sorted hs) (by rw [o2.1.now]; exact hn) o2.2 h4
  exact ⟨o2.1.trans o3, hP3⟩

theorem tk_peerReset : Tk i Anyt Stays (peerReset i) := by
  unfold peerReset
  refine Tk.bind (Q := Anyt) Tk.getP fun p => Tk.bind (Tk.when (tk_resetPeer fun _ _ h => h)) fun _ => tk_setupPeer

theorem Tk.weaken {m : M α} (h : Tk i Anyt Q m) : Tk i P Q m := fun c a c' hs hn _ hm => h c a c' hs hn (fun _ _ _ => trivial) hm

theorem tk_getObj (h : Nat) : Tk i P P (getObj h) := by unfold getObj; tk [tk_memIfNone _]

theorem tk_sessionValid (s : Session) : Tk i P P (sessionValid s) := by unfold sessionValid; tk [tk_getObj _]

theorem tk_checkSession : Tk i Stays Stays (checkSession i) := by
  unfold checkSession; tk [tk_sessionValid _, Tk.weaken tk_peerReset]

theorem tk_wantRefresh (s : Session) : Tk i P P (wantRefresh s) := by unfold wantRefresh; tk [tk_deref _, tk_getObj _]

theorem tk_checkSessionRefresh : Tk i Stays Stays (checkSessionRefresh i) := by
  have h2 : ∀ d, Tk i Stays Stays (setNextHandshake i d) := fun d => tk_setNextHandshake (ok := fun _ _ => True) stays_hs fun _ => trivial
  unfold checkSessionRefresh scheduleHandshake; tk [tk_wantRefresh _, h2 _, tk_schedulePeerTask]

theorem tk_isInitiator (s : Session) : Tk i P P (isInitiator s) := by unfold isInitiator; tk [tk_deref _, tk_getObj _]

theorem tk_useOldSession (p : Peer) : Tk i P P (useOldSession p) := by unfold useOldSession; tk [tk_isInitiator _, tk_sessionValid _]

theorem tk_clearKeepalive (hok : ∀ now k t, now < t → P now k → Q now { k with keepalive := t }) : Tk i P Q (clearKeepalive i) := by
  unfold clearKeepalive
  refine Tk.bind' Tk.get fun c0 c c1 hs hn hP h hs1 hn1 hP1 b c' h' => ?_
  cases h
  obtain ⟨_, rfl⟩ := modP_ok h'
  refine ⟨Oth.upd (fun _ => rfl) fun h => absurd rfl h, fun p hp hpi => ?_⟩
  rcases mem_upd_cases hp with ⟨_, hne⟩ | ⟨q, hq, hqi, rfl⟩
  · exact absurd hpi hne
  · refine hok _ _ _ ?_ (hP q hq hqi)
    have : (0 : Time) < KEEPALIVE_TIMEOUT := by decide
    exact Int.lt_add_of_pos_right _ this

theorem tk_sessionSend (s : Session) (d : Bytes) : Tk i Stays Stays (sessionSend i s d) := by
  unfold sessionSend
  refine Tk.bind (tk_deref _) fun m => Tk.bind (tk_deref _) fun h => Tk.bind (tk_getObj _) fun o => ?_
  split
  · exact Tk.pure
  · have : ∀ h x, Tk i Stays Stays (setObj h x) := fun h x => by unfold setObj; tk [Tk.unit]
    tk [this _ _, tk_send (fun _ _ _ _ h => h), tk_clearKeepalive (fun _ _ _ _ h => h)]

theorem tk_protocolSend (d : Bytes) : Tk i Stays Stays (protocolSend i d) := by
  unfold protocolSend
  tk [tk_checkSession, tk_checkSessionRefresh, tk_useOldSession _, tk_sessionSend _ _]

/-! ### The task -/

theorem tk_handleTaskKeepalive : Tk i Stays (fun now k => Stays now k ∧ now < k.keepalive) (handleTaskKeepalive i) := by
  unfold handleTaskKeepalive
  refine Tk.bind' Tk.getP fun p c c1 hs hn hP h hs1 hn1 hP1 b c' h' => ?_
  obtain ⟨rfl, hp, hpi⟩ := getP_ok h
  obtain ⟨c0, c2, h3, h4⟩ := bind_ok h'
  cases h3
  split at h4
  · exact (Tk.bind (tk_protocolSend _) fun _ => tk_clearKeepalive fun _ _ _ ht hk => ⟨hk, ht⟩ :
      Tk i Stays (fun now k => Stays now k ∧ now < k.keepalive) _) _ _ _ hs hn hP h4
  · rename_i ht
    cases h4
    refine ⟨Oth.refl, fun q hq hqi => ⟨hP q hq hqi, ?_⟩⟩
    rw [sorted_inj hs hq hp (hqi.trans hpi.symm)]
    show _ < p.keepalive
    simpa [timedOut] using ht

theorem tk_handleTaskDueHandshake : Tk i (fun now k => Stays now k ∧ now < k.keepalive)
    (fun now k => Stays now k ∧ now < k.keepalive ∧ now < k.nextHs) (handleTaskDueHandshake i) := by
  unfold handleTaskDueHandshake
  refine Tk.bind' Tk.getP fun p c c1 hs hn hP h hs1 hn1 hP1 b c' h' => ?_
  obtain ⟨rfl, hp, hpi⟩ := getP_ok h
  obtain ⟨c0, c2, h3, h4⟩ := bind_ok h'
  cases h3
  split at h4
  · exact tk_handleTaskHandshake (P := fun now k => Stays now k ∧ now < k.keepalive)
      (Q := fun now k => Stays now k ∧ now < k.keepalive ∧ now < k.nextHs) (fun _ _ _ ht hk => ⟨hk.1, hk.2, ht⟩)
      (fun _ _ _ ht hk => ⟨hk.1, hk.2.1, ht⟩) _ _ _ hs hn hP h4
  · rename_i ht
    cases h4
    refine ⟨Oth.refl, fun q hq hqi => ⟨(hP q hq hqi).1, (hP q hq hqi).2, ?_⟩⟩
    rw [sorted_inj hs hq hp (hqi.trans hpi.symm)]
    show _ < p.nextHs
    simpa [timedOut] using ht

end Fastd.Daemon
