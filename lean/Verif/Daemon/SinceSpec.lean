import Verif.Daemon.History

/-!
# Since when peers are established

`Es Q m`: the time since which a peer is established changes only when on-establish is run for it in `m`. Helper lemmas.
-/

namespace Fastd.Daemon

set_option linter.unusedSectionVars false

variable [Env] {α β : Type} {Q : Prop}

/-- Peers that are established have become so now (only if `Q`), for which on-establish has been run, or have been before, and on-establish has not been run again. -/
def ERel (Q : Prop) (c c' : Ctx) : Prop :=
  c'.now = c.now ∧ ∃ l, c'.log = c.log ++ l ∧ ∀ p' ∈ c'.peers, p'.state = .established →
    (Q ∧ p'.established = c.now ∧ .established p'.id ∈ l) ∨
    (.established p'.id ∉ l ∧ ∃ p ∈ c.peers, p.id = p'.id ∧ p.state = .established ∧ p'.established = p.established)

theorem ERel.logged {c c' : Ctx} (l : List Eff) (h1 : c'.now = c.now) (h2 : c'.peers = c.peers) (h3 : c'.log = c.log ++ l)
    (h4 : ∀ i, .established i ∉ l) : ERel Q c c' :=
  ⟨h1, l, h3, fun p hp he => .inr ⟨h4 _, p, by rw [← h2]; exact hp, rfl, he, rfl⟩⟩

theorem ERel.same {c c' : Ctx} (h1 : c'.now = c.now) (h2 : c'.peers = c.peers) (h3 : c'.log = c.log) : ERel Q c c' :=
  .logged [] h1 h2 (by simp [h3]) (by simp)

theorem ERel.refl (c : Ctx) : ERel Q c c := .same rfl rfl rfl

theorem ERel.trans {c c' c'' : Ctx} (h : ERel Q c c') (h' : ERel Q c' c'') : ERel Q c c'' := by
  obtain ⟨n1, l1, g1, r1⟩ := h
  obtain ⟨n2, l2, g2, r2⟩ := h'
  refine ⟨n2.trans n1, l1 ++ l2, by rw [g2, g1, List.append_assoc], fun p hp he => ?_⟩
  rcases r2 p hp he with ⟨h0, h1, h2⟩ | ⟨h1, q, hq, hi, hs, ht⟩
  · exact .inl ⟨h0, h1.trans n1, List.mem_append_right _ h2⟩
  · rcases r1 q hq hs with ⟨h0, h3, h4⟩ | ⟨h3, r, hr, hri, hrs, hrt⟩
    · exact .inl ⟨h0, ht.trans h3, List.mem_append_left _ (by rw [← hi]; exact h4)⟩
    · refine .inr ⟨fun h => ?_, r, hr, hri.trans hi, hrs, ht.trans hrt⟩
      rcases List.mem_append.1 h with h | h
      · exact h3 (by rw [hi]; exact h)
      · exact h1 h

/-- The same for one state. -/
def EsAt (Q : Prop) (c : Ctx) (m : M α) : Prop := ∀ a c', m c = .ok (a, c') → ERel Q c c'

def Es (Q : Prop) (m : M α) : Prop := ∀ c, EsAt Q c m

theorem Es.pure {a : α} : Es Q (Pure.pure a : M α) := fun c _ _ h => by cases h; exact ERel.refl c

theorem Es.unit : Es Q (Pure.pure () : M Unit) := Es.pure

theorem Es.fail {e : Fail} : Es Q (fail e : M α) := fun _ _ _ h => by cases h

theorem Es.fuel : Es Q (Daemon.fail .fuel : M α) := Es.fail

theorem Es.get : Es Q get := fun c _ _ h => by cases h; exact ERel.refl c

theorem Es.modify {f : Ctx → Ctx} (h1 : ∀ c, (f c).now = c.now) (h2 : ∀ c, (f c).peers = c.peers) (h3 : ∀ c, (f c).log = c.log) :
    Es Q (modify f) :=
  fun c _ _ h => by cases h; exact ERel.same (h1 c) (h2 c) (h3 c)

theorem Es.draw : Es Q draw := fun _ _ _ h => by cases h; exact ERel.same rfl rfl rfl

theorem Es.emit {e : Eff} (he : ∀ i, e ≠ .established i) : Es Q (emit e) := fun c _ _ h => by
  cases h
  exact ERel.logged [e] rfl rfl rfl fun i h => he i (List.mem_singleton.1 h).symm

theorem EsAt.bind {c : Ctx} {m : M α} {f : α → M β} (h : EsAt Q c m) (hf : ∀ a, Es Q (f a)) : EsAt Q c (m >>= f) := by
  intro b c' hm
  rw [bind_def] at hm
  cases hm1 : m c with
  | error e => rw [hm1] at hm; cases hm
  | ok v =>
    obtain ⟨a, c1⟩ := v
    rw [hm1] at hm
    exact (h a c1 hm1).trans (hf a c1 b c' hm)

theorem Es.bind {m : M α} {f : α → M β} (h : Es Q m) (hf : ∀ a, Es Q (f a)) : Es Q (m >>= f) :=
  fun c => EsAt.bind (h c) hf

theorem Es.drawBool : Es Q drawBool := Es.bind Es.draw fun _ => Es.pure
theorem Es.rand {x y : Time} : Es Q (rand x y) := Es.bind Es.draw fun _ => Es.pure

theorem Es.ite {p : Prop} [Decidable p] {m m' : M α} (h : Es Q m) (h' : Es Q m') : Es Q (if p then m else m') := by
  split
  · exact h
  · exact h'

theorem Es.when {p : Bool} {m : M Unit} (h : Es Q m) : Es Q (when p m) := by
  unfold Daemon.when
  exact Es.ite h Es.pure

theorem Es.getP {i : Nat} : Es Q (getP i) := by
  unfold Daemon.getP
  refine Es.bind Es.get fun _ => ?_
  split
  · exact Es.pure
  · exact Es.fail

theorem Es.modP' {i : Nat} {f : Peer → Peer} (hf : ∀ p, (f p).id = p.id ∧
    ((f p).state = .established → p.state = .established ∧ (f p).established = p.established)) : Es Q (modP i f) := by
  intro c a c' h
  unfold Daemon.modP at h
  rw [bind_def] at h
  cases hg : Daemon.getP i c with
  | error e => rw [hg] at h; cases h
  | ok v =>
    obtain ⟨p0, c1⟩ := v
    rw [hg] at h
    obtain ⟨h1, _⟩ := getP_ok hg
    subst h1
    cases h
    refine ⟨rfl, [], by simp, fun p' hp' => ?_⟩
    unfold updPeers at hp'
    obtain ⟨p, hp, rfl⟩ := List.mem_map.1 hp'
    split
    · intro he
      obtain ⟨h1, h2⟩ := hf p
      exact .inr ⟨by simp, p, hp, h1.symm, h2 he⟩
    · exact fun he => .inr ⟨by simp, p, hp, rfl, he, rfl⟩

theorem Es.modP {i : Nat} {f : Peer → Peer} (hf : ∀ p, (f p).id = p.id ∧ (f p).state = p.state ∧ (f p).established = p.established) :
    Es Q (Daemon.modP i f) :=
  Es.modP' fun p => ⟨(hf p).1, fun h => ⟨by rw [← (hf p).2.1]; exact h, (hf p).2.2⟩⟩

theorem Es.modPOff {i : Nat} {f : Peer → Peer} (hf : ∀ p, (f p).id = p.id ∧ (f p).state ≠ .established) : Es Q (Daemon.modP i f) :=
  Es.modP' fun p => ⟨(hf p).1, fun h => absurd h (hf p).2⟩

theorem Es.forEach {f : α → M Unit} (hf : ∀ a, Es Q (f a)) (l : List α) : Es Q (forEach f l) := by
  induction l with
  | nil => exact Es.pure
  | cons a as ih => exact Es.bind (hf a) fun _ => ih

/-- Proves `Es` for a program of known parts. -/
syntax "es" "[" term,* "]" : tactic

macro_rules
  | `(tactic| es [$ls,*]) => `(tactic| repeat' (first
      | exact Es.pure
      | exact Es.fail
      | exact Es.get
      | exact Es.getP
      | exact Es.modP (fun _ => ⟨rfl, rfl, rfl⟩)
      | ((with_reducible refine Es.modPOff (fun _ => ⟨?_, ?_⟩)); (· rfl); (· intro h; cases h))
      | (refine Es.modP (fun _ => ?_); ((repeat' split) <;> exact ⟨rfl, rfl, rfl⟩))
      | exact Es.draw
      | exact Es.drawBool
      | exact Es.rand
      | exact Es.modify (fun _ => rfl) (fun _ => rfl) (fun _ => rfl)
      | ((with_reducible refine Es.emit ?_); (intro _ h; cases h))
      | (first $[| exact $(ls.getElems)]*)
      | with_reducible refine Es.bind ?_ fun _ => ?_
      | with_reducible refine Es.when ?_
      | with_reducible refine Es.forEach (fun _ => ?_) _
      | with_reducible refine Es.ite ?_ ?_
      | split))

theorem es_htInsertFuel (n i : Nat) : Es Q (htInsertFuel n i) := by
  induction n generalizing i with
  | zero => exact Es.fuel
  | succ n ih => unfold htInsertFuel; es [ih _]

theorem es_htInsert (i : Nat) : Es Q (htInsert i) := es_htInsertFuel 2 i

theorem es_htRemove : ∀ x0, Es Q (htRemove x0) := by
  intro x0; unfold htRemove; es [Es.unit]

theorem es_htScan (a : Addr) (l : List Nat) : Es Q (htScan a l) := by
  induction l with
  | nil => exact Es.pure
  | cons i l ih => unfold htScan; es [ih]

theorem es_htLookup : ∀ x0, Es Q (htLookup x0) := by
  intro x0; unfold htLookup; es [es_htScan _ _]

theorem es_ethPut (o : Option Nat) (a : Bytes) : Es Q (ethPut o a) := by
  unfold ethPut
  refine Es.bind Es.get fun c => ?_
  split
  · exact fun _ _ _ h => by cases h
  · es [Es.unit]
  · es [Es.unit]

theorem es_ethAdd : ∀ x0 x1, Es Q (ethAdd x0 x1) := by
  intro x0 x1; unfold ethAdd; es [es_ethPut _ _]

theorem es_sockLive : ∀ x0, Es Q (sockLive x0) := by
  intro x0; unfold sockLive; es [Es.unit]

theorem es_sockPeer : ∀ x0, Es Q (sockPeer x0) := by
  intro x0; unfold sockPeer; es [Es.unit]

theorem es_freeSocket : ∀ x0, Es Q (freeSocket x0) := by
  intro x0; unfold freeSocket; es [es_sockPeer _]

theorem es_socketOpen : ∀ x0, Es Q (socketOpen x0) := by
  intro x0; unfold socketOpen; es [Es.unit]

theorem es_newSocket : ∀ x0 x1, Es Q (newSocket x0 x1) := by
  intro x0 x1; unfold newSocket; es [es_socketOpen _]

theorem es_resetSocket : ∀ x0, Es Q (resetSocket x0) := by
  intro x0; unfold resetSocket; es [es_freeSocket _, es_newSocket _ _]

theorem es_schedulePeerTask : ∀ x0, Es Q (schedulePeerTask x0) := by
  intro x0; unfold schedulePeerTask; es [Es.unit]

theorem es_setNextHandshake : ∀ x0 x1, Es Q (setNextHandshake x0 x1) := by
  intro x0 x1; unfold setNextHandshake; es [Es.unit]

theorem es_handshakeDefaultRand : Es Q (handshakeDefaultRand) := by
  unfold handshakeDefaultRand; es [Es.unit]

theorem es_setNextHandshakeDefault : ∀ x0, Es Q (setNextHandshakeDefault x0) := by
  intro x0; unfold setNextHandshakeDefault; es [es_handshakeDefaultRand, es_setNextHandshake _ _]

theorem es_scheduleHandshake : ∀ x0 x1, Es Q (scheduleHandshake x0 x1) := by
  intro x0 x1; unfold scheduleHandshake; es [es_setNextHandshake _ _, es_schedulePeerTask _]

theorem es_scheduleHandshakeDefault : ∀ x0, Es Q (scheduleHandshakeDefault x0) := by
  intro x0; unfold scheduleHandshakeDefault; es [es_handshakeDefaultRand, es_scheduleHandshake _ _]

theorem es_freeState : ∀ x0, Es Q (freeState x0) := by
  intro x0; unfold freeState; es [Es.unit]

theorem es_freeSession : ∀ x0, Es Q (freeSession x0) := by
  intro x0; unfold freeSession; es [es_freeState _]

theorem es_resetPeerState : ∀ x0, Es Q (resetPeerState x0) := by
  intro x0; unfold resetPeerState; es [es_freeSession _]

theorem es_resetPeer : ∀ x0, Es Q (resetPeer x0) := by
  intro x0; unfold resetPeer; es [es_freeSocket _, es_resetPeerState _, es_htRemove _]

theorem es_initDelay : ∀ x0, Es Q (initDelay x0) := by
  intro x0; unfold initDelay; es [Es.unit]

theorem es_initHandshake : ∀ x0, Es Q (initHandshake x0) := by
  intro x0; unfold initHandshake; es [es_initDelay _, es_scheduleHandshake _ _]

theorem es_getR : ∀ x0 x1, Es Q (getR x0 x1) := by
  intro x0 x1; unfold getR; es [Es.unit]

theorem es_modR : ∀ x0 x1 x2, Es Q (modR x0 x1 x2) := by
  intro x0 x1 x2; unfold modR; es [es_getR _ _]

theorem es_resolvePeer : ∀ x0 x1, Es Q (resolvePeer x0 x1) := by
  intro x0 x1; unfold resolvePeer; es [es_getR _ _, es_modR _ _ _]

theorem es_setupIface : ∀ x0, Es Q (setupIface x0) := by
  intro x0; unfold setupIface; es [Es.unit]

theorem es_setupConnect : ∀ x0, Es Q (setupConnect x0) := by
  intro x0; unfold setupConnect; es [es_getR _ _, es_modR _ _ _, es_resolvePeer _ _, es_setNextHandshakeDefault _, es_initHandshake _]

theorem es_setupPeer : ∀ x0, Es Q (setupPeer x0) := by
  intro x0; unfold setupPeer; es [es_setupIface _, es_setupConnect _, es_schedulePeerTask _]

theorem es_peerReset : ∀ x0, Es Q (peerReset x0) := by
  intro x0; unfold peerReset; es [es_resetPeer _, es_setupPeer _]

theorem Es.erase {k : Nat} : Es Q (Daemon.modify fun c => { c with peers := c.peers.eraseIdx k }) := by
  intro c a c' h
  cases h
  exact ⟨rfl, [], by simp, fun p hp he => .inr ⟨by simp, p, (List.eraseIdx_sublist _ _).subset hp, rfl, he, rfl⟩⟩

theorem es_deletePeer : ∀ x0, Es Q (deletePeer x0) := by
  intro x0; unfold deletePeer; es [es_resetPeerState _, Es.erase]

theorem es_peerDelete : ∀ x0, Es Q (peerDelete x0) := by
  intro x0; unfold peerDelete; es [es_resetPeer _, es_deletePeer _]

theorem es_handleResolve : ∀ x0 x1 x2, Es Q (handleResolve x0 x1 x2) := by
  intro x0 x1 x2; unfold handleResolve; es [es_modR _ _ _, es_initHandshake _]

theorem es_resetPeerAddress : ∀ x0, Es Q (resetPeerAddress x0) := by
  intro x0; unfold resetPeerAddress; es [es_peerReset _, es_htRemove _]

theorem es_claimSock : ∀ x0 x1, Es Q (claimSock x0 x1) := by
  intro x0 x1; unfold claimSock; es [es_sockLive _, es_freeSocket _]

theorem es_claimFinish : ∀ x0 x1 x2 x3, Es Q (claimFinish x0 x1 x2 x3) := by
  intro x0 x1 x2 x3; unfold claimFinish; es [es_htRemove _, es_htInsert _, es_claimSock _ _]

theorem es_claimAddress : ∀ x0 x1 x2 x3 x4, Es Q (claimAddress x0 x1 x2 x3 x4) := by
  intro x0 x1 x2 x3 x4; unfold claimAddress; es [es_peerReset _, es_claimFinish _ _ _ _, es_resetPeerAddress _]

theorem es_addNew {q : Peer} (hq : q.state ≠ .established) : Es Q (addNew q) := by
  unfold addNew
  refine Es.bind Es.get fun _ => Es.bind ?_ fun _ => Es.pure
  intro c a c' h
  cases h
  refine ⟨rfl, [], by simp, fun p hp he => ?_⟩
  rcases List.mem_append.1 hp with hp | hp
  · exact .inr ⟨by simp, p, hp, rfl, he, rfl⟩
  · cases List.mem_singleton.1 hp
    exact absurd he hq

theorem es_peerAdd {q : Peer} (hq : q.state ≠ .established) : Es Q (peerAdd q) := by
  unfold peerAdd; es [es_addNew hq, es_peerDelete _]

theorem es_sendRetry : ∀ x0 x1, Es Q (send.sendRetry x0 x1) := by
  intro x0 x1; unfold send.sendRetry; es [es_scheduleHandshakeDefault _]

theorem es_send : ∀ x0 x1 x2 x3 x4, Es Q (send x0 x1 x2 x3 x4) := by
  intro x0 x1 x2 x3 x4; unfold send; es [es_sockLive _, es_sendRetry _ _]

theorem es_bugIfNone (o : Option α) : Es Q (bugIfNone o) := by unfold bugIfNone; es [Es.unit]

theorem es_memIfNone (o : Option α) : Es Q (memIfNone o) := by unfold memIfNone; es [Es.unit]

theorem es_deref (o : Option α) : Es Q (deref o) := es_memIfNone o

theorem es_sendHandshakePkt : ∀ x0 x1 x2 x3 x4 x5, Es Q (sendHandshakePkt x0 x1 x2 x3 x4 x5) := by
  intro x0 x1 x2 x3 x4 x5; unfold sendHandshakePkt; es [es_send _ _ _ _ _]

theorem es_sendError : ∀ x0 x1 x2 x3 x4 x5 x6 x7, Es Q (sendError x0 x1 x2 x3 x4 x5 x6 x7) := by
  intro x0 x1 x2 x3 x4 x5 x6 x7; unfold sendError; es [es_bugIfNone _, es_sendHandshakePkt _ _ _ _ _ _]

theorem es_protoMaintenance : Es Q protoMaintenance := by
  intro c a c' h
  cases h
  exact ERel.same rfl rfl rfl

theorem es_peerKeyOf : ∀ x0, Es Q (peerKeyOf x0) := by
  intro x0; unfold peerKeyOf; es [Es.unit]

theorem es_handshakeInit : ∀ x0 x1 x2 x3, Es Q (handshakeInit x0 x1 x2 x3) := by
  intro x0 x1 x2 x3; unfold handshakeInit; es [es_protoMaintenance, es_peerKeyOf _, es_bugIfNone _, es_sendHandshakePkt _ _ _ _ _ _]

theorem es_getObj : ∀ x0, Es Q (getObj x0) := by
  intro x0; unfold getObj; es [es_memIfNone _]

theorem es_setObj : ∀ x0 x1, Es Q (setObj x0 x1) := by
  intro x0 x1; unfold setObj; es [Es.unit]

theorem es_sessionValid : ∀ x0, Es Q (sessionValid x0) := by
  intro x0; unfold sessionValid; es [es_getObj _]

theorem es_wantRefresh : ∀ x0, Es Q (wantRefresh x0) := by
  intro x0; unfold wantRefresh; es [es_deref _, es_getObj _]

theorem es_checkSessionRefresh : ∀ x0, Es Q (checkSessionRefresh x0) := by
  intro x0; unfold checkSessionRefresh; es [es_wantRefresh _, es_scheduleHandshake _ _]

theorem es_checkSession : ∀ x0, Es Q (checkSession x0) := by
  intro x0; unfold checkSession; es [es_sessionValid _, es_peerReset _]

theorem es_isInitiator : ∀ x0, Es Q (isInitiator x0) := by
  intro x0; unfold isInitiator; es [es_deref _, es_getObj _]

theorem es_useOldSession : ∀ x0, Es Q (useOldSession x0) := by
  intro x0; unfold useOldSession; es [es_isInitiator _, es_sessionValid _]

theorem es_clearKeepalive : ∀ x0, Es Q (clearKeepalive x0) := by
  intro x0; unfold clearKeepalive; es [Es.unit]

theorem es_sessionSend : ∀ x0 x1 x2, Es Q (sessionSend x0 x1 x2) := by
  intro x0 x1 x2; unfold sessionSend; es [es_deref _, es_getObj _, es_setObj _ _, es_send _ _ _ _ _, es_clearKeepalive _]

theorem es_protocolSend : ∀ x0 x1, Es Q (protocolSend x0 x1) := by
  intro x0 x1; unfold protocolSend; es [es_checkSession _, es_checkSessionRefresh _, es_useOldSession _, es_sessionSend _ _ _]

theorem es_sendEmpty : ∀ x0, Es Q (sendEmpty x0) := by
  intro x0; unfold sendEmpty; es [es_sessionSend _ _ _]

theorem es_sendOne : ∀ x0 x1 x2, Es Q (sendOne x0 x1 x2) := by
  intro x0 x1 x2; unfold sendOne; es [es_protocolSend _ _]

theorem es_sendAll (d : Bytes) (s : Option Nat) (n k : Nat) : Es Q (sendAll d s n k) := by
  induction n generalizing k with
  | zero => exact Es.fuel
  | succ n ih => unfold sendAll; es [es_sendOne _ _ _, ih _]

theorem es_learnLocal : ∀ x0 x1, Es Q (learnLocal x0 x1) := by
  intro x0 x1; unfold learnLocal; es [es_ethAdd _ _]

theorem es_sendTapSingle : ∀ x0 x1, Es Q (sendTapSingle x0 x1) := by
  intro x0 x1; unfold sendTapSingle; es [es_learnLocal _ _, es_protocolSend _ _]

theorem es_sendData : ∀ x0 x1 x2, Es Q (sendData x0 x1 x2) := by
  intro x0 x1 x2; unfold sendData; es [es_sendTapSingle _ _, es_protocolSend _ _, es_sendAll _ _ _ _]

theorem es_learnRemote : ∀ x0 x1, Es Q (learnRemote x0 x1) := by
  intro x0 x1; unfold learnRemote; es [es_ethAdd _ _]

theorem es_handleReceive : ∀ x0 x1, Es Q (handleReceive x0 x1) := by
  intro x0 x1; unfold handleReceive; es [es_learnRemote _ _, es_sendData _ _ _]

theorem es_decryptWith : ∀ x0 x1 x2, Es Q (decryptWith x0 x1 x2) := by
  intro x0 x1 x2; unfold decryptWith; es [es_deref _, es_getObj _, es_setObj _ _]

theorem es_tryOld : ∀ x0 x1, Es Q (tryOld x0 x1) := by
  intro x0 x1; unfold tryOld; es [es_sessionValid _, es_decryptWith _ _ _]

theorem es_dropOld : ∀ x0, Es Q (dropOld x0) := by
  intro x0; unfold dropOld; es [es_freeState _]

theorem es_unscheduleHandshake : ∀ x0, Es Q (unscheduleHandshake x0) := by
  intro x0; unfold unscheduleHandshake; es [Es.unit]

theorem es_cleanHandshakes : ∀ x0, Es Q (cleanHandshakes x0) := by
  intro x0; unfold cleanHandshakes; es [es_unscheduleHandshake _, es_isInitiator _, es_sendEmpty _]

theorem es_seen : ∀ x0, Es Q (seen x0) := by
  intro x0; unfold seen; es [Es.unit]

theorem es_setVerifying : ∀ x0, Es Q (setVerifying x0) := by
  intro x0; unfold setVerifying; es [Es.unit]

theorem es_setVerified : ∀ x0 x1, Es Q (setVerified x0 x1) := by
  intro x0 x1; unfold setVerified; es [Es.unit]

theorem es_deliver : ∀ x0 x1, Es Q (deliver x0 x1) := by
  intro x0 x1; unfold deliver; es [es_seen _, es_handleReceive _ _]

theorem es_handleRecv : ∀ x0 x1, Es Q (handleRecv x0 x1) := by
  intro x0 x1; unfold handleRecv; es [es_checkSession _, es_tryOld _ _, es_deliver _ _, es_decryptWith _ _ _, es_dropOld _, es_cleanHandshakes _, es_checkSessionRefresh _]

theorem es_chooseAddress : ∀ x0 x1, Es Q (chooseAddress x0 x1) := by
  intro x0 x1; unfold chooseAddress; es [es_deref _, es_getR _ _, es_memIfNone _, es_claimAddress _ _ _ _ _, es_resetSocket _]

theorem es_sendHandshake : ∀ x0 x1, Es Q (sendHandshake x0 x1) := by
  intro x0 x1; unfold sendHandshake; es [es_chooseAddress _ _, es_handshakeInit _ _ _ _]

theorem es_nextRemote : ∀ x0, Es Q (nextRemote x0) := by
  intro x0; unfold nextRemote; es [es_deref _, es_modR _ _ _, es_getR _ _, es_resolvePeer _ _]

theorem es_advanceRemote : ∀ x0 x1, Es Q (advanceRemote x0 x1) := by
  intro x0 x1; unfold advanceRemote; es [es_deref _, es_modR _ _ _, es_getR _ _, es_nextRemote _]

theorem es_handleTaskHandshake : ∀ x0, Es Q (handleTaskHandshake x0) := by
  intro x0; unfold handleTaskHandshake; es [es_setNextHandshakeDefault _, es_sendHandshake _ _, es_advanceRemote _ _, es_nextRemote _]

theorem es_handleTaskKeepalive : ∀ x0, Es Q (handleTaskKeepalive x0) := by
  intro x0; unfold handleTaskKeepalive; es [es_protocolSend _ _, es_clearKeepalive _]

theorem es_handleTaskDueHandshake : ∀ x0, Es Q (handleTaskDueHandshake x0) := by
  intro x0; unfold handleTaskDueHandshake; es [es_handleTaskHandshake _]

theorem es_peerTask : ∀ x0, Es Q (peerTask x0) := by
  intro x0; unfold peerTask; es [es_peerDelete _, es_peerReset _, es_handleTaskKeepalive _, es_handleTaskDueHandshake _, es_schedulePeerTask _]

theorem es_resetAll (n k : Nat) : Es Q (resetAll n k) := by
  induction n generalizing k with
  | zero => exact Es.fuel
  | succ n ih => unfold resetAll; es [es_peerDelete _, es_peerReset _, ih _]

theorem es_supersedeKeep : ∀ x0, Es Q (supersedeKeep x0) := by
  intro x0; unfold supersedeKeep; es [es_sessionValid _]

theorem es_supersedeFirst : ∀ x0, Es Q (supersedeFirst x0) := by
  intro x0; unfold supersedeFirst; es [es_supersedeKeep _, es_freeSession _]

theorem es_supersedeSecond : ∀ x0 x1, Es Q (supersedeSecond x0 x1) := by
  intro x0 x1; unfold supersedeSecond; es [es_freeState _, es_deref _, es_getObj _, es_setObj _ _]

theorem es_supersede : ∀ x0 x1, Es Q (supersede x0 x1) := by
  intro x0 x1; unfold supersede; es [es_supersedeFirst _, es_supersedeSecond _ _]

theorem es_newSession : ∀ x0 x1 x2 x3 x4, Es Q (newSession x0 x1 x2 x3 x4) := by
  intro x0 x1 x2 x3 x4; unfold newSession; es [es_supersede _ _]

theorem es_openIface : ∀ x0, Es Q (openIface x0) := by
  intro x0; unfold openIface; es [Es.unit]

/-- A peer becomes established. -/
theorem es_become (hQ : Q) (i : Nat) : Es Q (do
    let c ← get
    modP i fun p => { p with state := .established, established := c.now }
    seen i
    clearKeepalive i
    schedulePeerTask i
    emit (.established i)
    pure true) := by
  intro c a c' h
  obtain ⟨_, _, hc, h⟩ := bind_ok h
  cases hc
  obtain ⟨_, c1, h1, h⟩ := bind_ok h
  obtain ⟨_, c3, h3, h⟩ := bind_ok h
  obtain ⟨_, c4, h4, h⟩ := bind_ok h
  obtain ⟨_, c2, h2, h⟩ := bind_ok h
  have h2 : ERel Q c1 c2 := ((es_seen i _ _ _ h3).trans (es_clearKeepalive i _ _ _ h4)).trans (es_schedulePeerTask i _ _ _ h2)
  cases h
  obtain ⟨n2, l, g2, r2⟩ := h2
  unfold Daemon.modP at h1
  obtain ⟨p0, c0, hg, h1⟩ := bind_ok h1
  obtain ⟨rfl, _⟩ := getP_ok hg
  cases h1
  refine ⟨n2, l ++ [.established i], ?_, fun p hp he => ?_⟩
  · show c2.log ++ [.established i] = _
    rw [g2, List.append_assoc]
  · rcases r2 p hp he with ⟨h0, h1, h2⟩ | ⟨h1, q, hq, hi, hs, ht⟩
    · exact .inl ⟨h0, h1, List.mem_append_left _ h2⟩
    · unfold updPeers at hq
      obtain ⟨r, hr, rfl⟩ := List.mem_map.1 hq
      split at hi
      · rename_i hri
        refine .inl ⟨hQ, ?_, List.mem_append_right _ (List.mem_singleton.2 ?_)⟩
        · rw [ht, if_pos hri]
        · rw [← hi, ← hri]
      · rename_i hri
        rw [if_neg hri] at hs ht
        refine .inr ⟨fun h => ?_, r, hr, hi, hs, ht⟩
        rcases List.mem_append.1 h with h | h
        · exact h1 h
        · exact hri (hi.trans (by cases List.mem_singleton.1 h; rfl))

theorem es_setEstablished (hQ : Q) : ∀ x0, Es Q (setEstablished x0) := by
  intro i; unfold setEstablished
  refine Es.bind (es_openIface _) fun ok => Es.ite Es.pure (Es.bind Es.getP fun p => Es.ite Es.pure ?_)
  exact es_become hQ i

theorem es_establishEnd : ∀ x0 x1, Es Q (establishEnd x0 x1) := by
  intro x0 x1; unfold establishEnd; es [es_scheduleHandshakeDefault _, es_sendEmpty _]

theorem es_establish (hQ : Q) : ∀ x0 x1 x2 x3 x4 x5 x6 x7, Es Q (establish x0 x1 x2 x3 x4 x5 x6 x7) := by
  intro x0 x1 x2 x3 x4 x5 x6 x7; unfold establish; es [es_claimAddress _ _ _ _ _, es_peerReset _, es_newSession _ _ _ _ _, es_setEstablished hQ _, es_establishEnd _ _]

theorem es_updateShared : ∀ x0 x1 x2, Es Q (updateShared x0 x1 x2) := by
  intro x0 x1 x2; unfold updateShared; es [Es.unit]

theorem es_clearShared : ∀ x0, Es Q (clearShared x0) := by
  intro x0; unfold clearShared; es [Es.unit]

theorem es_respondHandshake : ∀ x0 x1 x2 x3 x4 x5, Es Q (respondHandshake x0 x1 x2 x3 x4 x5) := by
  intro x0 x1 x2 x3 x4 x5; unfold respondHandshake; es [es_updateShared _ _ _, es_bugIfNone _, es_sendHandshakePkt _ _ _ _ _ _]

theorem es_record : ∀ x0 x1, Es Q (record x0 x1) := by
  intro x0 x1; unfold record; es [es_memIfNone _]

theorem es_field : ∀ x0 x1 x2, Es Q (field x0 x1 x2) := by
  intro x0 x1 x2; unfold field; es [es_memIfNone _]

theorem es_sendFinish : ∀ x0 x1 x2 x3 x4 x5 x6 x7 x8, Es Q (sendFinish x0 x1 x2 x3 x4 x5 x6 x7 x8) := by
  intro x0 x1 x2 x3 x4 x5 x6 x7 x8; unfold sendFinish; es [es_bugIfNone _, es_sendHandshakePkt _ _ _ _ _ _]

theorem es_finishHandshake (hQ : Q) : ∀ x0 x1 x2 x3 x4 x5 x6 x7, Es Q (finishHandshake x0 x1 x2 x3 x4 x5 x6 x7) := by
  intro x0 x1 x2 x3 x4 x5 x6 x7; unfold finishHandshake; es [es_record _ _, es_sendError _ _ _ _ _ _ _ _, es_establish hQ _ _ _ _ _ _ _ _, es_sendFinish _ _ _ _ _ _ _ _ _]

theorem es_handleFinish (hQ : Q) : ∀ x0 x1 x2 x3 x4 x5 x6 x7, Es Q (handleFinish x0 x1 x2 x3 x4 x5 x6 x7) := by
  intro x0 x1 x2 x3 x4 x5 x6 x7; unfold handleFinish; es [es_record _ _, es_sendError _ _ _ _ _ _ _ _, es_establish hQ _ _ _ _ _ _ _ _, es_updateShared _ _ _, es_clearShared _]

theorem es_matchSenderKey : ∀ x0 x1 x2 x3, Es Q (matchSenderKey x0 x1 x2 x3) := by
  intro x0 x1 x2 x3; unfold matchSenderKey; es [es_sockPeer _]

theorem es_addDynamic : ∀ x0 x1, Es Q (addDynamic x0 x1) := by
  intro x0 x1; unfold addDynamic; es [es_sockPeer _, es_peerAdd nofun, es_peerReset _]

theorem es_verifyPeer : ∀ x0 x1, Es Q (verifyPeer x0 x1) := by
  intro x0 x1; unfold verifyPeer; es [es_setVerifying _, es_setVerified _ _]

theorem es_handleDynamic : ∀ x0 x1 x2 x3 x4 x5, Es Q (handleDynamic x0 x1 x2 x3 x4 x5) := by
  intro x0 x1 x2 x3 x4 x5; unfold handleDynamic; es [es_verifyPeer _ _, es_peerDelete _]

theorem es_hsVerified : ∀ x0 x1 x2 x3 x4 x5, Es Q (hsVerified x0 x1 x2 x3 x4 x5) := by
  intro x0 x1 x2 x3 x4 x5; unfold hsVerified; es [es_handleDynamic _ _ _ _ _ _]

theorem es_handleVerifyReturn : ∀ x0 x1, Es Q (handleVerifyReturn x0 x1) := by
  intro x0 x1; unfold handleVerifyReturn; es [es_respondHandshake _ _ _ _ _ _]

theorem es_checkMtu : ∀ x0 x1 x2 x3 x4, Es Q (checkMtu x0 x1 x2 x3 x4) := by
  intro x0 x1 x2 x3 x4; unfold checkMtu; es [es_memIfNone _, es_sendError _ _ _ _ _ _ _ _]

theorem es_hsInitial : ∀ x0 x1 x2 x3 x4 x5, Es Q (hsInitial x0 x1 x2 x3 x4 x5) := by
  intro x0 x1 x2 x3 x4 x5; unfold hsInitial; es [es_respondHandshake _ _ _ _ _ _]

theorem es_hsReply (hQ : Q) : ∀ x0 x1 x2 x3 x4 x5, Es Q (hsReply x0 x1 x2 x3 x4 x5) := by
  intro x0 x1 x2 x3 x4 x5; unfold hsReply; es [es_field _ _ _, es_finishHandshake hQ _ _ _ _ _ _ _ _, es_handleFinish hQ _ _ _ _ _ _ _ _]

theorem es_hsCheck : ∀ x0 x1 x2 x3 x4, Es Q (hsCheck x0 x1 x2 x3 x4) := by
  intro x0 x1 x2 x3 x4; unfold hsCheck; es [es_checkMtu _ _ _ _ _, es_field _ _ _]

theorem es_hsKnown (hQ : Q) : ∀ x0 x1 x2 x3 x4, Es Q (hsKnown x0 x1 x2 x3 x4) := by
  intro x0 x1 x2 x3 x4; unfold hsKnown; es [es_hsCheck _ _ _ _ _, es_hsVerified _ _ _ _ _ _, es_hsInitial _ _ _ _ _ _, es_hsReply hQ _ _ _ _ _ _]

theorem es_handshakeHandle (hQ : Q) : ∀ x0 x1 x2 x3 x4, Es Q (handshakeHandle x0 x1 x2 x3 x4) := by
  intro x0 x1 x2 x3 x4; unfold handshakeHandle; es [es_protoMaintenance, es_field _ _ _, es_matchSenderKey _ _ _ _, es_hsKnown hQ _ _ _ _ _, es_addDynamic _ _]

theorem es_canReceive : ∀ x0 x1, Es Q (canReceive x0 x1) := by
  intro x0 x1; unfold canReceive; es [Es.unit]

theorem es_allowUnknown : Es Q (allowUnknown) := by
  unfold allowUnknown; es [Es.unit]

theorem es_backoff : ∀ x0, Es Q (backoff x0) := by
  intro x0; unfold backoff; es [Es.unit]

theorem es_hsPacket (hQ : Q) : ∀ x0 x1 x2 x3 x4 x5, Es Q (hsPacket x0 x1 x2 x3 x4 x5) := by
  intro x0 x1 x2 x3 x4 x5; unfold hsPacket; es [es_sendError _ _ _ _ _ _ _ _, es_handshakeHandle hQ _ _ _ _ _]

theorem es_classify (hQ : Q) : ∀ x0 x1 x2 x3 x4 x5, Es Q (classify x0 x1 x2 x3 x4 x5) := by
  intro x0 x1 x2 x3 x4 x5; unfold classify; es [es_memIfNone _, es_canReceive _ _, es_handleRecv _ _, es_allowUnknown, es_hsPacket hQ _ _ _ _ _ _, es_backoff _, es_handshakeInit _ _ _ _]

theorem es_senderOf : ∀ x0 x1, Es Q (senderOf x0 x1) := by
  intro x0 x1; unfold senderOf; es [es_sockPeer _, es_htLookup _]

theorem es_socketReceive (hQ : Q) : ∀ x0 x1 x2 x3, Es Q (socketReceive x0 x1 x2 x3) := by
  intro x0 x1 x2 x3; unfold socketReceive; es [es_senderOf _ _, es_memIfNone _, es_classify hQ _ _ _ _ _ _]

theorem es_resolveReturn : ∀ x0 x1 x2, Es Q (resolveReturn x0 x1 x2) := by
  intro x0 x1 x2; unfold resolveReturn; es [es_handleResolve _ _ _]

theorem es_verifyReturn : ∀ x0 x1, Es Q (verifyReturn x0 x1) := by
  intro x0 x1; unfold verifyReturn; es [es_setVerified _ _, es_handleVerifyReturn _ _]

theorem es_configurePeer : ∀ x0 x1, Es Q (configurePeer x0 x1) := by
  intro x0 x1; unfold configurePeer; es [es_peerDelete _, es_peerReset _]

theorem es_configureLoop (d : Bool) (n : Nat) : Es Q (configureLoop d n) := by
  induction n with
  | zero => exact Es.unit
  | succ n ih => unfold configureLoop; es [es_memIfNone _, es_configurePeer _ _, ih]

theorem es_configurePeers : ∀ x0, Es Q (configurePeers x0) := by
  intro x0; unfold configurePeers; es [es_configureLoop _ _]

theorem es_addDef : ∀ x0 x1, Es Q (addDef x0 x1) := by
  intro x0 x1; unfold addDef; es [es_peerAdd nofun]

theorem Es.mark : Es Q (Daemon.modify fun c => { c with peers := c.peers.map reloadMark }) := by
  intro c a c' h
  cases h
  refine ⟨rfl, [], by simp, fun p' hp he => ?_⟩
  obtain ⟨p, hm, rfl⟩ := List.mem_map.1 hp
  have : (reloadMark p).id = p.id ∧ (reloadMark p).state = p.state ∧ (reloadMark p).established = p.established := by
    unfold reloadMark
    (repeat' split) <;> exact ⟨rfl, rfl, rfl⟩
  exact .inr ⟨by simp, p, hm, this.1.symm, by rw [← this.2.1]; exact he, this.2.2⟩

theorem es_loadPeerDirs : ∀ x0 x1, Es Q (loadPeerDirs x0 x1) := by
  intro x0 x1; unfold loadPeerDirs; es [Es.mark, es_addDef _ _, es_configurePeers _]

theorem es_statics (l : List PeerDef) : Es Q (forEach addStatic l) := by
  refine Es.forEach (fun d => ?_) l
  unfold addStatic
  es [es_peerAdd nofun]

theorem es_startup (static dirs : List PeerDef) : Es Q (startup static dirs) := by
  unfold startup; es [es_statics _, es_configurePeers _, es_loadPeerDirs _ _]

theorem es_ethCleanup : Es Q (ethCleanup) := by
  unfold ethCleanup; es [Es.unit]

/-- All events but the passing of time. -/
theorem es_handle (hQ : Q) (e : Event) (he : ∀ d, e ≠ .tick d) : Es Q (handle e) := by
  cases e with
  | tick d => exact absurd rfl (he d)
  | task i => exact es_peerTask i
  | maintenance => unfold handle; es [es_ethCleanup]
  | recv s l r p => exact es_socketReceive hQ s l r p
  | iface o d => exact es_sendData d none o
  | resolved k l => unfold handle; es [es_memIfNone _, es_resolveReturn _ _ _]
  | verified k o => unfold handle; es [es_memIfNone _, es_verifyReturn _ _]
  | reload l => exact es_loadPeerDirs false l
  | resetAll => unfold handle; es [es_resetAll _ _]

end Fastd.Daemon
