import Verif.Daemon.History

/-!
# When the verification of peers changes

`Vf A m`: peers become verified in `m` only if `A` holds for them. Helper lemmas.
-/

namespace Fastd.Daemon

set_option linter.unusedSectionVars false

variable [Env] {α β : Type} {A : Nat → Prop}

/-- How long peers are verified: as before, not any more, or from now on, the latter only for peers in `A`. -/
def VRel (A : Nat → Prop) (c c' : Ctx) : Prop :=
  c'.now = c.now ∧ ∀ p' ∈ c'.peers, p'.verifyValid ≤ c.now ∨ p'.verifyValid = 0 ∨
    (∃ p ∈ c.peers, p.id = p'.id ∧ p'.verifyValid = p.verifyValid) ∨
    (A p'.id ∧ p'.verifyValid = c.now + VERIFY_VALID_TIME)

theorem VRel.same {c c' : Ctx} (h1 : c'.now = c.now) (h2 : c'.peers = c.peers) : VRel A c c' :=
  ⟨h1, fun p hp => .inr (.inr (.inl ⟨p, by rw [← h2]; exact hp, rfl, rfl⟩))⟩

theorem VRel.refl (c : Ctx) : VRel A c c := .same rfl rfl

theorem VRel.trans {c c' c'' : Ctx} (h : VRel A c c') (h' : VRel A c' c'') : VRel A c c'' := by
  refine ⟨h'.1.trans h.1, fun p hp => ?_⟩
  rcases h'.2 p hp with h1 | h1 | ⟨q, hq, hi, hv⟩ | ⟨h1, h2⟩
  · rw [h.1] at h1; exact .inl h1
  · exact .inr (.inl h1)
  · rcases h.2 q hq with h1 | h1 | ⟨r, hr, hri, hrv⟩ | ⟨h1, h2⟩
    · exact .inl (by rw [hv]; exact h1)
    · exact .inr (.inl (by rw [hv]; exact h1))
    · exact .inr (.inr (.inl ⟨r, hr, hri.trans hi, hv.trans hrv⟩))
    · exact .inr (.inr (.inr ⟨by rw [← hi]; exact h1, hv.trans h2⟩))
  · rw [h.1] at h2; exact .inr (.inr (.inr ⟨h1, h2⟩))

/-- The same for one state. -/
def VfAt (A : Nat → Prop) (c : Ctx) (m : M α) : Prop := ∀ a c', m c = .ok (a, c') → VRel A c c'

def Vf (A : Nat → Prop) (m : M α) : Prop := ∀ c, VfAt A c m

theorem Vf.pure {a : α} : Vf A (Pure.pure a : M α) := fun c _ _ h => by cases h; exact VRel.refl c

theorem Vf.unit : Vf A (Pure.pure () : M Unit) := Vf.pure

theorem Vf.fail {e : Fail} : Vf A (fail e : M α) := fun _ _ _ h => by cases h

theorem Vf.fuel : Vf A (Daemon.fail .fuel : M α) := Vf.fail

theorem Vf.get : Vf A get := fun c _ _ h => by cases h; exact VRel.refl c

theorem Vf.modify {f : Ctx → Ctx} (h1 : ∀ c, (f c).now = c.now) (h2 : ∀ c, (f c).peers = c.peers) : Vf A (modify f) :=
  fun c _ _ h => by cases h; exact VRel.same (h1 c) (h2 c)

theorem Vf.draw : Vf A draw := fun _ _ _ h => by cases h; exact VRel.same rfl rfl

theorem Vf.emit {e : Eff} : Vf A (emit e) := Vf.modify (fun _ => rfl) fun _ => rfl

theorem VfAt.bind {c : Ctx} {m : M α} {f : α → M β} (h : VfAt A c m) (hf : ∀ a, Vf A (f a)) : VfAt A c (m >>= f) := by
  intro b c' hm
  rw [bind_def] at hm
  cases hm1 : m c with
  | error e => rw [hm1] at hm; cases hm
  | ok v =>
    obtain ⟨a, c1⟩ := v
    rw [hm1] at hm
    exact (h a c1 hm1).trans (hf a c1 b c' hm)

theorem Vf.bind {m : M α} {f : α → M β} (h : Vf A m) (hf : ∀ a, Vf A (f a)) : Vf A (m >>= f) :=
  fun c => VfAt.bind (h c) hf

theorem Vf.bindGet {f : Ctx → M β} (hf : ∀ c, VfAt A c (f c)) : Vf A (Daemon.get >>= f) := fun c => hf c

theorem Vf.drawBool : Vf A drawBool := Vf.bind Vf.draw fun _ => Vf.pure
theorem Vf.rand {x y : Time} : Vf A (rand x y) := Vf.bind Vf.draw fun _ => Vf.pure

theorem Vf.ite {p : Prop} [Decidable p] {m m' : M α} (h : Vf A m) (h' : Vf A m') : Vf A (if p then m else m') := by
  split
  · exact h
  · exact h'

theorem Vf.when {p : Bool} {m : M Unit} (h : Vf A m) : Vf A (when p m) := by
  unfold Daemon.when
  exact Vf.ite h Vf.pure

theorem Vf.getP {i : Nat} : Vf A (getP i) := by
  unfold Daemon.getP
  refine Vf.bind Vf.get fun _ => ?_
  split
  · exact Vf.pure
  · exact Vf.fail

theorem VfAt.modP {c : Ctx} {i : Nat} {f : Peer → Peer} (hf : ∀ p, p.id = i → (f p).id = p.id ∧
    ((f p).verifyValid = p.verifyValid ∨ (f p).verifyValid ≤ c.now ∨
      (A p.id ∧ (f p).verifyValid = c.now + VERIFY_VALID_TIME))) : VfAt A c (modP i f) := by
  intro a c' h
  unfold Daemon.modP at h
  rw [bind_def] at h
  cases hg : Daemon.getP i c with
  | error e => rw [hg] at h; cases h
  | ok v =>
    obtain ⟨p0, c1⟩ := v
    rw [hg] at h
    obtain ⟨h1, _⟩ := getP_ok hg
    subst h1
    cases h
    refine ⟨rfl, fun p' hp' => ?_⟩
    unfold updPeers at hp'
    obtain ⟨p, hp, rfl⟩ := List.mem_map.1 hp'
    split
    · rename_i hi
      obtain ⟨h1, h2 | h2 | ⟨h2, h3⟩⟩ := hf p hi
      · exact .inr (.inr (.inl ⟨p, hp, h1.symm, h2⟩))
      · exact .inl h2
      · exact .inr (.inr (.inr ⟨by rw [h1]; exact h2, h3⟩))
    · exact .inr (.inr (.inl ⟨p, hp, rfl, rfl⟩))

theorem Vf.modP {i : Nat} {f : Peer → Peer} (hf : ∀ p, (f p).id = p.id ∧ (f p).verifyValid = p.verifyValid) : Vf A (modP i f) :=
  fun _ => VfAt.modP fun p _ => ⟨(hf p).1, .inl (hf p).2⟩

theorem Vf.forEach {f : α → M Unit} (hf : ∀ a, Vf A (f a)) (l : List α) : Vf A (forEach f l) := by
  induction l with
  | nil => exact Vf.pure
  | cons a as ih => exact Vf.bind (hf a) fun _ => ih

/-- Proves `Vf` for a program of known parts. -/
syntax "vf" "[" term,* "]" : tactic

macro_rules
  | `(tactic| vf [$ls,*]) => `(tactic| repeat' (first
      | exact Vf.pure
      | exact Vf.fail
      | exact Vf.get
      | exact Vf.getP
      | exact Vf.modP (fun _ => ⟨rfl, rfl⟩)
      | (refine Vf.modP (fun _ => ?_); ((repeat' split) <;> exact ⟨rfl, rfl⟩))
      | exact Vf.draw
      | exact Vf.drawBool
      | exact Vf.rand
      | exact Vf.modify (fun _ => rfl) (fun _ => rfl)
      | exact Vf.emit
      | (first $[| exact $(ls.getElems)]*)
      | with_reducible refine Vf.bind ?_ fun _ => ?_
      | with_reducible refine Vf.when ?_
      | with_reducible refine Vf.forEach (fun _ => ?_) _
      | with_reducible refine Vf.ite ?_ ?_
      | split))

theorem vf_htInsertFuel (n i : Nat) : Vf A (htInsertFuel n i) := by
  induction n generalizing i with
  | zero => exact Vf.fuel
  | succ n ih => unfold htInsertFuel; vf [ih _]

theorem vf_htInsert (i : Nat) : Vf A (htInsert i) := vf_htInsertFuel 2 i

theorem vf_htRemove : ∀ x0, Vf A (htRemove x0) := by
  intro x0; unfold htRemove; vf [Vf.unit]

theorem vf_htScan (a : Addr) (l : List Nat) : Vf A (htScan a l) := by
  induction l with
  | nil => exact Vf.pure
  | cons i l ih => unfold htScan; vf [ih]

theorem vf_htLookup : ∀ x0, Vf A (htLookup x0) := by
  intro x0; unfold htLookup; vf [vf_htScan _ _]

theorem vf_ethPut (o : Option Nat) (a : Bytes) : Vf A (ethPut o a) := by
  unfold ethPut
  refine Vf.bind Vf.get fun c => ?_
  split
  · exact fun _ _ _ h => by cases h
  · vf [Vf.unit]
  · vf [Vf.unit]

theorem vf_ethAdd : ∀ x0 x1, Vf A (ethAdd x0 x1) := by
  intro x0 x1; unfold ethAdd; vf [vf_ethPut _ _]

theorem vf_sockLive : ∀ x0, Vf A (sockLive x0) := by
  intro x0; unfold sockLive; vf [Vf.unit]

theorem vf_sockPeer : ∀ x0, Vf A (sockPeer x0) := by
  intro x0; unfold sockPeer; vf [Vf.unit]

theorem vf_freeSocket : ∀ x0, Vf A (freeSocket x0) := by
  intro x0; unfold freeSocket; vf [vf_sockPeer _]

theorem vf_socketOpen : ∀ x0, Vf A (socketOpen x0) := by
  intro x0; unfold socketOpen; vf [Vf.unit]

theorem vf_newSocket : ∀ x0 x1, Vf A (newSocket x0 x1) := by
  intro x0 x1; unfold newSocket; vf [vf_socketOpen _]

theorem vf_resetSocket : ∀ x0, Vf A (resetSocket x0) := by
  intro x0; unfold resetSocket; vf [vf_freeSocket _, vf_newSocket _ _]

theorem vf_schedulePeerTask : ∀ x0, Vf A (schedulePeerTask x0) := by
  intro x0; unfold schedulePeerTask; vf [Vf.unit]

theorem vf_setNextHandshake : ∀ x0 x1, Vf A (setNextHandshake x0 x1) := by
  intro x0 x1; unfold setNextHandshake; vf [Vf.unit]

theorem vf_handshakeDefaultRand : Vf A (handshakeDefaultRand) := by
  unfold handshakeDefaultRand; vf [Vf.unit]

theorem vf_setNextHandshakeDefault : ∀ x0, Vf A (setNextHandshakeDefault x0) := by
  intro x0; unfold setNextHandshakeDefault; vf [vf_handshakeDefaultRand, vf_setNextHandshake _ _]

theorem vf_scheduleHandshake : ∀ x0 x1, Vf A (scheduleHandshake x0 x1) := by
  intro x0 x1; unfold scheduleHandshake; vf [vf_setNextHandshake _ _, vf_schedulePeerTask _]

theorem vf_scheduleHandshakeDefault : ∀ x0, Vf A (scheduleHandshakeDefault x0) := by
  intro x0; unfold scheduleHandshakeDefault; vf [vf_handshakeDefaultRand, vf_scheduleHandshake _ _]

theorem vf_freeState : ∀ x0, Vf A (freeState x0) := by
  intro x0; unfold freeState; vf [Vf.unit]

theorem vf_freeSession : ∀ x0, Vf A (freeSession x0) := by
  intro x0; unfold freeSession; vf [vf_freeState _]

theorem vf_resetPeerState : ∀ x0, Vf A (resetPeerState x0) := by
  intro x0; unfold resetPeerState; vf [vf_freeSession _]

theorem vf_resetPeer : ∀ x0, Vf A (resetPeer x0) := by
  intro x0; unfold resetPeer; vf [vf_freeSocket _, vf_resetPeerState _, vf_htRemove _]

theorem vf_initDelay : ∀ x0, Vf A (initDelay x0) := by
  intro x0; unfold initDelay; vf [Vf.unit]

theorem vf_initHandshake : ∀ x0, Vf A (initHandshake x0) := by
  intro x0; unfold initHandshake; vf [vf_initDelay _, vf_scheduleHandshake _ _]

theorem vf_getR : ∀ x0 x1, Vf A (getR x0 x1) := by
  intro x0 x1; unfold getR; vf [Vf.unit]

theorem vf_modR : ∀ x0 x1 x2, Vf A (modR x0 x1 x2) := by
  intro x0 x1 x2; unfold modR; vf [vf_getR _ _]

theorem vf_resolvePeer : ∀ x0 x1, Vf A (resolvePeer x0 x1) := by
  intro x0 x1; unfold resolvePeer; vf [vf_getR _ _, vf_modR _ _ _]

theorem vf_setupIface : ∀ x0, Vf A (setupIface x0) := by
  intro x0; unfold setupIface; vf [Vf.unit]

theorem vf_setupConnect : ∀ x0, Vf A (setupConnect x0) := by
  intro x0; unfold setupConnect; vf [vf_getR _ _, vf_modR _ _ _, vf_resolvePeer _ _, vf_setNextHandshakeDefault _, vf_initHandshake _]

theorem vf_setupPeer : ∀ x0, Vf A (setupPeer x0) := by
  intro x0; unfold setupPeer
  refine Vf.bindGet fun c => VfAt.bind (VfAt.modP fun p _ => ⟨rfl, .inr (.inl (Int.le_refl _))⟩) fun _ => ?_
  vf [vf_setupIface _, vf_setupConnect _, vf_schedulePeerTask _]

theorem vf_peerReset : ∀ x0, Vf A (peerReset x0) := by
  intro x0; unfold peerReset; vf [vf_resetPeer _, vf_setupPeer _]

theorem Vf.erase {k : Nat} : Vf A (Daemon.modify fun c => { c with peers := c.peers.eraseIdx k }) := by
  intro c a c' h
  cases h
  exact ⟨rfl, fun p hp => .inr (.inr (.inl ⟨p, (List.eraseIdx_sublist _ _).subset hp, rfl, rfl⟩))⟩

theorem vf_deletePeer : ∀ x0, Vf A (deletePeer x0) := by
  intro x0; unfold deletePeer; vf [vf_resetPeerState _, Vf.erase]

theorem vf_peerDelete : ∀ x0, Vf A (peerDelete x0) := by
  intro x0; unfold peerDelete; vf [vf_resetPeer _, vf_deletePeer _]

theorem vf_handleResolve : ∀ x0 x1 x2, Vf A (handleResolve x0 x1 x2) := by
  intro x0 x1 x2; unfold handleResolve; vf [vf_modR _ _ _, vf_initHandshake _]

theorem vf_resetPeerAddress : ∀ x0, Vf A (resetPeerAddress x0) := by
  intro x0; unfold resetPeerAddress; vf [vf_peerReset _, vf_htRemove _]

theorem vf_claimSock : ∀ x0 x1, Vf A (claimSock x0 x1) := by
  intro x0 x1; unfold claimSock; vf [vf_sockLive _, vf_freeSocket _]

theorem vf_claimFinish : ∀ x0 x1 x2 x3, Vf A (claimFinish x0 x1 x2 x3) := by
  intro x0 x1 x2 x3; unfold claimFinish; vf [vf_htRemove _, vf_htInsert _, vf_claimSock _ _]

theorem vf_claimAddress : ∀ x0 x1 x2 x3 x4, Vf A (claimAddress x0 x1 x2 x3 x4) := by
  intro x0 x1 x2 x3 x4; unfold claimAddress; vf [vf_peerReset _, vf_claimFinish _ _ _ _, vf_resetPeerAddress _]

theorem vf_addNew {q : Peer} (hq : q.verifyValid = 0) : Vf A (addNew q) := by
  unfold addNew
  refine Vf.bind Vf.get fun _ => Vf.bind ?_ fun _ => Vf.pure
  intro c a c' h
  cases h
  refine ⟨rfl, fun p hp => ?_⟩
  rcases List.mem_append.1 hp with hp | hp
  · exact .inr (.inr (.inl ⟨p, hp, rfl, rfl⟩))
  · cases List.mem_singleton.1 hp
    exact .inr (.inl hq)

theorem vf_peerAdd {q : Peer} (hq : q.verifyValid = 0) : Vf A (peerAdd q) := by
  unfold peerAdd; vf [vf_addNew hq, vf_peerDelete _]

theorem vf_sendRetry : ∀ x0 x1, Vf A (send.sendRetry x0 x1) := by
  intro x0 x1; unfold send.sendRetry; vf [vf_scheduleHandshakeDefault _]

theorem vf_send : ∀ x0 x1 x2 x3 x4, Vf A (send x0 x1 x2 x3 x4) := by
  intro x0 x1 x2 x3 x4; unfold send; vf [vf_sockLive _, vf_sendRetry _ _]

theorem vf_bugIfNone (o : Option α) : Vf A (bugIfNone o) := by unfold bugIfNone; vf [Vf.unit]

theorem vf_memIfNone (o : Option α) : Vf A (memIfNone o) := by unfold memIfNone; vf [Vf.unit]

theorem vf_deref (o : Option α) : Vf A (deref o) := vf_memIfNone o

theorem vf_sendHandshakePkt : ∀ x0 x1 x2 x3 x4 x5, Vf A (sendHandshakePkt x0 x1 x2 x3 x4 x5) := by
  intro x0 x1 x2 x3 x4 x5; unfold sendHandshakePkt; vf [vf_send _ _ _ _ _]

theorem vf_sendError : ∀ x0 x1 x2 x3 x4 x5 x6 x7, Vf A (sendError x0 x1 x2 x3 x4 x5 x6 x7) := by
  intro x0 x1 x2 x3 x4 x5 x6 x7; unfold sendError; vf [vf_bugIfNone _, vf_sendHandshakePkt _ _ _ _ _ _]

theorem vf_protoMaintenance : Vf A protoMaintenance := by
  intro c a c' h
  cases h
  exact VRel.same rfl rfl

theorem vf_peerKeyOf : ∀ x0, Vf A (peerKeyOf x0) := by
  intro x0; unfold peerKeyOf; vf [Vf.unit]

theorem vf_handshakeInit : ∀ x0 x1 x2 x3, Vf A (handshakeInit x0 x1 x2 x3) := by
  intro x0 x1 x2 x3; unfold handshakeInit; vf [vf_protoMaintenance, vf_peerKeyOf _, vf_bugIfNone _, vf_sendHandshakePkt _ _ _ _ _ _]

theorem vf_getObj : ∀ x0, Vf A (getObj x0) := by
  intro x0; unfold getObj; vf [vf_memIfNone _]

theorem vf_setObj : ∀ x0 x1, Vf A (setObj x0 x1) := by
  intro x0 x1; unfold setObj; vf [Vf.unit]

theorem vf_sessionValid : ∀ x0, Vf A (sessionValid x0) := by
  intro x0; unfold sessionValid; vf [vf_getObj _]

theorem vf_wantRefresh : ∀ x0, Vf A (wantRefresh x0) := by
  intro x0; unfold wantRefresh; vf [vf_deref _, vf_getObj _]

theorem vf_checkSessionRefresh : ∀ x0, Vf A (checkSessionRefresh x0) := by
  intro x0; unfold checkSessionRefresh; vf [vf_wantRefresh _, vf_scheduleHandshake _ _]

theorem vf_checkSession : ∀ x0, Vf A (checkSession x0) := by
  intro x0; unfold checkSession; vf [vf_sessionValid _, vf_peerReset _]

theorem vf_isInitiator : ∀ x0, Vf A (isInitiator x0) := by
  intro x0; unfold isInitiator; vf [vf_deref _, vf_getObj _]

theorem vf_useOldSession : ∀ x0, Vf A (useOldSession x0) := by
  intro x0; unfold useOldSession; vf [vf_isInitiator _, vf_sessionValid _]

theorem vf_clearKeepalive : ∀ x0, Vf A (clearKeepalive x0) := by
  intro x0; unfold clearKeepalive; vf [Vf.unit]

theorem vf_sessionSend : ∀ x0 x1 x2, Vf A (sessionSend x0 x1 x2) := by
  intro x0 x1 x2; unfold sessionSend; vf [vf_deref _, vf_getObj _, vf_setObj _ _, vf_send _ _ _ _ _, vf_clearKeepalive _]

theorem vf_protocolSend : ∀ x0 x1, Vf A (protocolSend x0 x1) := by
  intro x0 x1; unfold protocolSend; vf [vf_checkSession _, vf_checkSessionRefresh _, vf_useOldSession _, vf_sessionSend _ _ _]

theorem vf_sendEmpty : ∀ x0, Vf A (sendEmpty x0) := by
  intro x0; unfold sendEmpty; vf [vf_sessionSend _ _ _]

theorem vf_sendOne : ∀ x0 x1 x2, Vf A (sendOne x0 x1 x2) := by
  intro x0 x1 x2; unfold sendOne; vf [vf_protocolSend _ _]

theorem vf_sendAll (d : Bytes) (s : Option Nat) (n k : Nat) : Vf A (sendAll d s n k) := by
  induction n generalizing k with
  | zero => exact Vf.fuel
  | succ n ih => unfold sendAll; vf [vf_sendOne _ _ _, ih _]

theorem vf_learnLocal : ∀ x0 x1, Vf A (learnLocal x0 x1) := by
  intro x0 x1; unfold learnLocal; vf [vf_ethAdd _ _]

theorem vf_sendTapSingle : ∀ x0 x1, Vf A (sendTapSingle x0 x1) := by
  intro x0 x1; unfold sendTapSingle; vf [vf_learnLocal _ _, vf_protocolSend _ _]

theorem vf_sendData : ∀ x0 x1 x2, Vf A (sendData x0 x1 x2) := by
  intro x0 x1 x2; unfold sendData; vf [vf_sendTapSingle _ _, vf_protocolSend _ _, vf_sendAll _ _ _ _]

theorem vf_learnRemote : ∀ x0 x1, Vf A (learnRemote x0 x1) := by
  intro x0 x1; unfold learnRemote; vf [vf_ethAdd _ _]

theorem vf_handleReceive : ∀ x0 x1, Vf A (handleReceive x0 x1) := by
  intro x0 x1; unfold handleReceive; vf [vf_learnRemote _ _, vf_sendData _ _ _]

theorem vf_decryptWith : ∀ x0 x1 x2, Vf A (decryptWith x0 x1 x2) := by
  intro x0 x1 x2; unfold decryptWith; vf [vf_deref _, vf_getObj _, vf_setObj _ _]

theorem vf_tryOld : ∀ x0 x1, Vf A (tryOld x0 x1) := by
  intro x0 x1; unfold tryOld; vf [vf_sessionValid _, vf_decryptWith _ _ _]

theorem vf_dropOld : ∀ x0, Vf A (dropOld x0) := by
  intro x0; unfold dropOld; vf [vf_freeState _]

theorem vf_unscheduleHandshake : ∀ x0, Vf A (unscheduleHandshake x0) := by
  intro x0; unfold unscheduleHandshake; vf [Vf.unit]

theorem vf_cleanHandshakes : ∀ x0, Vf A (cleanHandshakes x0) := by
  intro x0; unfold cleanHandshakes; vf [vf_unscheduleHandshake _, vf_isInitiator _, vf_sendEmpty _]

theorem vf_seen : ∀ x0, Vf A (seen x0) := by
  intro x0; unfold seen; vf [Vf.unit]

theorem vf_setVerifying : ∀ x0, Vf A (setVerifying x0) := by
  intro x0; unfold setVerifying; vf [Vf.unit]

theorem vf_setVerified {i : Nat} (hA : A i) (ok : Bool) : Vf A (setVerified i ok) := by
  unfold setVerified
  refine Vf.bindGet fun c => VfAt.modP fun p hi => ⟨rfl, ?_⟩
  cases ok
  · exact .inr (.inl (Int.le_of_eq (Int.add_zero _)))
  · exact .inr (.inr ⟨by rw [hi]; exact hA, rfl⟩)

theorem vf_unverified (i : Nat) : Vf A (setVerified i false) := by
  unfold setVerified
  exact Vf.bindGet fun c => VfAt.modP fun p hi => ⟨rfl, .inr (.inl (Int.le_of_eq (Int.add_zero _)))⟩

theorem vf_deliver : ∀ x0 x1, Vf A (deliver x0 x1) := by
  intro x0 x1; unfold deliver; vf [vf_seen _, vf_handleReceive _ _]

theorem vf_handleRecv : ∀ x0 x1, Vf A (handleRecv x0 x1) := by
  intro x0 x1; unfold handleRecv; vf [vf_checkSession _, vf_tryOld _ _, vf_deliver _ _, vf_decryptWith _ _ _, vf_dropOld _, vf_cleanHandshakes _, vf_checkSessionRefresh _]

theorem vf_chooseAddress : ∀ x0 x1, Vf A (chooseAddress x0 x1) := by
  intro x0 x1; unfold chooseAddress; vf [vf_deref _, vf_getR _ _, vf_memIfNone _, vf_claimAddress _ _ _ _ _, vf_resetSocket _]

theorem vf_sendHandshake : ∀ x0 x1, Vf A (sendHandshake x0 x1) := by
  intro x0 x1; unfold sendHandshake; vf [vf_chooseAddress _ _, vf_handshakeInit _ _ _ _]

theorem vf_nextRemote : ∀ x0, Vf A (nextRemote x0) := by
  intro x0; unfold nextRemote; vf [vf_deref _, vf_modR _ _ _, vf_getR _ _, vf_resolvePeer _ _]

theorem vf_advanceRemote : ∀ x0 x1, Vf A (advanceRemote x0 x1) := by
  intro x0 x1; unfold advanceRemote; vf [vf_deref _, vf_modR _ _ _, vf_getR _ _, vf_nextRemote _]

theorem vf_handleTaskHandshake : ∀ x0, Vf A (handleTaskHandshake x0) := by
  intro x0; unfold handleTaskHandshake; vf [vf_setNextHandshakeDefault _, vf_sendHandshake _ _, vf_advanceRemote _ _, vf_nextRemote _]

theorem vf_handleTaskKeepalive : ∀ x0, Vf A (handleTaskKeepalive x0) := by
  intro x0; unfold handleTaskKeepalive; vf [vf_protocolSend _ _, vf_clearKeepalive _]

theorem vf_handleTaskDueHandshake : ∀ x0, Vf A (handleTaskDueHandshake x0) := by
  intro x0; unfold handleTaskDueHandshake; vf [vf_handleTaskHandshake _]

theorem vf_peerTask : ∀ x0, Vf A (peerTask x0) := by
  intro x0; unfold peerTask; vf [vf_peerDelete _, vf_peerReset _, vf_handleTaskKeepalive _, vf_handleTaskDueHandshake _, vf_schedulePeerTask _]

theorem vf_resetAll (n k : Nat) : Vf A (resetAll n k) := by
  induction n generalizing k with
  | zero => exact Vf.fuel
  | succ n ih => unfold resetAll; vf [vf_peerDelete _, vf_peerReset _, ih _]

theorem vf_supersedeKeep : ∀ x0, Vf A (supersedeKeep x0) := by
  intro x0; unfold supersedeKeep; vf [vf_sessionValid _]

theorem vf_supersedeFirst : ∀ x0, Vf A (supersedeFirst x0) := by
  intro x0; unfold supersedeFirst; vf [vf_supersedeKeep _, vf_freeSession _]

theorem vf_supersedeSecond : ∀ x0 x1, Vf A (supersedeSecond x0 x1) := by
  intro x0 x1; unfold supersedeSecond; vf [vf_freeState _, vf_deref _, vf_getObj _, vf_setObj _ _]

theorem vf_supersede : ∀ x0 x1, Vf A (supersede x0 x1) := by
  intro x0 x1; unfold supersede; vf [vf_supersedeFirst _, vf_supersedeSecond _ _]

theorem vf_newSession : ∀ x0 x1 x2 x3 x4, Vf A (newSession x0 x1 x2 x3 x4) := by
  intro x0 x1 x2 x3 x4; unfold newSession; vf [vf_supersede _ _]

theorem vf_openIface : ∀ x0, Vf A (openIface x0) := by
  intro x0; unfold openIface; vf [Vf.unit]

theorem vf_setEstablished : ∀ x0, Vf A (setEstablished x0) := by
  intro x0; unfold setEstablished; vf [vf_openIface _, vf_seen _, vf_clearKeepalive _, vf_schedulePeerTask _]

theorem vf_establishEnd : ∀ x0 x1, Vf A (establishEnd x0 x1) := by
  intro x0 x1; unfold establishEnd; vf [vf_scheduleHandshakeDefault _, vf_sendEmpty _]

theorem vf_establish : ∀ x0 x1 x2 x3 x4 x5 x6 x7, Vf A (establish x0 x1 x2 x3 x4 x5 x6 x7) := by
  intro x0 x1 x2 x3 x4 x5 x6 x7; unfold establish; vf [vf_claimAddress _ _ _ _ _, vf_peerReset _, vf_newSession _ _ _ _ _, vf_setEstablished _, vf_establishEnd _ _]

theorem vf_updateShared : ∀ x0 x1 x2, Vf A (updateShared x0 x1 x2) := by
  intro x0 x1 x2; unfold updateShared; vf [Vf.unit]

theorem vf_clearShared : ∀ x0, Vf A (clearShared x0) := by
  intro x0; unfold clearShared; vf [Vf.unit]

theorem vf_respondHandshake : ∀ x0 x1 x2 x3 x4 x5, Vf A (respondHandshake x0 x1 x2 x3 x4 x5) := by
  intro x0 x1 x2 x3 x4 x5; unfold respondHandshake; vf [vf_updateShared _ _ _, vf_bugIfNone _, vf_sendHandshakePkt _ _ _ _ _ _]

theorem vf_record : ∀ x0 x1, Vf A (record x0 x1) := by
  intro x0 x1; unfold record; vf [vf_memIfNone _]

theorem vf_field : ∀ x0 x1 x2, Vf A (field x0 x1 x2) := by
  intro x0 x1 x2; unfold field; vf [vf_memIfNone _]

theorem vf_sendFinish : ∀ x0 x1 x2 x3 x4 x5 x6 x7 x8, Vf A (sendFinish x0 x1 x2 x3 x4 x5 x6 x7 x8) := by
  intro x0 x1 x2 x3 x4 x5 x6 x7 x8; unfold sendFinish; vf [vf_bugIfNone _, vf_sendHandshakePkt _ _ _ _ _ _]

theorem vf_finishHandshake : ∀ x0 x1 x2 x3 x4 x5 x6 x7, Vf A (finishHandshake x0 x1 x2 x3 x4 x5 x6 x7) := by
  intro x0 x1 x2 x3 x4 x5 x6 x7; unfold finishHandshake; vf [vf_record _ _, vf_sendError _ _ _ _ _ _ _ _, vf_establish _ _ _ _ _ _ _ _, vf_sendFinish _ _ _ _ _ _ _ _ _]

theorem vf_handleFinish : ∀ x0 x1 x2 x3 x4 x5 x6 x7, Vf A (handleFinish x0 x1 x2 x3 x4 x5 x6 x7) := by
  intro x0 x1 x2 x3 x4 x5 x6 x7; unfold handleFinish; vf [vf_record _ _, vf_sendError _ _ _ _ _ _ _ _, vf_establish _ _ _ _ _ _ _ _, vf_updateShared _ _ _, vf_clearShared _]

theorem vf_matchSenderKey : ∀ x0 x1 x2 x3, Vf A (matchSenderKey x0 x1 x2 x3) := by
  intro x0 x1 x2 x3; unfold matchSenderKey; vf [vf_sockPeer _]

theorem vf_addDynamic : ∀ x0 x1, Vf A (addDynamic x0 x1) := by
  intro x0 x1; unfold addDynamic; vf [vf_sockPeer _, vf_peerAdd rfl, vf_peerReset _]

theorem vf_verifyPeer (hA : Env.onVerify = some true → ∀ i, A i) : ∀ x0 x1, Vf A (verifyPeer x0 x1) := by
  intro x0 x1
  unfold verifyPeer
  split
  · exact Vf.fail
  · rename_i sync ho
    refine Vf.bind (vf_setVerifying _) fun _ => Vf.bind Vf.drawBool fun ok => ?_
    split
    · rename_i hs
      exact Vf.bind (vf_setVerified (hA (by rw [ho, hs]) _) _) fun _ => Vf.pure
    · vf [Vf.unit]

theorem vf_handleDynamic (hA : Env.onVerify = some true → ∀ i, A i) : ∀ x0 x1 x2 x3 x4 x5, Vf A (handleDynamic x0 x1 x2 x3 x4 x5) := by
  intro x0 x1 x2 x3 x4 x5; unfold handleDynamic; vf [vf_verifyPeer hA _ _, vf_peerDelete _]

theorem vf_hsVerified (hA : Env.onVerify = some true → ∀ i, A i) : ∀ x0 x1 x2 x3 x4 x5, Vf A (hsVerified x0 x1 x2 x3 x4 x5) := by
  intro x0 x1 x2 x3 x4 x5; unfold hsVerified; vf [vf_handleDynamic hA _ _ _ _ _ _]

theorem vf_handleVerifyReturn : ∀ x0 x1, Vf A (handleVerifyReturn x0 x1) := by
  intro x0 x1; unfold handleVerifyReturn; vf [vf_respondHandshake _ _ _ _ _ _]

theorem vf_checkMtu : ∀ x0 x1 x2 x3 x4, Vf A (checkMtu x0 x1 x2 x3 x4) := by
  intro x0 x1 x2 x3 x4; unfold checkMtu; vf [vf_memIfNone _, vf_sendError _ _ _ _ _ _ _ _]

theorem vf_hsInitial : ∀ x0 x1 x2 x3 x4 x5, Vf A (hsInitial x0 x1 x2 x3 x4 x5) := by
  intro x0 x1 x2 x3 x4 x5; unfold hsInitial; vf [vf_respondHandshake _ _ _ _ _ _]

theorem vf_hsReply : ∀ x0 x1 x2 x3 x4 x5, Vf A (hsReply x0 x1 x2 x3 x4 x5) := by
  intro x0 x1 x2 x3 x4 x5; unfold hsReply; vf [vf_field _ _ _, vf_finishHandshake _ _ _ _ _ _ _ _, vf_handleFinish _ _ _ _ _ _ _ _]

theorem vf_hsCheck : ∀ x0 x1 x2 x3 x4, Vf A (hsCheck x0 x1 x2 x3 x4) := by
  intro x0 x1 x2 x3 x4; unfold hsCheck; vf [vf_checkMtu _ _ _ _ _, vf_field _ _ _]

theorem vf_hsKnown (hA : Env.onVerify = some true → ∀ i, A i) : ∀ x0 x1 x2 x3 x4, Vf A (hsKnown x0 x1 x2 x3 x4) := by
  intro x0 x1 x2 x3 x4; unfold hsKnown; vf [vf_hsCheck _ _ _ _ _, vf_hsVerified hA _ _ _ _ _ _, vf_hsInitial _ _ _ _ _ _, vf_hsReply _ _ _ _ _ _]

theorem vf_handshakeHandle (hA : Env.onVerify = some true → ∀ i, A i) : ∀ x0 x1 x2 x3 x4, Vf A (handshakeHandle x0 x1 x2 x3 x4) := by
  intro x0 x1 x2 x3 x4; unfold handshakeHandle; vf [vf_protoMaintenance, vf_field _ _ _, vf_matchSenderKey _ _ _ _, vf_hsKnown hA _ _ _ _ _, vf_addDynamic _ _]

theorem vf_canReceive : ∀ x0 x1, Vf A (canReceive x0 x1) := by
  intro x0 x1; unfold canReceive; vf [Vf.unit]

theorem vf_allowUnknown : Vf A (allowUnknown) := by
  unfold allowUnknown; vf [Vf.unit]

theorem vf_backoff : ∀ x0, Vf A (backoff x0) := by
  intro x0; unfold backoff; vf [Vf.unit]

theorem vf_hsPacket (hA : Env.onVerify = some true → ∀ i, A i) : ∀ x0 x1 x2 x3 x4 x5, Vf A (hsPacket x0 x1 x2 x3 x4 x5) := by
  intro x0 x1 x2 x3 x4 x5; unfold hsPacket; vf [vf_sendError _ _ _ _ _ _ _ _, vf_handshakeHandle hA _ _ _ _ _]

theorem vf_classify (hA : Env.onVerify = some true → ∀ i, A i) : ∀ x0 x1 x2 x3 x4 x5, Vf A (classify x0 x1 x2 x3 x4 x5) := by
  intro x0 x1 x2 x3 x4 x5; unfold classify; vf [vf_memIfNone _, vf_canReceive _ _, vf_handleRecv _ _, vf_allowUnknown, vf_hsPacket hA _ _ _ _ _ _, vf_backoff _, vf_handshakeInit _ _ _ _]

theorem vf_senderOf : ∀ x0 x1, Vf A (senderOf x0 x1) := by
  intro x0 x1; unfold senderOf; vf [vf_sockPeer _, vf_htLookup _]

theorem vf_socketReceive (hA : Env.onVerify = some true → ∀ i, A i) : ∀ x0 x1 x2 x3, Vf A (socketReceive x0 x1 x2 x3) := by
  intro x0 x1 x2 x3; unfold socketReceive; vf [vf_senderOf _ _, vf_memIfNone _, vf_classify hA _ _ _ _ _ _]

theorem vf_resolveReturn : ∀ x0 x1 x2, Vf A (resolveReturn x0 x1 x2) := by
  intro x0 x1 x2; unfold resolveReturn; vf [vf_handleResolve _ _ _]

theorem vf_verifyReturn (v : Verif) : Vf A (verifyReturn v false) := by
  unfold verifyReturn; vf [vf_unverified _, vf_handleVerifyReturn _ _]

theorem vf_verifyReturn_ok {c : Ctx} (hs : Sorted c.peers) {v : Verif} (hA : A v.peer) : VfAt A c (verifyReturn v true) := by
  unfold verifyReturn
  show VfAt A c (match findById c.peers v.peer with
    | none => pure ()
    | some p => if !p.isDynamic then fail .bug
      else do
        setVerified p.id true
        handleVerifyReturn v true)
  split
  · exact Vf.pure c
  · rename_i p hp
    have hi := (findById_some hs hp).2
    exact Vf.ite Vf.fail (Vf.bind (vf_setVerified (by rw [hi]; exact hA) true) fun _ => vf_handleVerifyReturn _ _) c

theorem vf_configurePeer : ∀ x0 x1, Vf A (configurePeer x0 x1) := by
  intro x0 x1; unfold configurePeer; vf [vf_peerDelete _, vf_peerReset _]

theorem vf_configureLoop (d : Bool) (n : Nat) : Vf A (configureLoop d n) := by
  induction n with
  | zero => exact Vf.unit
  | succ n ih => unfold configureLoop; vf [vf_memIfNone _, vf_configurePeer _ _, ih]

theorem vf_configurePeers : ∀ x0, Vf A (configurePeers x0) := by
  intro x0; unfold configurePeers; vf [vf_configureLoop _ _]

theorem vf_addDef : ∀ x0 x1, Vf A (addDef x0 x1) := by
  intro x0 x1; unfold addDef; vf [vf_peerAdd rfl]

theorem Vf.mark : Vf A (Daemon.modify fun c => { c with peers := c.peers.map reloadMark }) := by
  intro c a c' h
  cases h
  refine ⟨rfl, fun p' hp => ?_⟩
  obtain ⟨p, hm, rfl⟩ := List.mem_map.1 hp
  have : (reloadMark p).id = p.id ∧ (reloadMark p).verifyValid = p.verifyValid := by
    unfold reloadMark
    (repeat' split) <;> exact ⟨rfl, rfl⟩
  exact .inr (.inr (.inl ⟨p, hm, this.1.symm, this.2⟩))

theorem vf_loadPeerDirs : ∀ x0 x1, Vf A (loadPeerDirs x0 x1) := by
  intro x0 x1; unfold loadPeerDirs; vf [Vf.mark, vf_addDef _ _, vf_configurePeers _]


theorem vf_statics (l : List PeerDef) : Vf A (forEach addStatic l) := by
  refine Vf.forEach (fun d => ?_) l
  unfold addStatic
  vf [vf_peerAdd rfl]

theorem vf_startup (static dirs : List PeerDef) : Vf A (startup static dirs) := by
  unfold startup; vf [vf_statics _, vf_configurePeers _, vf_loadPeerDirs _ _]

theorem vf_ethCleanup : Vf A (ethCleanup) := by
  unfold ethCleanup; vf [Vf.unit]

/-- Events other than results of verification. -/
theorem vf_handle (hA : Env.onVerify = some true → ∀ i, A i) (e : Event) (he : ∀ d, e ≠ .tick d) (hv : ∀ k, e ≠ .verified k true) :
    Vf A (handle e) := by
  cases e with
  | tick d => exact absurd rfl (he d)
  | task i => exact vf_peerTask i
  | maintenance => unfold handle; vf [vf_ethCleanup]
  | recv s l r p => exact vf_socketReceive hA s l r p
  | iface o d => exact vf_sendData d none o
  | resolved k l => unfold handle; vf [vf_memIfNone _, vf_resolveReturn _ _ _]
  | verified k o =>
    cases o with
    | true => exact absurd rfl (hv k)
    | false => unfold handle; vf [vf_memIfNone _, vf_verifyReturn _]
  | reload l => exact vf_loadPeerDirs false l
  | resetAll => unfold handle; vf [vf_resetAll _ _]

/-- The peer that a verification was started for becomes verified if its result is positive. -/
theorem vf_verified {c : Ctx} (hs : Sorted c.peers) {k : Nat} {v : Verif} (hv : c.verifs[k]? = some v) (hA : A v.peer) :
    VfAt A c (handle (.verified k true)) := by
  intro a c' h
  have h' : (memIfNone (c.verifs[k]?) >>= fun v => do
      modify fun c => { c with verifs := c.verifs.eraseIdx k }
      verifyReturn v true) c = .ok (a, c') := h
  rw [hv] at h'
  have h2 : verifyReturn v true { c with verifs := c.verifs.eraseIdx k } = .ok (a, c') := h'
  exact (VRel.same (c' := { c with verifs := c.verifs.eraseIdx k }) rfl rfl).trans
    (vf_verifyReturn_ok (c := { c with verifs := c.verifs.eraseIdx k }) hs hA a c' h2)

end Fastd.Daemon
