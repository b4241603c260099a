import Verif.Daemon.History

/-!
# Handshake keys in the daemon, and computations that do not exit

`Ks b m`: the handshake keys change in `m` only by the maintenance function at the current time, and if `b` holds `m` does not call `exit(1)`.
Helper lemmas.
-/

namespace Fastd.Daemon

set_option linter.unusedSectionVars false

variable [Env] {α β : Type} {b : Bool}

/-- Any number of runs of the maintenance function at a time. -/
inductive KSteps (now : Time) : Protocol.HKeys Nat → Protocol.HKeys Nat → Prop
  | refl {k} : KSteps now k k
  | step {k k'} (fresh : Nat) : KSteps now k k' → KSteps now k (k'.maintenance now fresh)

theorem KSteps.trans {now : Time} {k k' k'' : Protocol.HKeys Nat} (h : KSteps now k k') (h' : KSteps now k' k'') :
    KSteps now k k'' := by
  induction h' with
  | refl => exact h
  | step f _ ih => exact .step f ih

/-- How keys change. -/
def KRel (c c' : Ctx) : Prop := c'.now = c.now ∧ KSteps c.now c.keys c'.keys

theorem KRel.refl (c : Ctx) : KRel c c := ⟨rfl, .refl⟩

theorem KRel.trans {c c' c'' : Ctx} (h : KRel c c') (h' : KRel c' c'') : KRel c c'' :=
  ⟨h'.1.trans h.1, h.2.trans (by rw [← h.1]; exact h'.2)⟩

def Ks (b : Bool) (m : M α) : Prop := ∀ c,
  match m c with
  | .ok (_, c') => KRel c c'
  | .error e => e ≠ .config ∧ (b = true → e ≠ .exit)

theorem Ks.pure {a : α} : Ks b (Pure.pure a : M α) := fun c => KRel.refl c

theorem Ks.unit : Ks b (Pure.pure () : M Unit) := Ks.pure

theorem Ks.bug : Ks b (fail .bug : M α) := fun _ => ⟨nofun, fun _ => nofun⟩
theorem Ks.mem : Ks b (fail .mem : M α) := fun _ => ⟨nofun, fun _ => nofun⟩
theorem Ks.fuel : Ks b (fail .fuel : M α) := fun _ => ⟨nofun, fun _ => nofun⟩
theorem Ks.exit : Ks false (fail .exit : M α) := fun _ => ⟨nofun, fun h => by cases h⟩

theorem Ks.get : Ks b get := fun c => KRel.refl c

theorem Ks.modify {f : Ctx → Ctx} (h1 : ∀ c, (f c).now = c.now) (h2 : ∀ c, (f c).keys = c.keys) : Ks b (modify f) := by
  intro c
  show KRel c (f c)
  exact ⟨h1 c, by rw [h2 c]; exact .refl⟩

theorem Ks.draw : Ks b draw := fun _ => ⟨rfl, .refl⟩

theorem Ks.emit {e : Eff} : Ks b (emit e) := Ks.modify (fun _ => rfl) fun _ => rfl

theorem Ks.bind {m : M α} {f : α → M β} (h : Ks b m) (hf : ∀ a, Ks b (f a)) : Ks b (m >>= f) := by
  intro c
  have h1 := h c
  rw [bind_def]
  cases hm : m c with
  | error e => rw [hm] at h1; exact h1
  | ok v =>
    obtain ⟨a, c1⟩ := v
    rw [hm] at h1
    have h2 := hf a c1
    simp only []
    cases hf1 : f a c1 with
    | error e => rw [hf1] at h2; exact h2
    | ok w => rw [hf1] at h2; exact h1.trans h2

theorem Ks.drawBool : Ks b drawBool := Ks.bind Ks.draw fun _ => Ks.pure
theorem Ks.rand {x y : Time} : Ks b (rand x y) := Ks.bind Ks.draw fun _ => Ks.pure

theorem Ks.ite {p : Prop} [Decidable p] {m m' : M α} (h : Ks b m) (h' : Ks b m') : Ks b (if p then m else m') := by
  split
  · exact h
  · exact h'

theorem Ks.when {p : Bool} {m : M Unit} (h : Ks b m) : Ks b (when p m) := by
  unfold Daemon.when
  exact Ks.ite h Ks.pure

theorem Ks.getP {i : Nat} : Ks b (getP i) := by
  unfold Daemon.getP
  refine Ks.bind Ks.get fun _ => ?_
  split
  · exact Ks.pure
  · exact Ks.mem

theorem Ks.modP {i : Nat} {f : Peer → Peer} : Ks b (modP i f) := by
  unfold Daemon.modP
  exact Ks.bind Ks.getP fun _ => Ks.modify (fun _ => rfl) fun _ => rfl

theorem Ks.forEach {f : α → M Unit} (hf : ∀ a, Ks b (f a)) (l : List α) : Ks b (forEach f l) := by
  induction l with
  | nil => exact Ks.pure
  | cons a as ih => exact Ks.bind (hf a) fun _ => ih

/-- Proves `Ks` for a program of known parts. -/
syntax "ks" "[" term,* "]" : tactic

macro_rules
  | `(tactic| ks [$ls,*]) => `(tactic| repeat' (first
      | exact Ks.pure
      | exact Ks.bug
      | exact Ks.mem
      | exact Ks.fuel
      | exact Ks.exit
      | exact Ks.get
      | exact Ks.getP
      | exact Ks.modP
      | exact Ks.draw
      | exact Ks.drawBool
      | exact Ks.rand
      | exact Ks.modify (fun _ => rfl) (fun _ => rfl)
      | exact Ks.emit
      | (first $[| exact $(ls.getElems)]*)
      | with_reducible refine Ks.bind ?_ fun _ => ?_
      | with_reducible refine Ks.when ?_
      | with_reducible refine Ks.forEach (fun _ => ?_) _
      | with_reducible refine Ks.ite ?_ ?_
      | split))

theorem ks_htInsertFuel (n i : Nat) : Ks b (htInsertFuel n i) := by
  induction n generalizing i with
  | zero => exact Ks.fuel
  | succ n ih => unfold htInsertFuel; ks [ih _]

theorem ks_htInsert (i : Nat) : Ks b (htInsert i) := ks_htInsertFuel 2 i

theorem ks_htRemove : ∀ x0, Ks b (htRemove x0) := by
  intro x0; unfold htRemove; ks [Ks.unit]

theorem ks_htScan (a : Addr) (l : List Nat) : Ks b (htScan a l) := by
  induction l with
  | nil => exact Ks.pure
  | cons i l ih => unfold htScan; ks [ih]

theorem ks_htLookup : ∀ x0, Ks b (htLookup x0) := by
  intro x0; unfold htLookup; ks [ks_htScan _ _]

theorem ethSearch_exit (es : List Eth) (a : Bytes) :
    ∀ n l r e, ethSearch es a n l r = .error e → e ≠ .config ∧ e ≠ .exit := by
  intro n
  induction n with
  | zero => intro l r e h; cases h; exact ⟨nofun, nofun⟩
  | succ n ih =>
    intro l r e
    unfold ethSearch
    split
    · dsimp only
      split
      · intro h; cases h; exact ⟨nofun, nofun⟩
      · split
        · intro h; cases h
        · exact ih _ _ _
        · exact ih _ _ _
    · intro h; cases h

theorem ks_ethPut (o : Option Nat) (a : Bytes) : Ks b (ethPut o a) := by
  unfold ethPut
  refine Ks.bind Ks.get fun c => ?_
  split
  · rename_i e he
    have := ethSearch_exit _ _ _ _ _ _ he
    exact fun _ => ⟨this.1, fun _ => this.2⟩
  · ks [Ks.unit]
  · ks [Ks.unit]

theorem ks_ethAdd : ∀ x0 x1, Ks b (ethAdd x0 x1) := by
  intro x0 x1; unfold ethAdd; ks [ks_ethPut _ _]

theorem ks_sockLive : ∀ x0, Ks b (sockLive x0) := by
  intro x0; unfold sockLive; ks [Ks.unit]

theorem ks_sockPeer : ∀ x0, Ks b (sockPeer x0) := by
  intro x0; unfold sockPeer; ks [Ks.unit]

theorem ks_freeSocket : ∀ x0, Ks b (freeSocket x0) := by
  intro x0; unfold freeSocket; ks [ks_sockPeer _]

theorem ks_socketOpen : ∀ x0, Ks false (socketOpen x0) := by
  intro x0; unfold socketOpen; ks [Ks.unit]

theorem ks_newSocket : ∀ x0 x1, Ks false (newSocket x0 x1) := by
  intro x0 x1; unfold newSocket; ks [ks_socketOpen _]

theorem ks_resetSocket : ∀ x0, Ks false (resetSocket x0) := by
  intro x0; unfold resetSocket; ks [ks_freeSocket _, ks_newSocket _ _]

theorem ks_schedulePeerTask : ∀ x0, Ks b (schedulePeerTask x0) := by
  intro x0; unfold schedulePeerTask; ks [Ks.unit]

theorem ks_setNextHandshake : ∀ x0 x1, Ks b (setNextHandshake x0 x1) := by
  intro x0 x1; unfold setNextHandshake; ks [Ks.unit]

theorem ks_handshakeDefaultRand : Ks b (handshakeDefaultRand) := by
  unfold handshakeDefaultRand; ks [Ks.unit]

theorem ks_setNextHandshakeDefault : ∀ x0, Ks b (setNextHandshakeDefault x0) := by
  intro x0; unfold setNextHandshakeDefault; ks [ks_handshakeDefaultRand, ks_setNextHandshake _ _]

theorem ks_scheduleHandshake : ∀ x0 x1, Ks b (scheduleHandshake x0 x1) := by
  intro x0 x1; unfold scheduleHandshake; ks [ks_setNextHandshake _ _, ks_schedulePeerTask _]

theorem ks_scheduleHandshakeDefault : ∀ x0, Ks b (scheduleHandshakeDefault x0) := by
  intro x0; unfold scheduleHandshakeDefault; ks [ks_handshakeDefaultRand, ks_scheduleHandshake _ _]

theorem ks_freeState : ∀ x0, Ks b (freeState x0) := by
  intro x0; unfold freeState; ks [Ks.unit]

theorem ks_freeSession : ∀ x0, Ks b (freeSession x0) := by
  intro x0; unfold freeSession; ks [ks_freeState _]

theorem ks_resetPeerState : ∀ x0, Ks b (resetPeerState x0) := by
  intro x0; unfold resetPeerState; ks [ks_freeSession _]

theorem ks_resetPeer : ∀ x0, Ks b (resetPeer x0) := by
  intro x0; unfold resetPeer; ks [ks_freeSocket _, ks_resetPeerState _, ks_htRemove _]

theorem ks_initDelay : ∀ x0, Ks b (initDelay x0) := by
  intro x0; unfold initDelay; ks [Ks.unit]

theorem ks_initHandshake : ∀ x0, Ks b (initHandshake x0) := by
  intro x0; unfold initHandshake; ks [ks_initDelay _, ks_scheduleHandshake _ _]

theorem ks_getR : ∀ x0 x1, Ks b (getR x0 x1) := by
  intro x0 x1; unfold getR; ks [Ks.unit]

theorem ks_modR : ∀ x0 x1 x2, Ks b (modR x0 x1 x2) := by
  intro x0 x1 x2; unfold modR; ks [ks_getR _ _]

theorem ks_resolvePeer : ∀ x0 x1, Ks b (resolvePeer x0 x1) := by
  intro x0 x1; unfold resolvePeer; ks [ks_getR _ _, ks_modR _ _ _]

theorem ks_setupIface : ∀ x0, Ks false (setupIface x0) := by
  intro x0; unfold setupIface; ks [Ks.unit]

theorem ks_setupConnect : ∀ x0, Ks b (setupConnect x0) := by
  intro x0; unfold setupConnect; ks [ks_getR _ _, ks_modR _ _ _, ks_resolvePeer _ _, ks_setNextHandshakeDefault _, ks_initHandshake _]

theorem ks_setupPeer : ∀ x0, Ks false (setupPeer x0) := by
  intro x0; unfold setupPeer; ks [ks_setupIface _, ks_setupConnect _, ks_schedulePeerTask _]

theorem ks_peerReset : ∀ x0, Ks false (peerReset x0) := by
  intro x0; unfold peerReset; ks [ks_resetPeer _, ks_setupPeer _]

theorem ks_deletePeer : ∀ x0, Ks b (deletePeer x0) := by
  intro x0; unfold deletePeer; ks [ks_resetPeerState _]

theorem ks_peerDelete : ∀ x0, Ks b (peerDelete x0) := by
  intro x0; unfold peerDelete; ks [ks_resetPeer _, ks_deletePeer _]

theorem ks_handleResolve : ∀ x0 x1 x2, Ks b (handleResolve x0 x1 x2) := by
  intro x0 x1 x2; unfold handleResolve; ks [ks_modR _ _ _, ks_initHandshake _]

theorem ks_resetPeerAddress : ∀ x0, Ks false (resetPeerAddress x0) := by
  intro x0; unfold resetPeerAddress; ks [ks_peerReset _, ks_htRemove _]

theorem ks_claimSock : ∀ x0 x1, Ks b (claimSock x0 x1) := by
  intro x0 x1; unfold claimSock; ks [ks_sockLive _, ks_freeSocket _]

theorem ks_claimFinish : ∀ x0 x1 x2 x3, Ks b (claimFinish x0 x1 x2 x3) := by
  intro x0 x1 x2 x3; unfold claimFinish; ks [ks_htRemove _, ks_htInsert _, ks_claimSock _ _]

theorem ks_claimAddress : ∀ x0 x1 x2 x3 x4, Ks false (claimAddress x0 x1 x2 x3 x4) := by
  intro x0 x1 x2 x3 x4; unfold claimAddress; ks [ks_peerReset _, ks_claimFinish _ _ _ _, ks_resetPeerAddress _]

theorem ks_addNew : ∀ x0, Ks b (addNew x0) := by
  intro x0; unfold addNew; ks [Ks.unit]

theorem ks_peerAdd : ∀ x0, Ks b (peerAdd x0) := by
  intro x0; unfold peerAdd; ks [ks_addNew _, ks_peerDelete _]

theorem ks_sendRetry : ∀ x0 x1, Ks b (send.sendRetry x0 x1) := by
  intro x0 x1; unfold send.sendRetry; ks [ks_scheduleHandshakeDefault _]

theorem ks_send : ∀ x0 x1 x2 x3 x4, Ks b (send x0 x1 x2 x3 x4) := by
  intro x0 x1 x2 x3 x4; unfold send; ks [ks_sockLive _, ks_sendRetry _ _]

theorem ks_bugIfNone (o : Option α) : Ks b (bugIfNone o) := by unfold bugIfNone; ks [Ks.unit]

theorem ks_memIfNone (o : Option α) : Ks b (memIfNone o) := by unfold memIfNone; ks [Ks.unit]

theorem ks_deref (o : Option α) : Ks b (deref o) := ks_memIfNone o

theorem ks_sendHandshakePkt : ∀ x0 x1 x2 x3 x4 x5, Ks b (sendHandshakePkt x0 x1 x2 x3 x4 x5) := by
  intro x0 x1 x2 x3 x4 x5; unfold sendHandshakePkt; ks [ks_send _ _ _ _ _]

theorem ks_sendError : ∀ x0 x1 x2 x3 x4 x5 x6 x7, Ks b (sendError x0 x1 x2 x3 x4 x5 x6 x7) := by
  intro x0 x1 x2 x3 x4 x5 x6 x7; unfold sendError; ks [ks_bugIfNone _, ks_sendHandshakePkt _ _ _ _ _ _]

theorem ks_protoMaintenance : Ks b protoMaintenance := fun _ => ⟨rfl, .step _ .refl⟩

theorem ks_peerKeyOf : ∀ x0, Ks b (peerKeyOf x0) := by
  intro x0; unfold peerKeyOf; ks [Ks.unit]

theorem ks_handshakeInit : ∀ x0 x1 x2 x3, Ks b (handshakeInit x0 x1 x2 x3) := by
  intro x0 x1 x2 x3; unfold handshakeInit; ks [ks_protoMaintenance, ks_peerKeyOf _, ks_bugIfNone _, ks_sendHandshakePkt _ _ _ _ _ _]

theorem ks_getObj : ∀ x0, Ks b (getObj x0) := by
  intro x0; unfold getObj; ks [ks_memIfNone _]

theorem ks_setObj : ∀ x0 x1, Ks b (setObj x0 x1) := by
  intro x0 x1; unfold setObj; ks [Ks.unit]

theorem ks_sessionValid : ∀ x0, Ks b (sessionValid x0) := by
  intro x0; unfold sessionValid; ks [ks_getObj _]

theorem ks_wantRefresh : ∀ x0, Ks b (wantRefresh x0) := by
  intro x0; unfold wantRefresh; ks [ks_deref _, ks_getObj _]

theorem ks_checkSessionRefresh : ∀ x0, Ks b (checkSessionRefresh x0) := by
  intro x0; unfold checkSessionRefresh; ks [ks_wantRefresh _, ks_scheduleHandshake _ _]

theorem ks_checkSession : ∀ x0, Ks false (checkSession x0) := by
  intro x0; unfold checkSession; ks [ks_sessionValid _, ks_peerReset _]

theorem ks_isInitiator : ∀ x0, Ks b (isInitiator x0) := by
  intro x0; unfold isInitiator; ks [ks_deref _, ks_getObj _]

theorem ks_useOldSession : ∀ x0, Ks b (useOldSession x0) := by
  intro x0; unfold useOldSession; ks [ks_isInitiator _, ks_sessionValid _]

theorem ks_clearKeepalive : ∀ x0, Ks b (clearKeepalive x0) := by
  intro x0; unfold clearKeepalive; ks [Ks.unit]

theorem ks_sessionSend : ∀ x0 x1 x2, Ks b (sessionSend x0 x1 x2) := by
  intro x0 x1 x2; unfold sessionSend; ks [ks_deref _, ks_getObj _, ks_setObj _ _, ks_send _ _ _ _ _, ks_clearKeepalive _]

theorem ks_protocolSend : ∀ x0 x1, Ks false (protocolSend x0 x1) := by
  intro x0 x1; unfold protocolSend; ks [ks_checkSession _, ks_checkSessionRefresh _, ks_useOldSession _, ks_sessionSend _ _ _]

theorem ks_sendEmpty : ∀ x0, Ks b (sendEmpty x0) := by
  intro x0; unfold sendEmpty; ks [ks_sessionSend _ _ _]

theorem ks_sendOne : ∀ x0 x1 x2, Ks false (sendOne x0 x1 x2) := by
  intro x0 x1 x2; unfold sendOne; ks [ks_protocolSend _ _]

theorem ks_sendAll (d : Bytes) (s : Option Nat) (n k : Nat) : Ks false (sendAll d s n k) := by
  induction n generalizing k with
  | zero => exact Ks.fuel
  | succ n ih => unfold sendAll; ks [ks_sendOne _ _ _, ih _]

theorem ks_learnLocal : ∀ x0 x1, Ks b (learnLocal x0 x1) := by
  intro x0 x1; unfold learnLocal; ks [ks_ethAdd _ _]

theorem ks_sendTapSingle : ∀ x0 x1, Ks false (sendTapSingle x0 x1) := by
  intro x0 x1; unfold sendTapSingle; ks [ks_learnLocal _ _, ks_protocolSend _ _]

theorem ks_sendData : ∀ x0 x1 x2, Ks false (sendData x0 x1 x2) := by
  intro x0 x1 x2; unfold sendData; ks [ks_sendTapSingle _ _, ks_protocolSend _ _, ks_sendAll _ _ _ _]

theorem ks_learnRemote : ∀ x0 x1, Ks b (learnRemote x0 x1) := by
  intro x0 x1; unfold learnRemote; ks [ks_ethAdd _ _]

theorem ks_handleReceive : ∀ x0 x1, Ks false (handleReceive x0 x1) := by
  intro x0 x1; unfold handleReceive; ks [ks_learnRemote _ _, ks_sendData _ _ _]

theorem ks_decryptWith : ∀ x0 x1 x2, Ks b (decryptWith x0 x1 x2) := by
  intro x0 x1 x2; unfold decryptWith; ks [ks_deref _, ks_getObj _, ks_setObj _ _]

theorem ks_tryOld : ∀ x0 x1, Ks b (tryOld x0 x1) := by
  intro x0 x1; unfold tryOld; ks [ks_sessionValid _, ks_decryptWith _ _ _]

theorem ks_dropOld : ∀ x0, Ks b (dropOld x0) := by
  intro x0; unfold dropOld; ks [ks_freeState _]

theorem ks_unscheduleHandshake : ∀ x0, Ks b (unscheduleHandshake x0) := by
  intro x0; unfold unscheduleHandshake; ks [Ks.unit]

theorem ks_cleanHandshakes : ∀ x0, Ks b (cleanHandshakes x0) := by
  intro x0; unfold cleanHandshakes; ks [ks_unscheduleHandshake _, ks_isInitiator _, ks_sendEmpty _]

theorem ks_seen : ∀ x0, Ks b (seen x0) := by
  intro x0; unfold seen; ks [Ks.unit]

theorem ks_setVerifying : ∀ x0, Ks b (setVerifying x0) := by
  intro x0; unfold setVerifying; ks [Ks.unit]

theorem ks_setVerified : ∀ x0 x1, Ks b (setVerified x0 x1) := by
  intro x0 x1; unfold setVerified; ks [Ks.unit]

theorem ks_deliver : ∀ x0 x1, Ks false (deliver x0 x1) := by
  intro x0 x1; unfold deliver; ks [ks_seen _, ks_handleReceive _ _]

theorem ks_handleRecv : ∀ x0 x1, Ks false (handleRecv x0 x1) := by
  intro x0 x1; unfold handleRecv; ks [ks_checkSession _, ks_tryOld _ _, ks_deliver _ _, ks_decryptWith _ _ _, ks_dropOld _, ks_cleanHandshakes _, ks_checkSessionRefresh _]

theorem ks_chooseAddress : ∀ x0 x1, Ks false (chooseAddress x0 x1) := by
  intro x0 x1; unfold chooseAddress; ks [ks_deref _, ks_getR _ _, ks_memIfNone _, ks_claimAddress _ _ _ _ _, ks_resetSocket _]

theorem ks_sendHandshake : ∀ x0 x1, Ks false (sendHandshake x0 x1) := by
  intro x0 x1; unfold sendHandshake; ks [ks_chooseAddress _ _, ks_handshakeInit _ _ _ _]

theorem ks_nextRemote : ∀ x0, Ks b (nextRemote x0) := by
  intro x0; unfold nextRemote; ks [ks_deref _, ks_modR _ _ _, ks_getR _ _, ks_resolvePeer _ _]

theorem ks_advanceRemote : ∀ x0 x1, Ks b (advanceRemote x0 x1) := by
  intro x0 x1; unfold advanceRemote; ks [ks_deref _, ks_modR _ _ _, ks_getR _ _, ks_nextRemote _]

theorem ks_handleTaskHandshake : ∀ x0, Ks false (handleTaskHandshake x0) := by
  intro x0; unfold handleTaskHandshake; ks [ks_setNextHandshakeDefault _, ks_sendHandshake _ _, ks_advanceRemote _ _, ks_nextRemote _]

theorem ks_handleTaskKeepalive : ∀ x0, Ks false (handleTaskKeepalive x0) := by
  intro x0; unfold handleTaskKeepalive; ks [ks_protocolSend _ _, ks_clearKeepalive _]

theorem ks_handleTaskDueHandshake : ∀ x0, Ks false (handleTaskDueHandshake x0) := by
  intro x0; unfold handleTaskDueHandshake; ks [ks_handleTaskHandshake _]

theorem ks_peerTask : ∀ x0, Ks false (peerTask x0) := by
  intro x0; unfold peerTask; ks [ks_peerDelete _, ks_peerReset _, ks_handleTaskKeepalive _, ks_handleTaskDueHandshake _, ks_schedulePeerTask _]

theorem ks_resetAll (n k : Nat) : Ks false (resetAll n k) := by
  induction n generalizing k with
  | zero => exact Ks.fuel
  | succ n ih => unfold resetAll; ks [ks_peerDelete _, ks_peerReset _, ih _]

theorem ks_supersedeKeep : ∀ x0, Ks b (supersedeKeep x0) := by
  intro x0; unfold supersedeKeep; ks [ks_sessionValid _]

theorem ks_supersedeFirst : ∀ x0, Ks b (supersedeFirst x0) := by
  intro x0; unfold supersedeFirst; ks [ks_supersedeKeep _, ks_freeSession _]

theorem ks_supersedeSecond : ∀ x0 x1, Ks b (supersedeSecond x0 x1) := by
  intro x0 x1; unfold supersedeSecond; ks [ks_freeState _, ks_deref _, ks_getObj _, ks_setObj _ _]

theorem ks_supersede : ∀ x0 x1, Ks b (supersede x0 x1) := by
  intro x0 x1; unfold supersede; ks [ks_supersedeFirst _, ks_supersedeSecond _ _]

theorem ks_newSession : ∀ x0 x1 x2 x3 x4, Ks b (newSession x0 x1 x2 x3 x4) := by
  intro x0 x1 x2 x3 x4; unfold newSession; ks [ks_supersede _ _]

theorem ks_openIface : ∀ x0, Ks false (openIface x0) := by
  intro x0; unfold openIface; ks [Ks.unit]

theorem ks_setEstablished : ∀ x0, Ks false (setEstablished x0) := by
  intro x0; unfold setEstablished; ks [ks_openIface _, ks_seen _, ks_clearKeepalive _, ks_schedulePeerTask _]

theorem ks_establishEnd : ∀ x0 x1, Ks b (establishEnd x0 x1) := by
  intro x0 x1; unfold establishEnd; ks [ks_scheduleHandshakeDefault _, ks_sendEmpty _]

theorem ks_establish : ∀ x0 x1 x2 x3 x4 x5 x6 x7, Ks false (establish x0 x1 x2 x3 x4 x5 x6 x7) := by
  intro x0 x1 x2 x3 x4 x5 x6 x7; unfold establish; ks [ks_claimAddress _ _ _ _ _, ks_peerReset _, ks_newSession _ _ _ _ _, ks_setEstablished _, ks_establishEnd _ _]

theorem ks_updateShared : ∀ x0 x1 x2, Ks b (updateShared x0 x1 x2) := by
  intro x0 x1 x2; unfold updateShared; ks [Ks.unit]

theorem ks_clearShared : ∀ x0, Ks b (clearShared x0) := by
  intro x0; unfold clearShared; ks [Ks.unit]

theorem ks_respondHandshake : ∀ x0 x1 x2 x3 x4 x5, Ks b (respondHandshake x0 x1 x2 x3 x4 x5) := by
  intro x0 x1 x2 x3 x4 x5; unfold respondHandshake; ks [ks_updateShared _ _ _, ks_bugIfNone _, ks_sendHandshakePkt _ _ _ _ _ _]

theorem ks_record : ∀ x0 x1, Ks b (record x0 x1) := by
  intro x0 x1; unfold record; ks [ks_memIfNone _]

theorem ks_field : ∀ x0 x1 x2, Ks b (field x0 x1 x2) := by
  intro x0 x1 x2; unfold field; ks [ks_memIfNone _]

theorem ks_sendFinish : ∀ x0 x1 x2 x3 x4 x5 x6 x7 x8, Ks b (sendFinish x0 x1 x2 x3 x4 x5 x6 x7 x8) := by
  intro x0 x1 x2 x3 x4 x5 x6 x7 x8; unfold sendFinish; ks [ks_bugIfNone _, ks_sendHandshakePkt _ _ _ _ _ _]

theorem ks_finishHandshake : ∀ x0 x1 x2 x3 x4 x5 x6 x7, Ks false (finishHandshake x0 x1 x2 x3 x4 x5 x6 x7) := by
  intro x0 x1 x2 x3 x4 x5 x6 x7; unfold finishHandshake; ks [ks_record _ _, ks_sendError _ _ _ _ _ _ _ _, ks_establish _ _ _ _ _ _ _ _, ks_sendFinish _ _ _ _ _ _ _ _ _]

theorem ks_handleFinish : ∀ x0 x1 x2 x3 x4 x5 x6 x7, Ks false (handleFinish x0 x1 x2 x3 x4 x5 x6 x7) := by
  intro x0 x1 x2 x3 x4 x5 x6 x7; unfold handleFinish; ks [ks_record _ _, ks_sendError _ _ _ _ _ _ _ _, ks_establish _ _ _ _ _ _ _ _, ks_updateShared _ _ _, ks_clearShared _]

theorem ks_matchSenderKey : ∀ x0 x1 x2 x3, Ks b (matchSenderKey x0 x1 x2 x3) := by
  intro x0 x1 x2 x3; unfold matchSenderKey; ks [ks_sockPeer _]

theorem ks_addDynamic : ∀ x0 x1, Ks false (addDynamic x0 x1) := by
  intro x0 x1; unfold addDynamic; ks [ks_sockPeer _, ks_peerAdd _, ks_peerReset _]

theorem ks_verifyPeer : ∀ x0 x1, Ks b (verifyPeer x0 x1) := by
  intro x0 x1; unfold verifyPeer; ks [ks_setVerifying _, ks_setVerified _ _]

theorem ks_handleDynamic : ∀ x0 x1 x2 x3 x4 x5, Ks b (handleDynamic x0 x1 x2 x3 x4 x5) := by
  intro x0 x1 x2 x3 x4 x5; unfold handleDynamic; ks [ks_verifyPeer _ _, ks_peerDelete _]

theorem ks_hsVerified : ∀ x0 x1 x2 x3 x4 x5, Ks b (hsVerified x0 x1 x2 x3 x4 x5) := by
  intro x0 x1 x2 x3 x4 x5; unfold hsVerified; ks [ks_handleDynamic _ _ _ _ _ _]

theorem ks_handleVerifyReturn : ∀ x0 x1, Ks b (handleVerifyReturn x0 x1) := by
  intro x0 x1; unfold handleVerifyReturn; ks [ks_respondHandshake _ _ _ _ _ _]

theorem ks_checkMtu : ∀ x0 x1 x2 x3 x4, Ks b (checkMtu x0 x1 x2 x3 x4) := by
  intro x0 x1 x2 x3 x4; unfold checkMtu; ks [ks_memIfNone _, ks_sendError _ _ _ _ _ _ _ _]

theorem ks_hsInitial : ∀ x0 x1 x2 x3 x4 x5, Ks b (hsInitial x0 x1 x2 x3 x4 x5) := by
  intro x0 x1 x2 x3 x4 x5; unfold hsInitial; ks [ks_respondHandshake _ _ _ _ _ _]

theorem ks_hsReply : ∀ x0 x1 x2 x3 x4 x5, Ks false (hsReply x0 x1 x2 x3 x4 x5) := by
  intro x0 x1 x2 x3 x4 x5; unfold hsReply; ks [ks_field _ _ _, ks_finishHandshake _ _ _ _ _ _ _ _, ks_handleFinish _ _ _ _ _ _ _ _]

theorem ks_hsCheck : ∀ x0 x1 x2 x3 x4, Ks b (hsCheck x0 x1 x2 x3 x4) := by
  intro x0 x1 x2 x3 x4; unfold hsCheck; ks [ks_checkMtu _ _ _ _ _, ks_field _ _ _]

theorem ks_hsKnown : ∀ x0 x1 x2 x3 x4, Ks false (hsKnown x0 x1 x2 x3 x4) := by
  intro x0 x1 x2 x3 x4; unfold hsKnown; ks [ks_hsCheck _ _ _ _ _, ks_hsVerified _ _ _ _ _ _, ks_hsInitial _ _ _ _ _ _, ks_hsReply _ _ _ _ _ _]

theorem ks_handshakeHandle : ∀ x0 x1 x2 x3 x4, Ks false (handshakeHandle x0 x1 x2 x3 x4) := by
  intro x0 x1 x2 x3 x4; unfold handshakeHandle; ks [ks_protoMaintenance, ks_field _ _ _, ks_matchSenderKey _ _ _ _, ks_hsKnown _ _ _ _ _, ks_addDynamic _ _]

theorem ks_canReceive : ∀ x0 x1, Ks b (canReceive x0 x1) := by
  intro x0 x1; unfold canReceive; ks [Ks.unit]

theorem ks_allowUnknown : Ks b (allowUnknown) := by
  unfold allowUnknown; ks [Ks.unit]

theorem ks_backoff : ∀ x0, Ks b (backoff x0) := by
  intro x0; unfold backoff; ks [Ks.unit]

theorem ks_hsPacket : ∀ x0 x1 x2 x3 x4 x5, Ks false (hsPacket x0 x1 x2 x3 x4 x5) := by
  intro x0 x1 x2 x3 x4 x5; unfold hsPacket; ks [ks_sendError _ _ _ _ _ _ _ _, ks_handshakeHandle _ _ _ _ _]

theorem ks_classify : ∀ x0 x1 x2 x3 x4 x5, Ks false (classify x0 x1 x2 x3 x4 x5) := by
  intro x0 x1 x2 x3 x4 x5; unfold classify; ks [ks_memIfNone _, ks_canReceive _ _, ks_handleRecv _ _, ks_allowUnknown, ks_hsPacket _ _ _ _ _ _, ks_backoff _, ks_handshakeInit _ _ _ _]

theorem ks_senderOf : ∀ x0 x1, Ks b (senderOf x0 x1) := by
  intro x0 x1; unfold senderOf; ks [ks_sockPeer _, ks_htLookup _]

theorem ks_socketReceive : ∀ x0 x1 x2 x3, Ks false (socketReceive x0 x1 x2 x3) := by
  intro x0 x1 x2 x3; unfold socketReceive; ks [ks_senderOf _ _, ks_memIfNone _, ks_classify _ _ _ _ _ _]

theorem ks_resolveReturn : ∀ x0 x1 x2, Ks b (resolveReturn x0 x1 x2) := by
  intro x0 x1 x2; unfold resolveReturn; ks [ks_handleResolve _ _ _]

theorem ks_verifyReturn : ∀ x0 x1, Ks b (verifyReturn x0 x1) := by
  intro x0 x1; unfold verifyReturn; ks [ks_setVerified _ _, ks_handleVerifyReturn _ _]

theorem ks_configurePeer : ∀ x0 x1, Ks false (configurePeer x0 x1) := by
  intro x0 x1; unfold configurePeer; ks [ks_peerDelete _, ks_peerReset _]

theorem ks_configureLoop (d : Bool) (n : Nat) : Ks false (configureLoop d n) := by
  induction n with
  | zero => exact Ks.unit
  | succ n ih => unfold configureLoop; ks [ks_memIfNone _, ks_configurePeer _ _, ih]

theorem ks_configurePeers : ∀ x0, Ks false (configurePeers x0) := by
  intro x0; unfold configurePeers; ks [ks_configureLoop _ _]

theorem ks_addDef : ∀ x0 x1, Ks b (addDef x0 x1) := by
  intro x0 x1; unfold addDef; ks [ks_peerAdd _]

theorem ks_loadPeerDirs : ∀ x0 x1, Ks false (loadPeerDirs x0 x1) := by
  intro x0 x1; unfold loadPeerDirs; ks [ks_addDef _ _, ks_configurePeers _]

/-- Reading the main configuration leaves the keys as they are. -/
theorem krel_statics (l : List PeerDef) {c c' : Ctx} {u : Unit} (h : forEach addStatic l c = .ok (u, c')) : KRel c c' := by
  induction l generalizing c with
  | nil => cases h; exact KRel.refl _
  | cons d l ih =>
    have h' : (addStatic d >>= fun _ => forEach addStatic l) c = .ok (u, c') := h
    rw [bind_def] at h'
    cases ha : addStatic d c with
    | error e => rw [ha] at h'; cases h'
    | ok v =>
      obtain ⟨_, c1⟩ := v
      rw [ha] at h'
      refine KRel.trans ?_ (ih h')
      unfold addStatic at ha
      cases hk : d.key with
      | none => rw [hk] at ha; cases ha
      | some key =>
        rw [hk] at ha
        simp only [bind_def] at ha
        have h1 := ks_peerAdd (b := false) (d.toPeer false key) c
        cases hp : peerAdd (d.toPeer false key) c with
        | error e => rw [hp] at ha; cases ha
        | ok w =>
          obtain ⟨r, c2⟩ := w
          rw [hp] at ha h1
          cases r with
          | added i => cases ha; exact h1
          | _ => cases ha

theorem krel_startup {static dirs : List PeerDef} {c c' : Ctx} {u : Unit} (h : startup static dirs c = .ok (u, c')) :
    KRel c c' := by
  unfold startup at h
  rw [bind_def] at h
  cases ha : forEach addStatic static c with
  | error e => rw [ha] at h; cases h
  | ok v =>
    obtain ⟨_, c1⟩ := v
    rw [ha] at h
    refine (krel_statics _ ha).trans ?_
    have h1 : Ks false (do configurePeers false; loadPeerDirs true dirs) := by
      ks [ks_configurePeers _, ks_loadPeerDirs _ _]
    have h2 := h1 c1
    have h3 : (do configurePeers false; loadPeerDirs true dirs) c1 = .ok (u, c') := h
    rw [h3] at h2
    exact h2

theorem ks_ethCleanup : Ks b (ethCleanup) := by
  unfold ethCleanup; ks [Ks.unit]

/-- Events leave the keys as they are, except for the maintenance function being run. -/
theorem ks_handle (e : Event) (he : ∀ d, e ≠ .tick d) : Ks false (handle e) := by
  cases e with
  | tick d => exact absurd rfl (he d)
  | task i => exact ks_peerTask i
  | maintenance => unfold handle; ks [ks_ethCleanup]
  | recv s l r p => exact ks_socketReceive s l r p
  | iface o d => exact ks_sendData d none o
  | resolved k l => unfold handle; ks [ks_memIfNone _, ks_resolveReturn _ _ _]
  | verified k o => unfold handle; ks [ks_memIfNone _, ks_verifyReturn _ _]
  | reload l => exact ks_loadPeerDirs false l
  | resetAll => unfold handle; ks [ks_resetAll _ _]

end Fastd.Daemon
