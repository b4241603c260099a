import Verif.Daemon.Trail

/-!
# The commands run on establishing and disestablishing a connection

`Bl N m`: the effects `established i` and `disestablished i` logged by `m` alternate, in step with the state of the peer. Helper lemmas.
-/

namespace Fastd.Daemon

set_option linter.unusedSectionVars false

variable [Env] {α β : Type} {N : Option Nat}

/-- The commands run for a peer: `true` for on-establish, `false` for on-disestablish. -/
def hooks (i : Nat) (l : List Eff) : List Bool := l.filterMap fun
  | .established j => if j = i then some true else none
  | .disestablished j => if j = i then some false else none
  | _ => none

/-- Is the peer established? -/
def est (ps : List Peer) (i : Nat) : Bool := ps.any fun p => decide (p.id = i) && p.isEstablished

/-- The state after some commands, if each of them changes it. -/
def swing : Bool → List Bool → Option Bool
  | s, [] => some s
  | s, b :: l => if b = s then none else swing b l

theorem swing_append {s t : Bool} {l l' : List Bool} (h : swing s l = some t) : swing s (l ++ l') = swing t l' := by
  induction l generalizing s with
  | nil => cases h; rfl
  | cons b l ih =>
    unfold swing at h
    show (if b = s then none else swing b (l ++ l')) = _
    split at h
    · cases h
    · rename_i hb
      rw [if_neg hb]
      exact ih h

theorem hooks_append {i : Nat} {l l' : List Eff} : hooks i (l ++ l') = hooks i l ++ hooks i l' := List.filterMap_append

/-- The commands logged fit the changes of state. -/
structure BRel (c c' : Ctx) : Prop where
  ids : Ids c'
  log : ∃ l, c'.log = c.log ++ l ∧ ∀ i, swing (est c.peers i) (hooks i l) = some (est c'.peers i)

theorem BRel.refl {c : Ctx} (h : Ids c) : BRel c c := ⟨h, [], by simp, fun _ => rfl⟩

theorem BRel.trans {c c' c'' : Ctx} (h : BRel c c') (h' : BRel c' c'') : BRel c c'' := by
  obtain ⟨l, hl, hs⟩ := h.log
  obtain ⟨l', hl', hs'⟩ := h'.log
  refine ⟨h'.ids, l ++ l', by rw [hl', hl, List.append_assoc], fun i => ?_⟩
  rw [hooks_append, swing_append (hs i), hs' i]

theorem est_true {ps : List Peer} {i : Nat} : est ps i = true ↔ ∃ p ∈ ps, p.id = i ∧ p.state = .established := by
  unfold est
  rw [List.any_eq_true]
  simp [Peer.isEstablished]

theorem est_congr {ps ps' : List Peer} {i : Nat}
    (h : (∃ p ∈ ps, p.id = i ∧ p.state = .established) ↔ ∃ p ∈ ps', p.id = i ∧ p.state = .established) : est ps i = est ps' i := by
  rw [Bool.eq_iff_iff, est_true, est_true]
  exact h

def Bl (N : Option Nat) (m : M α) : Prop := ∀ c a c', Ids c → Out N c → m c = .ok (a, c') → BRel c c' ∧ Out N c'

theorem Bl.same {m : M α} (h : ∀ c a c', m c = .ok (a, c') → c' = c) : Bl N m := by
  intro c a c' hb ho hm
  obtain rfl := h _ _ _ hm
  exact ⟨BRel.refl hb, ho⟩

theorem Bl.pure {a : α} : Bl N (Pure.pure a : M α) := Bl.same fun _ _ _ h => by cases h; rfl
theorem Bl.unit : Bl N (Pure.pure () : M Unit) := Bl.pure
theorem Bl.fail {e : Fail} : Bl N (fail e : M α) := Bl.same fun _ _ _ h => by cases h
theorem Bl.error {e : Fail} : Bl N (fun _ => .error e : M α) := Bl.same fun _ _ _ h => by cases h
theorem Bl.get : Bl N get := Bl.same fun _ _ _ h => by cases h; rfl
theorem Bl.getP {i : Nat} : Bl N (getP i) := Bl.same fun _ _ _ h => (getP_ok h).1

theorem Bl.bind {m : M α} {f : α → M β} (hm : Bl N m) (hf : ∀ a, Bl N (f a)) : Bl N (m >>= f) := by
  intro c b c' hb ho h
  obtain ⟨a, c1, h1, h2⟩ := bind_ok h
  obtain ⟨t1, o1⟩ := hm c a c1 hb ho h1
  obtain ⟨t2, o2⟩ := hf a c1 b c' t1.ids o1 h2
  exact ⟨t1.trans t2, o2⟩

/-- Reading a peer first: if the rest is for a peer known to be or not to be established. -/
theorem Bl.bindP {i : Nat} {f : Peer → M β} (hf : ∀ p, p.id = i → p.state = .established → Bl N (f p))
    (hn : ∀ p, p.id = i → p.state ≠ .established → Bl (some i) (f p)) (hN : N = none) : Bl N (Daemon.getP i >>= f) := by
  subst hN
  intro c b c' hb ho h
  obtain ⟨p, c1, h1, h2⟩ := bind_ok h
  obtain ⟨rfl, hp, hi⟩ := getP_ok h1
  by_cases he : p.state = .established
  · exact hf p hi he c1 b c' hb ho h2
  · refine ⟨(hn p hi he c1 b c' hb ?_ h2).1, out_none⟩
    intro j hj q hq hqi
    cases hj
    rw [sorted_inj hb.sorted hq hp (hqi.trans hi.symm)]
    exact he

theorem Bl.modify {f : Ctx → Ctx} (h1 : ∀ c, (f c).peers = c.peers) (h2 : ∀ c, (f c).nextId = c.nextId) (h3 : ∀ c, (f c).log = c.log) :
    Bl N (modify f) := by
  intro c a c' hb ho h
  cases h
  refine ⟨⟨⟨by rw [h1]; exact hb.sorted, by rw [h1, h2]; exact hb.lt⟩, [], by rw [h3]; simp, fun i => ?_⟩, fun j hj => by rw [h1]; exact ho j hj⟩
  rw [h1]; rfl

theorem Bl.emit {e : Eff} (h1 : ∀ i, e ≠ .established i) (h2 : ∀ i, e ≠ .disestablished i) : Bl N (emit e) := by
  intro c a c' hb ho h
  cases h
  refine ⟨⟨⟨hb.sorted, hb.lt⟩, [e], rfl, fun i => ?_⟩, ho⟩
  have : hooks i [e] = [] := by
    cases e <;> first | rfl | exact absurd rfl (h1 _) | exact absurd rfl (h2 _)
  rw [this]
  rfl

theorem est_upd {ps : List Peer} {i : Nat} {f : Peer → Peer} (hf : ∀ p, p ∈ ps → p.id = i → (f p).id = p.id ∧ (f p).isEstablished = p.isEstablished) (j : Nat) :
    est (updPeers ps i f) j = est ps j := by
  unfold est updPeers
  rw [List.any_map]
  apply Bool.eq_iff_iff.2
  rw [List.any_eq_true, List.any_eq_true]
  have hk : ∀ p ∈ ps, (if p.id = i then f p else p).id = p.id ∧ (if p.id = i then f p else p).isEstablished = p.isEstablished := by
    intro p hp
    split
    · exact hf p hp ‹_›
    · exact ⟨rfl, rfl⟩
  constructor
  · rintro ⟨p, hp, h⟩
    refine ⟨p, hp, ?_⟩
    simp only [Function.comp_def] at h
    rwa [(hk p hp).1, (hk p hp).2] at h
  · rintro ⟨p, hp, h⟩
    refine ⟨p, hp, ?_⟩
    simp only [Function.comp_def]
    rwa [(hk p hp).1, (hk p hp).2]

theorem Bl.modPst {i : Nat} {f : Peer → Peer} (hN : ∀ p : Peer, p.state ≠ .established → (f p).state ≠ .established)
    (hf : ∀ c, Ids c → Out N c → ∀ p ∈ c.peers, p.id = i → (f p).id = p.id ∧ (f p).isEstablished = p.isEstablished) : Bl N (modP i f) := by
  intro c a c' hb ho h
  obtain ⟨_, rfl⟩ := modP_ok h
  refine ⟨⟨hb.upd fun p hp hi => (hf c hb ho p hp hi).1, [], by simp, fun j => ?_⟩, fun j hj q hq hqi => ?_⟩
  · show some (est c.peers j) = some _
    rw [est_upd (hf c hb ho)]
  · rcases mem_upd_cases hq with ⟨hq, _⟩ | ⟨p, hp, hi, rfl⟩
    · exact ho j hj q hq hqi
    · exact hN p (ho j hj p hp ((hf c hb ho p hp hi).1 ▸ hqi))

theorem Bl.modP {i : Nat} {f : Peer → Peer} (hf : ∀ p, (f p).id = p.id ∧ (f p).state = p.state) : Bl N (modP i f) :=
  Bl.modPst (fun p h => by rw [(hf p).2]; exact h) fun _ _ _ p _ _ => ⟨(hf p).1, by unfold Peer.isEstablished; rw [(hf p).2]⟩

/-- Changing the state of a peer that is not established. -/
theorem Bl.modPout {i : Nat} {f : Peer → Peer} (hf : ∀ p, (f p).id = p.id) (hs : ∀ p, (f p).state ≠ .established) : Bl (some i) (Daemon.modP i f) :=
  Bl.modPst (fun p _ => hs p) fun c _ ho p hp hi => ⟨hf p, by
    have h1 := ho i rfl p hp hi
    have h2 := hs p
    simp [Peer.isEstablished, h1, h2]⟩

theorem Bl.draw : Bl N draw := by
  intro c a c' hb ho h
  cases h
  exact ⟨⟨⟨hb.sorted, hb.lt⟩, [], by simp, fun _ => rfl⟩, ho⟩

theorem Bl.drawBool : Bl N drawBool := Bl.bind Bl.draw fun _ => Bl.pure
theorem Bl.rand {x y : Time} : Bl N (rand x y) := Bl.bind Bl.draw fun _ => Bl.pure

theorem Bl.ite {p : Prop} [Decidable p] {m m' : M α} (h : Bl N m) (h' : Bl N m') : Bl N (if p then m else m') := by
  split
  · exact h
  · exact h'

theorem Bl.when {p : Bool} {m : M Unit} (h : Bl N m) : Bl N (when p m) := by
  unfold Daemon.when
  exact Bl.ite h Bl.pure

theorem Bl.forEach {f : α → M Unit} (hf : ∀ a, Bl N (f a)) (l : List α) : Bl N (forEach f l) := by
  induction l with
  | nil => exact Bl.pure
  | cons a as ih => exact Bl.bind (hf a) fun _ => ih

/-- Proves `Bl` for a program of known parts. -/
syntax "bl" "[" term,* "]" : tactic

macro_rules
  | `(tactic| bl [$ls,*]) => `(tactic| repeat' (first
      | exact Bl.pure
      | exact Bl.fail
      | exact Bl.get
      | exact Bl.getP
      | exact Bl.modP (fun _ => ⟨rfl, rfl⟩)
      | exact Bl.draw
      | exact Bl.drawBool
      | exact Bl.rand
      | exact Bl.modify (fun _ => rfl) (fun _ => rfl) (fun _ => rfl)
      | exact Bl.emit (fun _ h => by cases h) (fun _ h => by cases h)
      | (first $[| exact $(ls.getElems)]*)
      | with_reducible refine Bl.bind ?_ fun _ => ?_
      | with_reducible refine Bl.when ?_
      | with_reducible refine Bl.forEach (fun _ => ?_) _
      | with_reducible refine Bl.ite ?_ ?_
      | split))

theorem bl_htInsertFuel (n i : Nat) : Bl N (htInsertFuel n i) := by
  induction n generalizing i with
  | zero => exact Bl.fail
  | succ n ih => unfold htInsertFuel; bl [ih _]

theorem bl_htInsert (i : Nat) : Bl N (htInsert i) := bl_htInsertFuel 2 i

theorem bl_htRemove : ∀ x0, Bl N (htRemove x0) := by
  intro x0; unfold htRemove; bl [Bl.unit]

theorem bl_htScan (a : Addr) (l : List Nat) : Bl N (htScan a l) := by
  induction l with
  | nil => exact Bl.pure
  | cons i l ih => unfold htScan; bl [ih]

theorem bl_htLookup : ∀ x0, Bl N (htLookup x0) := by
  intro x0; unfold htLookup; bl [bl_htScan _ _]

theorem bl_ethPut (o : Option Nat) (a : Bytes) : Bl N (ethPut o a) := by
  unfold ethPut
  refine Bl.bind Bl.get fun c => ?_
  split
  · rename_i e he
    exact Bl.fail
  · bl [Bl.unit]
  · bl [Bl.unit]

theorem bl_ethAdd : ∀ x0 x1, Bl N (ethAdd x0 x1) := by
  intro x0 x1; unfold ethAdd; bl [bl_ethPut _ _]

theorem bl_sockLive : ∀ x0, Bl N (sockLive x0) := by
  intro x0; unfold sockLive; bl [Bl.unit]

theorem bl_sockPeer : ∀ x0, Bl N (sockPeer x0) := by
  intro x0; unfold sockPeer; bl [Bl.unit]

theorem bl_freeSocket : ∀ x0, Bl N (freeSocket x0) := by
  intro x0; unfold freeSocket; bl [bl_sockPeer _]

theorem bl_socketOpen : ∀ x0, Bl N (socketOpen x0) := by
  intro x0; unfold socketOpen; bl [Bl.unit]

theorem bl_newSocket : ∀ x0 x1, Bl N (newSocket x0 x1) := by
  intro x0 x1; unfold newSocket; bl [bl_socketOpen _]

theorem bl_resetSocket : ∀ x0, Bl N (resetSocket x0) := by
  intro x0; unfold resetSocket; bl [bl_freeSocket _, bl_newSocket _ _]

theorem bl_schedulePeerTask (i : Nat) : Bl N (schedulePeerTask i) := by
  unfold schedulePeerTask
  refine Bl.modP fun p => ?_
  split
  · exact ⟨rfl, rfl⟩
  · split <;> exact ⟨rfl, rfl⟩

theorem bl_setNextHandshake : ∀ x0 x1, Bl N (setNextHandshake x0 x1) := by
  intro x0 x1; unfold setNextHandshake; bl [Bl.unit]

theorem bl_handshakeDefaultRand : Bl N (handshakeDefaultRand) := by
  unfold handshakeDefaultRand; bl [Bl.unit]

theorem bl_setNextHandshakeDefault : ∀ x0, Bl N (setNextHandshakeDefault x0) := by
  intro x0; unfold setNextHandshakeDefault; bl [bl_handshakeDefaultRand, bl_setNextHandshake _ _]

theorem bl_scheduleHandshake : ∀ x0 x1, Bl N (scheduleHandshake x0 x1) := by
  intro x0 x1; unfold scheduleHandshake; bl [bl_setNextHandshake _ _, bl_schedulePeerTask _]

theorem bl_scheduleHandshakeDefault : ∀ x0, Bl N (scheduleHandshakeDefault x0) := by
  intro x0; unfold scheduleHandshakeDefault; bl [bl_handshakeDefaultRand, bl_scheduleHandshake _ _]

theorem bl_freeState : ∀ x0, Bl N (freeState x0) := by
  intro x0; unfold freeState; bl [Bl.unit]

theorem bl_freeSession : ∀ x0, Bl N (freeSession x0) := by
  intro x0; unfold freeSession; bl [bl_freeState _]

theorem bl_resetPeerState : ∀ x0, Bl N (resetPeerState x0) := by
  intro x0; unfold resetPeerState; bl [bl_freeSession _]

/-- Nothing is logged. -/
def Qu (m : M α) : Prop := ∀ c a c', m c = .ok (a, c') → c'.log = c.log

theorem Qu.bind {m : M α} {f : α → M β} (hm : Qu m) (hf : ∀ a, Qu (f a)) : Qu (m >>= f) := by
  intro c b c' h
  obtain ⟨a, c1, h1, h2⟩ := bind_ok h
  rw [hf a c1 b c' h2, hm c a c1 h1]

theorem Qu.pure {a : α} : Qu (Pure.pure a : M α) := fun _ _ _ h => by cases h; rfl
theorem Qu.fail {e : Fail} : Qu (Daemon.fail e : M α) := fun _ _ _ h => by cases h
theorem Qu.get : Qu get := fun _ _ _ h => by cases h; rfl
theorem Qu.getP {i : Nat} : Qu (Daemon.getP i) := fun _ _ _ h => by rw [(getP_ok h).1]
theorem Qu.modP {i : Nat} {f : Peer → Peer} : Qu (Daemon.modP i f) := fun _ _ _ h => by rw [(modP_ok h).2]
theorem Qu.modify {f : Ctx → Ctx} (hf : ∀ c, (f c).log = c.log) : Qu (modify f) := fun c _ _ h => by cases h; exact hf c

/-- Proves `Qu` for a program of known parts. -/
syntax "qu" "[" term,* "]" : tactic

macro_rules
  | `(tactic| qu [$ls,*]) => `(tactic| repeat' (first
      | exact Qu.pure
      | exact Qu.fail
      | exact Qu.get
      | exact Qu.getP
      | exact Qu.modP
      | exact Qu.modify (fun _ => rfl)
      | (first $[| exact $(ls.getElems)]*)
      | with_reducible refine Qu.bind ?_ fun _ => ?_
      | split))

theorem qu_sockPeer (s : Sock) : Qu (sockPeer s) := by unfold sockPeer; qu [Qu.pure]
theorem qu_freeSocket (i : Nat) : Qu (freeSocket i) := by unfold freeSocket; qu [qu_sockPeer _]
theorem qu_freeState (o : Option Nat) : Qu (freeState o) := by unfold freeState; qu [Qu.pure]
theorem qu_freeSession (o : Session) : Qu (freeSession o) := by unfold freeSession; qu [qu_freeState _]
theorem qu_resetPeerState (i : Nat) : Qu (resetPeerState i) := by unfold resetPeerState; qu [qu_freeSession _]
theorem qu_htRemove (i : Nat) : Qu (htRemove i) := by unfold htRemove; qu [Qu.pure]
theorem qu_seen (i : Nat) : Qu (seen i) := by unfold seen; qu [Qu.pure]
theorem qu_clearKeepalive (i : Nat) : Qu (clearKeepalive i) := by unfold clearKeepalive; qu [Qu.pure]
theorem qu_schedulePeerTask (i : Nat) : Qu (schedulePeerTask i) := Qu.modP

/-- If nothing is logged, nobody is established or disestablished. -/
theorem Bl.quiet {m : M α} {c c' : Ctx} {a : α} (hi : Ids c) (hm : m c = .ok (a, c')) (h : Bl none m) (hq : Qu m) :
    Ids c' ∧ c'.log = c.log ∧ ∀ j, est c'.peers j = est c.peers j := by
  obtain ⟨⟨hi', l, hl, hs⟩, _⟩ := h c a c' hi out_none hm
  have hlog := hq c a c' hm
  refine ⟨hi', hlog, fun j => ?_⟩
  have : l = [] := by rw [hlog] at hl; simpa using hl
  have h1 := hs j
  rw [this] at h1
  exact (Option.some.inj h1).symm

theorem br_resetPeer {i : Nat} {c c' : Ctx} {a : Unit} (hb : Ids c) (h : resetPeer i c = .ok (a, c')) : BRel c c' ∧ Out (some i) c' := by
  have hout : Out (some i) c' := fun j hj p hp hpj => by cases hj; rw [resetPeer_state h p hp hpj]; decide
  refine ⟨?_, hout⟩
  unfold resetPeer at h
  obtain ⟨p, c0, h0, h'⟩ := bind_ok h
  clear h
  obtain ⟨rfl, hp, hpi⟩ := getP_ok h0
  obtain ⟨_, c2, h2, h⟩ := bind_ok h'
  obtain ⟨_, c3, h3, h⟩ := bind_ok h
  obtain ⟨_, c4, h4, h⟩ := bind_ok h
  obtain ⟨_, c5, h5, h⟩ := bind_ok h
  obtain ⟨_, c6, h6, h⟩ := bind_ok h
  obtain ⟨_, c7, h7, h⟩ := bind_ok h
  obtain ⟨_, c8, h8, h9⟩ := bind_ok h
  have e2 : c2 = { c0 with log := c0.log ++ if p.isEstablished then [.disestablished i] else [] } := by
    unfold when at h2
    split at h2
    · rename_i he; simp only [he, if_true]; exact modify_ok h2
    · rename_i he; cases h2; simp [he]
  have i2 : Ids c2 := by rw [e2]; exact ⟨hb.sorted, hb.lt⟩
  obtain ⟨i3, l3, s3⟩ := Bl.quiet i2 h3 (bl_freeSocket i) (qu_freeSocket i)
  obtain ⟨i4, l4, s4⟩ := Bl.quiet i3 h4 (bl_resetPeerState i) (qu_resetPeerState i)
  obtain ⟨i5, l5, s5⟩ := Bl.quiet i4 h5 (Bl.modify (fun _ => rfl) (fun _ => rfl) fun _ => rfl) (Qu.modify fun _ => rfl)
  obtain ⟨i6, l6, s6⟩ := Bl.quiet i5 h6 (Bl.modP fun _ => ⟨rfl, rfl⟩) Qu.modP
  obtain ⟨i7, l7, s7⟩ := Bl.quiet i6 h7 (bl_htRemove i) (qu_htRemove i)
  have i8 : Ids c8 := by
    rw [(modP_ok h8).2]
    exact i7.upd fun _ _ _ => rfl
  have l8 : c8.log = c7.log := Qu.modP _ _ _ h8
  obtain ⟨i9, l9, s9⟩ := Bl.quiet i8 h9 (Bl.modP fun _ => ⟨rfl, rfl⟩) Qu.modP
  have s7' : ∀ j, est c7.peers j = est c0.peers j := fun j => by rw [s7, s6, s5, s4, s3, e2]
  refine ⟨i9, _, by rw [l9, l8, l7, l6, l5, l4, l3, e2], fun j => ?_⟩
  rw [s9]
  by_cases hj : j = i
  · subst hj
    have f8 : est c8.peers j = false := by
      rw [Bool.eq_false_iff, Ne, est_true]
      rintro ⟨q, hq, hqj, hqs⟩
      rw [(modP_ok h8).2] at hq
      rcases mem_upd_cases hq with ⟨_, hne⟩ | ⟨r, _, _, rfl⟩
      · exact hne hqj
      · cases hqs
    rw [f8]
    by_cases he : p.isEstablished = true
    · have : est c0.peers j = true := est_true.2 ⟨p, hp, hpi, by simpa [Peer.isEstablished] using he⟩
      rw [if_pos he, this]
      simp [hooks, swing]
    · have : est c0.peers j = false := by
        rw [Bool.eq_false_iff, Ne, est_true]
        rintro ⟨q, hq, hqj, hqs⟩
        rw [sorted_inj hb.sorted hq hp (hqj.trans hpi.symm)] at hqs
        exact he (by simpa [Peer.isEstablished] using hqs)
      rw [if_neg he, this]
      rfl
  · have hh : hooks j (if p.isEstablished then [.disestablished i] else []) = [] := by
      split
      · simp [hooks, Ne.symm hj]
      · rfl
    have f8 : est c8.peers j = est c7.peers j := by
      apply est_congr
      rw [(modP_ok h8).2]
      constructor
      · rintro ⟨q, hq, hqj, hqs⟩
        rcases mem_upd_cases hq with ⟨hq, _⟩ | ⟨r, _, _, rfl⟩
        · exact ⟨q, hq, hqj, hqs⟩
        · cases hqs
      · rintro ⟨q, hq, hqj, hqs⟩
        refine ⟨q, ?_, hqj, hqs⟩
        unfold updPeers
        refine List.mem_map.2 ⟨q, hq, if_neg ?_⟩
        rw [hqj]; exact hj
    rw [hh, f8, s7']
    rfl

theorem bl_initDelay : ∀ x0, Bl N (initDelay x0) := by
  intro x0; unfold initDelay; bl [Bl.unit]

theorem bl_initHandshake (i : Nat) : Bl (some i) (initHandshake i) := by
  unfold initHandshake
  bl [bl_initDelay _, bl_scheduleHandshake _ _, Bl.modPout (fun _ => rfl) (fun _ => PState.noConfusion)]

theorem bl_getR : ∀ x0 x1, Bl N (getR x0 x1) := by
  intro x0 x1; unfold getR; bl [Bl.unit]

theorem bl_modR : ∀ x0 x1 x2, Bl N (modR x0 x1 x2) := by
  intro x0 x1 x2; unfold modR; bl [bl_getR _ _]

theorem bl_resolvePeer : ∀ x0 x1, Bl N (resolvePeer x0 x1) := by
  intro x0 x1; unfold resolvePeer; bl [bl_getR _ _, bl_modR _ _ _]

theorem bl_setupIface : ∀ x0, Bl N (setupIface x0) := by
  intro x0; unfold setupIface; bl [Bl.unit]

theorem bl_setupConnect (i : Nat) : Bl (some i) (setupConnect i) := by
  unfold setupConnect
  bl [bl_getR _ _, bl_modR _ _ _, bl_resolvePeer _ _, bl_setNextHandshakeDefault _, bl_initHandshake _,
    Bl.modPout (fun _ => rfl) (fun _ => PState.noConfusion)]

theorem bl_setupPeer : ∀ x0, Bl (some x0) (setupPeer x0) := by
  intro x0; unfold setupPeer; bl [bl_setupIface _, bl_setupConnect _, bl_schedulePeerTask _]

theorem bl_peerReset (i : Nat) : Bl none (peerReset i) := by
  intro c a c' hb _ h
  unfold peerReset at h
  obtain ⟨p, c0, h0, h'⟩ := bind_ok h
  clear h
  obtain ⟨rfl, hp, hpi⟩ := getP_ok h0
  obtain ⟨_, c1, h1, h2⟩ := bind_ok h'
  have t : BRel c0 c1 ∧ Out (some i) c1 := by
    unfold when at h1
    split at h1
    · exact br_resetPeer hb h1
    · rename_i hs
      cases h1
      refine ⟨BRel.refl hb, fun j hj q hq hqj => ?_⟩
      cases hj
      rw [sorted_inj hb.sorted hq hp (hqj.trans hpi.symm)]
      intro he
      rw [he] at hs
      exact hs (by decide)
  exact ⟨t.1.trans (bl_setupPeer i c1 a c' t.1.ids t.2 h2).1, out_none⟩

theorem bl_peerDelete (i : Nat) : Bl none (peerDelete i) := by
  intro c a c' hb _ h
  unfold peerDelete at h
  obtain ⟨_, c1, h1, h⟩ := bind_ok h
  obtain ⟨t1, o1⟩ := br_resetPeer hb h1
  refine ⟨t1.trans ?_, out_none⟩
  unfold deletePeer at h
  obtain ⟨p0, c0, h0, h'⟩ := bind_ok h
  clear h
  obtain ⟨rfl, hp0, hpi0⟩ := getP_ok h0
  obtain ⟨c2, c3, h2, h⟩ := bind_ok h'
  cases h2
  cases hx : peerIndex c0.peers i with
  | none => simp only [hx] at h; cases h
  | some k =>
    simp only [hx] at h
    obtain ⟨_, c4, h4, h5⟩ := bind_ok h
    obtain ⟨t4, o4⟩ := bl_resetPeerState (N := some i) i _ _ _ t1.ids o1 h4
    have i4 : c4.peers.map (·.id) = c0.peers.map (·.id) := resetPeerState_ids h4
    refine t4.trans ?_
    have hb4 := t4.ids
    cases h5
    have hsub : ∀ p, p ∈ c4.peers.eraseIdx k → p ∈ c4.peers := fun p hp => List.mem_of_mem_eraseIdx hp
    refine ⟨⟨?_, fun p hp => hb4.lt p (hsub p hp)⟩, [], by simp, fun j => ?_⟩
    · exact List.Pairwise.sublist ((List.eraseIdx_sublist _ _).map _) hb4.sorted
    · refine congrArg some (est_congr ⟨?_, ?_⟩)
      · rintro ⟨p, hp, hpj, hps⟩
        refine ⟨p, List.mem_eraseIdx_iff_getElem?.2 ?_, hpj, hps⟩
        obtain ⟨n, hn⟩ := List.getElem?_of_mem hp
        refine ⟨n, fun hnk => o4 i rfl p hp ?_ hps, hn⟩
        subst hnk
        obtain ⟨q, hq, he⟩ := Data.bsearch_some (Data.sortedFor_nat (fun q : Peer => q.id) c0.peers (List.pairwise_map.1 t1.ids.sorted) i) hx
        have h1 : (c4.peers.map (·.id))[n]? = some p.id := by rw [List.getElem?_map, hn]; rfl
        rw [i4, List.getElem?_map, hq] at h1
        have h1 : q.id = p.id := by simpa using h1
        rw [← h1]
        exact (Nat.compare_eq_eq.1 he).symm
      · rintro ⟨p, hp, h⟩
        exact ⟨p, hsub p hp, h⟩

theorem bl_handleResolve (i k : Nat) (l : List Addr) : Bl none (handleResolve i k l) := by
  unfold handleResolve
  refine Bl.bind (bl_modR _ _ _) fun _ => Bl.bindP (fun p _ he => ?_) (fun p _ _ => Bl.when (bl_initHandshake i)) rfl
  unfold when
  rw [if_neg (by rw [he]; decide)]
  exact Bl.pure

theorem bl_resetPeerAddress : ∀ x0, Bl none (resetPeerAddress x0) := by
  intro x0; unfold resetPeerAddress; bl [bl_peerReset _, bl_htRemove _]

theorem bl_claimSock : ∀ x0 x1, Bl N (claimSock x0 x1) := by
  intro x0 x1; unfold claimSock; bl [bl_sockLive _, bl_freeSocket _]

theorem bl_claimFinish : ∀ x0 x1 x2 x3, Bl N (claimFinish x0 x1 x2 x3) := by
  intro x0 x1 x2 x3; unfold claimFinish; bl [bl_htRemove _, bl_htInsert _, bl_claimSock _ _]

theorem bl_claimAddress : ∀ x0 x1 x2 x3 x4, Bl none (claimAddress x0 x1 x2 x3 x4) := by
  intro x0 x1 x2 x3 x4; unfold claimAddress; bl [bl_peerReset _, bl_claimFinish _ _ _ _, bl_resetPeerAddress _]

theorem bl_addNew {q : Peer} (hq : q.state ≠ .established) : Bl none (addNew q) := by
  unfold addNew
  intro c a c' hb _ h
  obtain ⟨_, c1, h1, h'⟩ := bind_ok h
  cases h1
  obtain ⟨_, c2, h2, h3⟩ := bind_ok h'
  cases h2
  cases h3
  refine ⟨⟨⟨?_, ?_⟩, [], by simp, fun i => ?_⟩, out_none⟩
  · show (List.map _ (c.peers ++ _)).Pairwise _
    rw [List.map_append, List.pairwise_append]
    refine ⟨hb.sorted, List.pairwise_singleton _ _, fun a ha b hb' => ?_⟩
    obtain ⟨p, hp, rfl⟩ := List.mem_map.1 ha
    obtain ⟨r, hr, rfl⟩ := List.mem_map.1 hb'
    rw [List.mem_singleton.1 hr]
    exact hb.lt p hp
  · intro p hp
    rcases List.mem_append.1 hp with hp | hp
    · exact Nat.lt_succ_of_lt (hb.lt p hp)
    · rw [List.mem_singleton.1 hp]; exact Nat.lt_succ_self _
  · refine congrArg some (est_congr ⟨?_, ?_⟩)
    · rintro ⟨p, hp, h⟩
      exact ⟨p, List.mem_append_left _ hp, h⟩
    · rintro ⟨p, hp, h⟩
      rcases List.mem_append.1 hp with hp | hp
      · exact ⟨p, hp, h⟩
      · rw [List.mem_singleton.1 hp] at h
        exact absurd h.2 hq

theorem bl_peerAdd {q : Peer} (hq : q.state ≠ .established) : Bl none (peerAdd q) := by
  unfold peerAdd
  bl [bl_addNew hq, bl_peerDelete _]

theorem bl_sendRetry : ∀ x0 x1, Bl N (send.sendRetry x0 x1) := by
  intro x0 x1; unfold send.sendRetry; bl [bl_scheduleHandshakeDefault _]

theorem bl_send : ∀ x0 x1 x2 x3 x4, Bl N (send x0 x1 x2 x3 x4) := by
  intro x0 x1 x2 x3 x4; unfold send; bl [bl_sockLive _, bl_sendRetry _ _]

theorem bl_bugIfNone (o : Option α) : Bl N (bugIfNone o) := by unfold bugIfNone; bl [Bl.unit]

theorem bl_memIfNone (o : Option α) : Bl N (memIfNone o) := by unfold memIfNone; bl [Bl.unit]

theorem bl_deref (o : Option α) : Bl N (deref o) := bl_memIfNone o

theorem bl_sendHandshakePkt : ∀ x0 x1 x2 x3 x4 x5, Bl N (sendHandshakePkt x0 x1 x2 x3 x4 x5) := by
  intro x0 x1 x2 x3 x4 x5; unfold sendHandshakePkt; bl [bl_send _ _ _ _ _]

theorem bl_sendError : ∀ x0 x1 x2 x3 x4 x5 x6 x7, Bl N (sendError x0 x1 x2 x3 x4 x5 x6 x7) := by
  intro x0 x1 x2 x3 x4 x5 x6 x7; unfold sendError; bl [bl_bugIfNone _, bl_sendHandshakePkt _ _ _ _ _ _]

theorem bl_protoMaintenance : Bl N protoMaintenance := by
  intro c a c' hb ho h
  cases h
  exact ⟨⟨⟨hb.sorted, hb.lt⟩, [], by simp, fun _ => rfl⟩, ho⟩

theorem bl_peerKeyOf : ∀ x0, Bl N (peerKeyOf x0) := by
  intro x0; unfold peerKeyOf; bl [Bl.unit]

theorem bl_handshakeInit : ∀ x0 x1 x2 x3, Bl N (handshakeInit x0 x1 x2 x3) := by
  intro x0 x1 x2 x3; unfold handshakeInit; bl [bl_protoMaintenance, bl_peerKeyOf _, bl_bugIfNone _, bl_sendHandshakePkt _ _ _ _ _ _]

theorem bl_getObj : ∀ x0, Bl N (getObj x0) := by
  intro x0; unfold getObj; bl [bl_memIfNone _]

theorem bl_setObj : ∀ x0 x1, Bl N (setObj x0 x1) := by
  intro x0 x1; unfold setObj; bl [Bl.unit]

theorem bl_sessionValid : ∀ x0, Bl N (sessionValid x0) := by
  intro x0; unfold sessionValid; bl [bl_getObj _]

theorem bl_wantRefresh : ∀ x0, Bl N (wantRefresh x0) := by
  intro x0; unfold wantRefresh; bl [bl_deref _, bl_getObj _]

theorem bl_checkSessionRefresh : ∀ x0, Bl N (checkSessionRefresh x0) := by
  intro x0; unfold checkSessionRefresh; bl [bl_wantRefresh _, bl_scheduleHandshake _ _]

theorem bl_checkSession : ∀ x0, Bl none (checkSession x0) := by
  intro x0; unfold checkSession; bl [bl_sessionValid _, bl_peerReset _]

theorem bl_isInitiator : ∀ x0, Bl N (isInitiator x0) := by
  intro x0; unfold isInitiator; bl [bl_deref _, bl_getObj _]

theorem bl_useOldSession : ∀ x0, Bl N (useOldSession x0) := by
  intro x0; unfold useOldSession; bl [bl_isInitiator _, bl_sessionValid _]

theorem bl_clearKeepalive : ∀ x0, Bl N (clearKeepalive x0) := by
  intro x0; unfold clearKeepalive; bl [Bl.unit]

theorem bl_sessionSend : ∀ x0 x1 x2, Bl N (sessionSend x0 x1 x2) := by
  intro x0 x1 x2; unfold sessionSend; bl [bl_deref _, bl_getObj _, bl_setObj _ _, bl_send _ _ _ _ _, bl_clearKeepalive _]

theorem bl_protocolSend : ∀ x0 x1, Bl none (protocolSend x0 x1) := by
  intro x0 x1; unfold protocolSend; bl [bl_checkSession _, bl_checkSessionRefresh _, bl_useOldSession _, bl_sessionSend _ _ _]

theorem bl_sendEmpty : ∀ x0, Bl N (sendEmpty x0) := by
  intro x0; unfold sendEmpty; bl [bl_sessionSend _ _ _]

theorem bl_sendOne : ∀ x0 x1 x2, Bl none (sendOne x0 x1 x2) := by
  intro x0 x1 x2; unfold sendOne; bl [bl_protocolSend _ _]

theorem bl_sendAll (d : Bytes) (s : Option Nat) (n k : Nat) : Bl none (sendAll d s n k) := by
  induction n generalizing k with
  | zero => exact Bl.fail
  | succ n ih => unfold sendAll; bl [bl_sendOne _ _ _, ih _]

theorem bl_learnLocal : ∀ x0 x1, Bl N (learnLocal x0 x1) := by
  intro x0 x1; unfold learnLocal; bl [bl_ethAdd _ _]

theorem bl_sendTapSingle : ∀ x0 x1, Bl none (sendTapSingle x0 x1) := by
  intro x0 x1; unfold sendTapSingle; bl [bl_learnLocal _ _, bl_protocolSend _ _]

theorem bl_sendData : ∀ x0 x1 x2, Bl none (sendData x0 x1 x2) := by
  intro x0 x1 x2; unfold sendData; bl [bl_sendTapSingle _ _, bl_protocolSend _ _, bl_sendAll _ _ _ _]

theorem bl_learnRemote : ∀ x0 x1, Bl N (learnRemote x0 x1) := by
  intro x0 x1; unfold learnRemote; bl [bl_ethAdd _ _]

theorem bl_handleReceive : ∀ x0 x1, Bl none (handleReceive x0 x1) := by
  intro x0 x1; unfold handleReceive; bl [bl_learnRemote _ _, bl_sendData _ _ _]

theorem bl_decryptWith : ∀ x0 x1 x2, Bl N (decryptWith x0 x1 x2) := by
  intro x0 x1 x2; unfold decryptWith; bl [bl_deref _, bl_getObj _, bl_setObj _ _]

theorem bl_tryOld : ∀ x0 x1, Bl N (tryOld x0 x1) := by
  intro x0 x1; unfold tryOld; bl [bl_sessionValid _, bl_decryptWith _ _ _]

theorem bl_dropOld : ∀ x0, Bl N (dropOld x0) := by
  intro x0; unfold dropOld; bl [bl_freeState _]

theorem bl_unscheduleHandshake : ∀ x0, Bl N (unscheduleHandshake x0) := by
  intro x0; unfold unscheduleHandshake; bl [Bl.unit]

theorem bl_cleanHandshakes : ∀ x0, Bl N (cleanHandshakes x0) := by
  intro x0; unfold cleanHandshakes; bl [bl_unscheduleHandshake _, bl_isInitiator _, bl_sendEmpty _]

theorem bl_seen : ∀ x0, Bl N (seen x0) := by
  intro x0; unfold seen; bl [Bl.unit]

theorem bl_setVerifying : ∀ x0, Bl N (setVerifying x0) := by
  intro x0; unfold setVerifying; bl [Bl.unit]

theorem bl_setVerified : ∀ x0 x1, Bl N (setVerified x0 x1) := by
  intro x0 x1; unfold setVerified; bl [Bl.unit]

theorem bl_deliver : ∀ x0 x1, Bl none (deliver x0 x1) := by
  intro x0 x1; unfold deliver; bl [bl_seen _, bl_handleReceive _ _]

theorem bl_handleRecv : ∀ x0 x1, Bl none (handleRecv x0 x1) := by
  intro x0 x1; unfold handleRecv; bl [bl_checkSession _, bl_tryOld _ _, bl_deliver _ _, bl_decryptWith _ _ _, bl_dropOld _, bl_cleanHandshakes _, bl_checkSessionRefresh _]

theorem bl_chooseAddress : ∀ x0 x1, Bl none (chooseAddress x0 x1) := by
  intro x0 x1; unfold chooseAddress; bl [bl_deref _, bl_getR _ _, bl_memIfNone _, bl_claimAddress _ _ _ _ _, bl_resetSocket _]

theorem bl_sendHandshake : ∀ x0 x1, Bl none (sendHandshake x0 x1) := by
  intro x0 x1; unfold sendHandshake; bl [bl_chooseAddress _ _, bl_handshakeInit _ _ _ _]

theorem bl_nextRemote : ∀ x0, Bl N (nextRemote x0) := by
  intro x0; unfold nextRemote; bl [bl_deref _, bl_modR _ _ _, bl_getR _ _, bl_resolvePeer _ _]

theorem bl_advanceRemote (i : Nat) (r : Option Nat) : Bl none (advanceRemote i r) := by
  unfold advanceRemote
  refine Bl.bindP (fun p _ he => ?_) (fun p _ _ => ?_) rfl
  · rw [if_pos (by simp [Peer.isEstablished, he])]
    exact Bl.pure
  · bl [bl_deref _, bl_modR _ _ _, bl_getR _ _, bl_nextRemote _, Bl.modPout (fun _ => rfl) (fun _ => PState.noConfusion)]

theorem bl_handleTaskHandshake : ∀ x0, Bl none (handleTaskHandshake x0) := by
  intro x0; unfold handleTaskHandshake; bl [bl_setNextHandshakeDefault _, bl_sendHandshake _ _, bl_advanceRemote _ _, bl_nextRemote _]

theorem bl_handleTaskKeepalive : ∀ x0, Bl none (handleTaskKeepalive x0) := by
  intro x0; unfold handleTaskKeepalive; bl [bl_protocolSend _ _, bl_clearKeepalive _]

theorem bl_handleTaskDueHandshake : ∀ x0, Bl none (handleTaskDueHandshake x0) := by
  intro x0; unfold handleTaskDueHandshake; bl [bl_handleTaskHandshake _]

theorem bl_peerTask : ∀ x0, Bl none (peerTask x0) := by
  intro x0; unfold peerTask; bl [bl_peerDelete _, bl_peerReset _, bl_handleTaskKeepalive _, bl_handleTaskDueHandshake _, bl_schedulePeerTask _]

theorem bl_resetAll (n k : Nat) : Bl none (resetAll n k) := by
  induction n generalizing k with
  | zero => exact Bl.fail
  | succ n ih => unfold resetAll; bl [bl_peerDelete _, bl_peerReset _, ih _]

theorem bl_supersedeKeep : ∀ x0, Bl N (supersedeKeep x0) := by
  intro x0; unfold supersedeKeep; bl [bl_sessionValid _]

theorem bl_supersedeFirst : ∀ x0, Bl N (supersedeFirst x0) := by
  intro x0; unfold supersedeFirst; bl [bl_supersedeKeep _, bl_freeSession _]

theorem bl_supersedeSecond : ∀ x0 x1, Bl N (supersedeSecond x0 x1) := by
  intro x0 x1; unfold supersedeSecond; bl [bl_freeState _, bl_deref _, bl_getObj _, bl_setObj _ _]

theorem bl_supersede : ∀ x0 x1, Bl N (supersede x0 x1) := by
  intro x0 x1; unfold supersede; bl [bl_supersedeFirst _, bl_supersedeSecond _ _]

theorem bl_newSession : ∀ x0 x1 x2 x3 x4, Bl N (newSession x0 x1 x2 x3 x4) := by
  intro x0 x1 x2 x3 x4; unfold newSession; bl [bl_supersede _ _]

theorem bl_openIface : ∀ x0, Bl N (openIface x0) := by
  intro x0; unfold openIface; bl [Bl.unit]

theorem bl_setEstablished (i : Nat) : Bl none (setEstablished i) := by
  intro c a c' hb _ h
  refine ⟨?_, out_none⟩
  unfold setEstablished at h
  obtain ⟨ok, c1, h1, h'⟩ := bind_ok h
  clear h
  refine (bl_openIface i c ok c1 hb out_none h1).1.trans ?_
  have hb1 := (bl_openIface i c ok c1 hb out_none h1).1.ids
  split at h'
  · cases h'; exact BRel.refl hb1
  · obtain ⟨p, c0, h0, h⟩ := bind_ok h'
    clear h'
    obtain ⟨rfl, hp, hpi⟩ := getP_ok h0
    split at h
    · cases h; exact BRel.refl hb1
    · rename_i hne
      obtain ⟨cx, c2, h2, h'⟩ := bind_ok h
      clear h
      cases h2
      obtain ⟨_, c3, h3, h⟩ := bind_ok h'
      obtain ⟨_, c4, h4, h⟩ := bind_ok h
      obtain ⟨_, c5, h5, h⟩ := bind_ok h
      obtain ⟨_, c6, h6, h⟩ := bind_ok h
      obtain ⟨_, c7, h7, h⟩ := bind_ok h
      obtain rfl : c' = c7 := by cases h; rfl
      have i3 : Ids c3 := by
        rw [(modP_ok h3).2]
        exact hb1.upd fun _ _ _ => rfl
      have l3 : c3.log = c0.log := Qu.modP _ _ _ h3
      obtain ⟨i4, l4, s4⟩ := Bl.quiet i3 h4 (bl_seen i) (qu_seen i)
      obtain ⟨i5, l5, s5⟩ := Bl.quiet i4 h5 (bl_clearKeepalive i) (qu_clearKeepalive i)
      obtain ⟨i6, l6, s6⟩ := Bl.quiet i5 h6 (bl_schedulePeerTask i) (qu_schedulePeerTask i)
      have e7 : c' = { c6 with log := c6.log ++ [.established i] } := modify_ok h7
      refine ⟨by rw [e7]; exact ⟨i6.sorted, i6.lt⟩, [.established i], by rw [e7]; show c6.log ++ _ = _; rw [l6, l5, l4, l3], fun j => ?_⟩
      have e : est c'.peers j = est c3.peers j := by
        rw [e7]
        show est c6.peers j = _
        rw [s6, s5, s4]
      rw [e]
      by_cases hj : j = i
      · subst hj
        have hf : est c0.peers j = false := by
          rw [Bool.eq_false_iff, Ne, est_true]
          rintro ⟨q, hq, hqj, hqs⟩
          rw [sorted_inj hb1.sorted hq hp (hqj.trans hpi.symm)] at hqs
          exact hne (by simp [Peer.isEstablished, hqs])
        have ht : est c3.peers j = true := by
          rw [est_true, (modP_ok h3).2]
          refine ⟨_, List.mem_map.2 ⟨p, hp, if_pos hpi⟩, hpi, rfl⟩
        rw [hf, ht]
        simp [hooks, swing]
      · have hh : hooks j [.established i] = [] := by simp [hooks, Ne.symm hj]
        rw [hh]
        refine congrArg some (est_congr ?_)
        rw [(modP_ok h3).2]
        constructor
        · rintro ⟨q, hq, hqj, hqs⟩
          refine ⟨q, List.mem_map.2 ⟨q, hq, if_neg ?_⟩, hqj, hqs⟩
          rw [hqj]; exact hj
        · rintro ⟨q, hq, hqj, hqs⟩
          rcases mem_upd_cases hq with ⟨hq, _⟩ | ⟨r, _, hr, rfl⟩
          · exact ⟨q, hq, hqj, hqs⟩
          · exact absurd (hqj.symm.trans hr) hj

theorem bl_establishEnd : ∀ x0 x1, Bl N (establishEnd x0 x1) := by
  intro x0 x1; unfold establishEnd; bl [bl_scheduleHandshakeDefault _, bl_sendEmpty _]

theorem bl_establish : ∀ x0 x1 x2 x3 x4 x5 x6 x7, Bl none (establish x0 x1 x2 x3 x4 x5 x6 x7) := by
  intro x0 x1 x2 x3 x4 x5 x6 x7; unfold establish; bl [bl_claimAddress _ _ _ _ _, bl_peerReset _, bl_newSession _ _ _ _ _, bl_setEstablished _, bl_establishEnd _ _]

theorem bl_updateShared : ∀ x0 x1 x2, Bl N (updateShared x0 x1 x2) := by
  intro x0 x1 x2; unfold updateShared; bl [Bl.unit]

theorem bl_clearShared : ∀ x0, Bl N (clearShared x0) := by
  intro x0; unfold clearShared; bl [Bl.unit]

theorem bl_respondHandshake : ∀ x0 x1 x2 x3 x4 x5, Bl N (respondHandshake x0 x1 x2 x3 x4 x5) := by
  intro x0 x1 x2 x3 x4 x5; unfold respondHandshake; bl [bl_updateShared _ _ _, bl_bugIfNone _, bl_sendHandshakePkt _ _ _ _ _ _]

theorem bl_record : ∀ x0 x1, Bl N (record x0 x1) := by
  intro x0 x1; unfold record; bl [bl_memIfNone _]

theorem bl_field : ∀ x0 x1 x2, Bl N (field x0 x1 x2) := by
  intro x0 x1 x2; unfold field; bl [bl_memIfNone _]

theorem bl_sendFinish : ∀ x0 x1 x2 x3 x4 x5 x6 x7 x8, Bl N (sendFinish x0 x1 x2 x3 x4 x5 x6 x7 x8) := by
  intro x0 x1 x2 x3 x4 x5 x6 x7 x8; unfold sendFinish; bl [bl_bugIfNone _, bl_sendHandshakePkt _ _ _ _ _ _]

theorem bl_finishHandshake : ∀ x0 x1 x2 x3 x4 x5 x6 x7, Bl none (finishHandshake x0 x1 x2 x3 x4 x5 x6 x7) := by
  intro x0 x1 x2 x3 x4 x5 x6 x7; unfold finishHandshake; bl [bl_record _ _, bl_sendError _ _ _ _ _ _ _ _, bl_establish _ _ _ _ _ _ _ _, bl_sendFinish _ _ _ _ _ _ _ _ _]

theorem bl_handleFinish : ∀ x0 x1 x2 x3 x4 x5 x6 x7, Bl none (handleFinish x0 x1 x2 x3 x4 x5 x6 x7) := by
  intro x0 x1 x2 x3 x4 x5 x6 x7; unfold handleFinish; bl [bl_record _ _, bl_sendError _ _ _ _ _ _ _ _, bl_establish _ _ _ _ _ _ _ _, bl_updateShared _ _ _, bl_clearShared _]

theorem bl_matchSenderKey : ∀ x0 x1 x2 x3, Bl N (matchSenderKey x0 x1 x2 x3) := by
  intro x0 x1 x2 x3; unfold matchSenderKey; bl [bl_sockPeer _]

theorem bl_addDynamic : ∀ x0 x1, Bl none (addDynamic x0 x1) := by
  intro x0 x1; unfold addDynamic; bl [bl_sockPeer _, bl_peerAdd (fun h => PState.noConfusion h), bl_peerReset _]

theorem bl_verifyPeer : ∀ x0 x1, Bl N (verifyPeer x0 x1) := by
  intro x0 x1; unfold verifyPeer; bl [bl_setVerifying _, bl_setVerified _ _]

theorem bl_handleDynamic : ∀ x0 x1 x2 x3 x4 x5, Bl none (handleDynamic x0 x1 x2 x3 x4 x5) := by
  intro x0 x1 x2 x3 x4 x5; unfold handleDynamic; bl [bl_verifyPeer _ _, bl_peerDelete _]

theorem bl_hsVerified : ∀ x0 x1 x2 x3 x4 x5, Bl none (hsVerified x0 x1 x2 x3 x4 x5) := by
  intro x0 x1 x2 x3 x4 x5; unfold hsVerified; bl [bl_handleDynamic _ _ _ _ _ _]

theorem bl_handleVerifyReturn : ∀ x0 x1, Bl N (handleVerifyReturn x0 x1) := by
  intro x0 x1; unfold handleVerifyReturn; bl [bl_respondHandshake _ _ _ _ _ _]

theorem bl_checkMtu : ∀ x0 x1 x2 x3 x4, Bl N (checkMtu x0 x1 x2 x3 x4) := by
  intro x0 x1 x2 x3 x4; unfold checkMtu; bl [bl_memIfNone _, bl_sendError _ _ _ _ _ _ _ _]

theorem bl_hsInitial : ∀ x0 x1 x2 x3 x4 x5, Bl N (hsInitial x0 x1 x2 x3 x4 x5) := by
  intro x0 x1 x2 x3 x4 x5; unfold hsInitial; bl [bl_respondHandshake _ _ _ _ _ _]

theorem bl_hsReply : ∀ x0 x1 x2 x3 x4 x5, Bl none (hsReply x0 x1 x2 x3 x4 x5) := by
  intro x0 x1 x2 x3 x4 x5; unfold hsReply; bl [bl_field _ _ _, bl_finishHandshake _ _ _ _ _ _ _ _, bl_handleFinish _ _ _ _ _ _ _ _]

theorem bl_hsCheck : ∀ x0 x1 x2 x3 x4, Bl none (hsCheck x0 x1 x2 x3 x4) := by
  intro x0 x1 x2 x3 x4; unfold hsCheck; bl [bl_checkMtu _ _ _ _ _, bl_field _ _ _]

theorem bl_hsKnown : ∀ x0 x1 x2 x3 x4, Bl none (hsKnown x0 x1 x2 x3 x4) := by
  intro x0 x1 x2 x3 x4; unfold hsKnown; bl [bl_hsCheck _ _ _ _ _, bl_hsVerified _ _ _ _ _ _, bl_hsInitial _ _ _ _ _ _, bl_hsReply _ _ _ _ _ _]

theorem bl_handshakeHandle : ∀ x0 x1 x2 x3 x4, Bl none (handshakeHandle x0 x1 x2 x3 x4) := by
  intro x0 x1 x2 x3 x4; unfold handshakeHandle; bl [bl_protoMaintenance, bl_field _ _ _, bl_matchSenderKey _ _ _ _, bl_hsKnown _ _ _ _ _, bl_addDynamic _ _]

theorem bl_canReceive : ∀ x0 x1, Bl N (canReceive x0 x1) := by
  intro x0 x1; unfold canReceive; bl [Bl.unit]

theorem bl_allowUnknown : Bl N (allowUnknown) := by
  unfold allowUnknown; bl [Bl.unit]

theorem bl_backoff : ∀ x0, Bl N (backoff x0) := by
  intro x0; unfold backoff; bl [Bl.unit]

theorem bl_hsPacket : ∀ x0 x1 x2 x3 x4 x5, Bl none (hsPacket x0 x1 x2 x3 x4 x5) := by
  intro x0 x1 x2 x3 x4 x5; unfold hsPacket; bl [bl_sendError _ _ _ _ _ _ _ _, bl_handshakeHandle _ _ _ _ _]

theorem bl_classify : ∀ x0 x1 x2 x3 x4 x5, Bl none (classify x0 x1 x2 x3 x4 x5) := by
  intro x0 x1 x2 x3 x4 x5; unfold classify; bl [bl_memIfNone _, bl_canReceive _ _, bl_handleRecv _ _, bl_allowUnknown, bl_hsPacket _ _ _ _ _ _, bl_backoff _, bl_handshakeInit _ _ _ _]

theorem bl_senderOf : ∀ x0 x1, Bl N (senderOf x0 x1) := by
  intro x0 x1; unfold senderOf; bl [bl_sockPeer _, bl_htLookup _]

theorem bl_socketReceive : ∀ x0 x1 x2 x3, Bl none (socketReceive x0 x1 x2 x3) := by
  intro x0 x1 x2 x3; unfold socketReceive; bl [bl_senderOf _ _, bl_memIfNone _, bl_classify _ _ _ _ _ _]

theorem bl_resolveReturn : ∀ x0 x1 x2, Bl none (resolveReturn x0 x1 x2) := by
  intro x0 x1 x2; unfold resolveReturn; bl [bl_handleResolve _ _ _]

theorem bl_verifyReturn : ∀ x0 x1, Bl N (verifyReturn x0 x1) := by
  intro x0 x1; unfold verifyReturn; bl [bl_setVerified _ _, bl_handleVerifyReturn _ _]

theorem bl_configurePeer : ∀ x0 x1, Bl none (configurePeer x0 x1) := by
  intro x0 x1; unfold configurePeer; bl [bl_peerDelete _, bl_peerReset _]

theorem bl_configureLoop (d : Bool) (n : Nat) : Bl none (configureLoop d n) := by
  induction n with
  | zero => exact Bl.unit
  | succ n ih => unfold configureLoop; bl [bl_memIfNone _, bl_configurePeer _ _, ih]

theorem bl_configurePeers : ∀ x0, Bl none (configurePeers x0) := by
  intro x0; unfold configurePeers; bl [bl_configureLoop _ _]

theorem bl_addDef : ∀ x0 x1, Bl none (addDef x0 x1) := by
  intro x0 x1; unfold addDef; bl [bl_peerAdd (fun h => PState.noConfusion h)]

theorem bl_addStatic : ∀ x0, Bl none (addStatic x0) := by
  intro x0; unfold addStatic; bl [bl_peerAdd (fun h => PState.noConfusion h)]

theorem bl_loadPeerDirs {d : Bool} {defs : List PeerDef} : Bl none (loadPeerDirs d defs) := by
  unfold loadPeerDirs
  refine Bl.bind ?_ fun _ => Bl.bind (Bl.forEach (fun _ => bl_addDef _ _) _) fun _ => bl_configurePeers _
  intro c a c' hb _ h
  cases h
  have hm : ∀ p : Peer, (reloadMark p).id = p.id ∧ (reloadMark p).state = p.state := by
    intro p
    unfold reloadMark
    split
    · exact ⟨rfl, rfl⟩
    · split
      · exact ⟨rfl, rfl⟩
      · split <;> exact ⟨rfl, rfl⟩
  refine ⟨⟨⟨?_, fun p hp => ?_⟩, [], by simp, fun i => congrArg some (est_congr ⟨?_, ?_⟩)⟩, out_none⟩
  · have hs : Sorted c.peers := hb.sorted
    unfold Sorted at hs ⊢
    show List.Pairwise _ ((c.peers.map reloadMark).map (·.id))
    rw [List.map_map]
    have : ((·.id) ∘ reloadMark : Peer → Nat) = (·.id) := by
      funext p
      exact (hm p).1
    rw [this]
    exact hs
  · obtain ⟨q, hq, rfl⟩ := List.mem_map.1 hp
    rw [(hm q).1]
    exact hb.lt q hq
  · rintro ⟨p, hp, h⟩
    exact ⟨_, List.mem_map_of_mem hp, by rw [(hm p).1, (hm p).2]; exact h⟩
  · rintro ⟨p, hp, h⟩
    obtain ⟨q, hq, rfl⟩ := List.mem_map.1 hp
    rw [(hm q).1, (hm q).2] at h
    exact ⟨q, hq, h⟩

theorem bl_startup : ∀ x0 x1, Bl none (startup x0 x1) := by
  intro x0 x1; unfold startup; bl [bl_addStatic _, bl_configurePeers _, bl_loadPeerDirs]

theorem bl_ethCleanup : Bl N (ethCleanup) := by
  unfold ethCleanup; bl [Bl.unit]

/-- Events. -/
theorem bl_handle (e : Event) : Bl none (handle e) := by
  cases e with
  | tick d => unfold handle; bl [Bl.unit]
  | task i => exact bl_peerTask i
  | maintenance => unfold handle; bl [bl_ethCleanup]
  | recv s l r p => exact bl_socketReceive s l r p
  | iface o d => exact bl_sendData d none o
  | resolved k l => unfold handle; bl [bl_memIfNone _, bl_resolveReturn _ _ _]
  | verified k o => unfold handle; bl [bl_memIfNone _, bl_verifyReturn _ _]
  | reload l => exact bl_loadPeerDirs
  | resetAll => unfold handle; bl [bl_resetAll _ _]

end Fastd.Daemon
