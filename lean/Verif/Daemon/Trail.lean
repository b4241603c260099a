import Verif.Daemon.History

/-!
# The MAC table and session objects over time

A second relation between the states before and after any computation of the model, in the style of `History`: which entries
of the MAC table survive, that freed session objects stay freed and that session objects do not change hands.
-/

namespace Fastd.Daemon

set_option linter.unusedSectionVars false

variable [Env]

/-! ### Definitions -/

/-- What is needed of a state: ids are unique, the MAC table is sorted and refers to established peers only. -/
structure Base (c : Ctx) : Prop where
  ids : Ids c
  eth : EthOk c.peers c.eth

/-- An entry of the MAC table after learning `X`, if any. -/
def Known (es : List Eth) (X : Option Eth) (e : Eth) : Prop := X = some e ∨ e ∈ es ∧ ∀ x, X = some x → e.addr ≠ x.addr

/-- Time is the same, freed session objects stay freed, session objects do not change hands. -/
structure Tc (c c' : Ctx) : Prop where
  now : c'.now = c.now
  nextId : c.nextId ≤ c'.nextId
  base : Base c'
  obj : c.nextObj ≤ c'.nextObj
  dead : ∀ k < c.nextObj, c.objs k = none → c'.objs k = none
  own : ∀ q ∈ c'.peers, ∀ k ∈ q.refs, k < c.nextObj → ∃ p ∈ c.peers, p.id = q.id ∧ k ∈ p.refs

/-- Peers are disestablished only if `D`; the frame written to an interface is `V`; the entry learned is `X`. -/
structure Tl (D : Prop) (V : Option (Nat × Bytes)) (X : Option Eth) (c c' : Ctx) : Prop extends Tc c c' where
  eth : ∃ l, c'.log = c.log ++ l ∧ (∀ i, .disestablished i ∈ l → D) ∧ (∀ j d, .write j d ∈ l ↔ V = some (j, d)) ∧
    ∀ e, e ∈ c'.eth ↔ Known c.eth X e ∧ ∀ i, e.peer = some i → .disestablished i ∉ l

/-- The peer is not established. -/
def Out (N : Option Nat) (c : Ctx) : Prop := ∀ i, N = some i → ∀ p ∈ c.peers, p.id = i → p.state ≠ .established

/-- A computation that neither writes nor learns. -/
def Tp (D : Prop) (N : Option Nat) {α : Type} (m : M α) : Prop :=
  ∀ c a c', Base c → Out N c → m c = .ok (a, c') → Tl D none none c c' ∧ Out N c'

/-! ### Properties of the relation -/

theorem known_none {es : List Eth} {e : Eth} : Known es none e ↔ e ∈ es :=
  ⟨fun h => h.elim (fun h => by cases h) (·.1), fun h => .inr ⟨h, fun _ h => by cases h⟩⟩

theorem Tc.refl {c : Ctx} (h : Base c) : Tc c c :=
  ⟨rfl, Nat.le_refl _, h, Nat.le_refl _, fun _ _ h => h, fun q hq _ hk _ => ⟨q, hq, rfl, hk⟩⟩

theorem Tl.refl {D : Prop} {c : Ctx} (h : Base c) : Tl D none none c c :=
  ⟨Tc.refl h, [], by simp, by simp, by simp, fun e => by simp [known_none]⟩

theorem Tc.trans {c c' c'' : Ctx} (h : Tc c c') (h' : Tc c' c'') : Tc c c'' := by
  refine ⟨h'.now.trans h.now, Nat.le_trans h.nextId h'.nextId, h'.base, Nat.le_trans h.obj h'.obj,
    fun _ hk hn => h'.dead _ (Nat.lt_of_lt_of_le hk h.obj) (h.dead _ hk hn), fun r hr k hk hlt => ?_⟩
  obtain ⟨q, hq, hqi, hkq⟩ := h'.own r hr k hk (Nat.lt_of_lt_of_le hlt h.obj)
  obtain ⟨p, hp, hpi, hkp⟩ := h.own q hq k hkq hlt
  exact ⟨p, hp, hpi.trans hqi, hkp⟩

/-- Learning or writing first. -/
theorem Tl.then {D : Prop} {V : Option (Nat × Bytes)} {X : Option Eth} {c c' c'' : Ctx} (h : Tl D V X c c') (h' : Tl D none none c' c'') :
    Tl D V X c c'' := by
  refine ⟨h.toTc.trans h'.toTc, ?_⟩
  obtain ⟨l, hl, hd, hw, hb⟩ := h.eth
  obtain ⟨l', hl', hd', hw', hb'⟩ := h'.eth
  refine ⟨l ++ l', by rw [hl', hl, List.append_assoc], fun i hi => ?_, fun j d => ?_, fun e => ?_⟩
  · exact (List.mem_append.1 hi).elim (hd i) (hd' i)
  · rw [List.mem_append, hw, hw']; simp
  · rw [hb', known_none, hb, and_assoc]
    refine and_congr_right fun _ => ⟨fun ⟨h1, h2⟩ i hi hm => ?_, fun h => ⟨fun i hi hm => h i hi (List.mem_append_left _ hm),
      fun i hi hm => h i hi (List.mem_append_right _ hm)⟩⟩
    exact (List.mem_append.1 hm).elim (h1 i hi) (h2 i hi)

theorem Tl.trans {D : Prop} {c c' c'' : Ctx} (h : Tl D none none c c') (h' : Tl D none none c' c'') : Tl D none none c c'' := h.then h'

/-- Learning or writing last. -/
theorem Tl.before {D : Prop} {V : Option (Nat × Bytes)} {X : Option Eth} {c c' c'' : Ctx} (h : Tl False none none c c') (h' : Tl D V X c' c'') :
    Tl D V X c c'' := by
  refine ⟨h.toTc.trans h'.toTc, ?_⟩
  obtain ⟨l, hl, hd, hw, hb⟩ := h.eth
  obtain ⟨l', hl', hd', hw', hb'⟩ := h'.eth
  refine ⟨l ++ l', by rw [hl', hl, List.append_assoc], fun i hi => ?_, fun j d => ?_, fun e => ?_⟩
  · exact (List.mem_append.1 hi).elim (fun h => (hd i h).elim) (hd' i)
  · rw [List.mem_append, hw, hw']; simp
  · have hk : ∀ e, e ∈ c'.eth ↔ e ∈ c.eth := fun e => by
      rw [hb, known_none]
      exact ⟨fun h => h.1, fun h => ⟨h, fun i _ hm => (hd i hm).elim⟩⟩
    have hK : Known c'.eth X e ↔ Known c.eth X e := by unfold Known; rw [hk]
    rw [hb', hK]
    refine and_congr_right fun _ => ⟨fun h i hi hm => ?_, fun h i hi hm => h i hi (List.mem_append_right _ hm)⟩
    exact (List.mem_append.1 hm).elim (fun h => (hd i h).elim) (h i hi)

theorem Tl.mono {D D' : Prop} {V : Option (Nat × Bytes)} {X : Option Eth} {c c' : Ctx} (hD : D → D') (h : Tl D V X c c') : Tl D' V X c c' := by
  obtain ⟨l, hl, hd, hw, hb⟩ := h.eth
  exact ⟨h.toTc, l, hl, fun i hi => hD (hd i hi), hw, hb⟩

/-! ### Computations -/

variable {D : Prop} {N : Option Nat} {α β : Type}

theorem out_none {c : Ctx} : Out none c := fun _ h => by cases h

theorem Tp.same {m : M α} (h : ∀ c a c', m c = .ok (a, c') → c' = c) : Tp D N m := by
  intro c a c' hb ho hm
  obtain rfl := h _ _ _ hm
  exact ⟨Tl.refl hb, ho⟩

theorem Tp.pure {a : α} : Tp D N (Pure.pure a : M α) := Tp.same fun _ _ _ h => by cases h; rfl
theorem Tp.fail {e : Fail} : Tp D N (fail e : M α) := Tp.same fun _ _ _ h => by cases h
theorem Tp.get : Tp D N get := Tp.same fun _ _ _ h => by cases h; rfl
theorem Tp.getP {i : Nat} : Tp D N (getP i) := Tp.same fun _ _ _ h => (getP_ok h).1

theorem Tp.bind {m : M α} {f : α → M β} (hm : Tp D N m) (hf : ∀ a, Tp D N (f a)) : Tp D N (m >>= f) := by
  intro c b c' hb ho h
  obtain ⟨a, c1, h1, h2⟩ := bind_ok h
  obtain ⟨t1, o1⟩ := hm c a c1 hb ho h1
  obtain ⟨t2, o2⟩ := hf a c1 b c' t1.base o1 h2
  exact ⟨t1.trans t2, o2⟩

/-- The same, with what is known about the result of the first part. -/
theorem Tp.bind' {m : M α} {f : α → M β} (hm : Tp D N m)
    (hf : ∀ a c c1, Base c → Out N c → m c = .ok (a, c1) → ∀ b c', f a c1 = .ok (b, c') → Tl D none none c1 c' ∧ Out N c') : Tp D N (m >>= f) := by
  intro c b c' hb ho h
  obtain ⟨a, c1, h1, h2⟩ := bind_ok h
  obtain ⟨t, o⟩ := hf a c c1 hb ho h1 b c' h2
  exact ⟨(hm c a c1 hb ho h1).1.trans t, o⟩

theorem Tp.ite {P : Prop} [Decidable P] {m m' : M α} (h : Tp D N m) (h' : Tp D N m') : Tp D N (if P then m else m') := by
  by_cases hP : P
  · rw [if_pos hP]; exact h
  · rw [if_neg hP]; exact h'

theorem Tp.when {b : Bool} {m : M Unit} (h : Tp D N m) : Tp D N (when b m) := Tp.ite h Tp.pure

/-- Changes that concern neither peers, the MAC table nor session objects. -/
theorem Tl.calm {c c' : Ctx} (h : Base c) (hn : c'.now = c.now) (hx : c'.nextId = c.nextId) (hp : c'.peers = c.peers) (he : c'.eth = c.eth)
    (ho : c'.objs = c.objs) (hno : c'.nextObj = c.nextObj) (hl : c'.log = c.log) : Tl D none none c c' := by
  refine ⟨⟨hn, Nat.le_of_eq hx.symm, ⟨⟨by rw [hp]; exact h.ids.sorted, by rw [hp, hx]; exact h.ids.lt⟩, by rw [hp, he]; exact h.eth⟩,
    Nat.le_of_eq hno.symm, fun _ _ h => by rw [ho]; exact h, fun q hq k hk _ => ⟨q, by rw [← hp]; exact hq, rfl, hk⟩⟩,
    [], by simp [hl], by simp, by simp, fun e => by simp [known_none, he]⟩

theorem Tp.modify {f : Ctx → Ctx} (hn : ∀ c, (f c).now = c.now) (hx : ∀ c, (f c).nextId = c.nextId)
    (hp : ∀ c, (f c).peers = c.peers) (he : ∀ c, (f c).eth = c.eth) (ho : ∀ c, (f c).objs = c.objs)
    (hno : ∀ c, (f c).nextObj = c.nextObj) (hl : ∀ c, (f c).log = c.log) : Tp D N (modify f) := by
  intro c a' c' hb hO h
  cases h
  exact ⟨Tl.calm hb (hn c) (hx c) (hp c) (he c) (ho c) (hno c) (hl c), fun i hi p hpp => hO i hi p (by rw [← hp c]; exact hpp)⟩

theorem Tp.draw : Tp D N draw := by
  intro c a' c' hb ho h
  cases h
  exact ⟨Tl.calm hb rfl rfl rfl rfl rfl rfl rfl, ho⟩

theorem Tp.drawBool : Tp D N drawBool := Tp.bind Tp.draw fun _ => Tp.pure

theorem Tp.rand {a b : Time} : Tp D N (rand a b) := Tp.bind Tp.draw fun _ => Tp.pure

/-- Effects other than writing and disestablishing. -/
theorem Tp.emit {e : Eff} (hd : ∀ i, e ≠ .disestablished i) (hw : ∀ j d, e ≠ .write j d) : Tp D N (emit e) := by
  intro c a' c' hb ho h
  cases h
  refine ⟨⟨⟨rfl, Nat.le_refl _, ⟨⟨hb.ids.sorted, hb.ids.lt⟩, hb.eth⟩, Nat.le_refl _, fun _ _ h => h, fun q hq k hk _ => ⟨q, hq, rfl, hk⟩⟩,
    [e], rfl, fun i hi => ?_, fun j d => ?_, fun x => ?_⟩, ho⟩
  · exact absurd (List.mem_singleton.1 hi).symm (hd i)
  · simp only [List.mem_singleton, reduceCtorEq, iff_false]
    exact fun h => hw j d h.symm
  · show x ∈ c.eth ↔ _
    rw [known_none]
    refine ⟨fun h => ⟨h, fun i _ hm => hd i (List.mem_singleton.1 hm).symm⟩, fun h => h.1⟩

/-- A change of a peer. -/
theorem Tc.upd {i : Nat} {f : Peer → Peer} {c : Ctx} (hb : Base c) (hid : ∀ p ∈ c.peers, p.id = i → (f p).id = p.id)
    (hs : ∀ p ∈ c.peers, p.id = i → p.state = .established → (f p).state = .established ∨ ∀ e ∈ c.eth, e.peer ≠ some i)
    (hr : ∀ p ∈ c.peers, p.id = i → ∀ k ∈ (f p).refs, k < c.nextObj → k ∈ p.refs) :
    Tc c { c with peers := updPeers c.peers i f } := by
  refine ⟨rfl, Nat.le_refl _, ⟨hb.ids.upd hid, hb.eth.sorted, fun e he j hj => ?_⟩, Nat.le_refl _, fun _ _ h => h, fun q hq k hk hlt => ?_⟩
  · obtain ⟨p, hp, hpi, hps⟩ := hb.eth.peer e he j hj
    by_cases hpi' : p.id = i
    · refine ⟨f p, mem_updPeers.2 ⟨p, hp, if_pos hpi'⟩, (hid p hp hpi').trans hpi, (hs p hp hpi' hps).resolve_right fun h => h e he ?_⟩
      rw [hj, ← hpi, hpi']
    · exact ⟨p, mem_updPeers.2 ⟨p, hp, if_neg hpi'⟩, hpi, hps⟩
  · rcases mem_upd_cases hq with ⟨hp, _⟩ | ⟨p, hp, hpi, rfl⟩
    · exact ⟨q, hp, rfl, hk⟩
    · exact ⟨p, hp, (hid p hp hpi).symm, hr p hp hpi k hk hlt⟩

theorem Tl.upd {i : Nat} {f : Peer → Peer} {c : Ctx} (hb : Base c) (hid : ∀ p ∈ c.peers, p.id = i → (f p).id = p.id)
    (hs : ∀ p ∈ c.peers, p.id = i → p.state = .established → (f p).state = .established)
    (hr : ∀ p ∈ c.peers, p.id = i → ∀ k ∈ (f p).refs, k < c.nextObj → k ∈ p.refs) :
    Tl D none none c { c with peers := updPeers c.peers i f } :=
  ⟨Tc.upd hb hid (fun p hp hi h => .inl (hs p hp hi h)) hr, [], by simp, by simp, by simp, fun e => by simp [known_none]⟩

theorem Tp.modP {i : Nat} {f : Peer → Peer} (hid : ∀ p, (f p).id = p.id) (hs : ∀ p, (f p).state = p.state)
    (hr : ∀ p, ∀ k ∈ (f p).refs, k ∈ p.refs) : Tp D N (modP i f) := by
  intro c a c' hb ho h
  obtain ⟨_, rfl⟩ := modP_ok h
  refine ⟨Tl.upd hb (fun p _ _ => hid p) (fun p _ _ h => (hs p).trans h) fun p _ _ k hk _ => hr p k hk, fun j hj p hp hpj => ?_⟩
  rcases mem_upd_cases hp with ⟨hp, _⟩ | ⟨q, hq, hqi, rfl⟩
  · exact ho j hj p hp hpj
  · rw [hs]; exact ho j hj q hq (by rw [← hid q]; exact hpj)

/-- The state of a peer that is not established is changed. -/
theorem Tp.modOut {i : Nat} {f : Peer → Peer} (hid : ∀ p, (f p).id = p.id) (hs : ∀ p, (f p).state ≠ .established)
    (hr : ∀ p, ∀ k ∈ (f p).refs, k ∈ p.refs) : Tp D (some i) (Daemon.modP i f) := by
  intro c a c' hb ho h
  obtain ⟨_, rfl⟩ := modP_ok h
  refine ⟨Tl.upd hb (fun p _ _ => hid p) (fun p hp hi h => absurd h (ho i rfl p hp hi)) fun p _ _ k hk _ => hr p k hk, fun j hj p hp hpj => ?_⟩
  rcases mem_upd_cases hp with ⟨hp, _⟩ | ⟨q, hq, hqi, rfl⟩
  · exact ho j hj p hp hpj
  · exact hs q

theorem Tp.forEach {f : α → M Unit} (hf : ∀ a, Tp D N (f a)) (l : List α) : Tp D N (forEach f l) := by
  induction l with
  | nil => exact Tp.pure
  | cons a as ih => exact Tp.bind (hf a) fun _ => ih

/-- Proves `Tp` for a program of known parts. -/
syntax "tp" "[" term,* "]" : tactic

macro_rules
  | `(tactic| tp [$ls,*]) => `(tactic| repeat' (first
      | exact Tp.pure
      | exact Tp.fail
      | exact Tp.get
      | exact Tp.getP
      | exact Tp.draw
      | exact Tp.drawBool
      | exact Tp.rand
      | exact Tp.modify (fun _ => rfl) (fun _ => rfl) (fun _ => rfl) (fun _ => rfl) (fun _ => rfl) (fun _ => rfl) (fun _ => rfl)
      | exact Tp.emit (by intros; simp) (by intros; simp)
      | exact Tp.modP (fun _ => rfl) (fun _ => rfl) (fun _ _ h => h)
      | (first $[| exact $(ls.getElems)]*)
      | with_reducible refine Tp.bind ?_ fun _ => ?_
      | with_reducible refine Tp.when ?_
      | with_reducible refine Tp.forEach (fun _ => ?_) _
      | with_reducible refine Tp.ite ?_ ?_
      | split))

theorem Tp.unit : Tp D N (Pure.pure () : M Unit) := Tp.pure

theorem Tp.none {m : M α} (h : Tp D none m) {c c' : Ctx} {a : α} (hb : Base c) (hm : m c = .ok (a, c')) : Tl D none none c c' :=
  (h c a c' hb out_none hm).1

/-! ### Hash table, sockets -/

theorem tp_htInsertFuel (n i : Nat) : Tp D N (htInsertFuel n i) := by
  induction n generalizing i with
  | zero => exact Tp.fail
  | succ n ih => unfold htInsertFuel; tp [ih _]

theorem tp_htInsert (i : Nat) : Tp D N (htInsert i) := tp_htInsertFuel 2 i

theorem tp_htRemove (i : Nat) : Tp D N (htRemove i) := by unfold htRemove; tp [Tp.unit]

theorem tp_htScan (a : Addr) (l : List Nat) : Tp D N (htScan a l) := by
  induction l with
  | nil => exact Tp.pure
  | cons i l ih => unfold htScan; tp [ih]

theorem tp_htLookup (a : Addr) : Tp D N (htLookup a) := by unfold htLookup; tp [tp_htScan _ _]

theorem tp_sockLive (s : Sock) : Tp D N (sockLive s) := by unfold sockLive; tp [Tp.unit]

theorem tp_sockPeer (s : Sock) : Tp D N (sockPeer s) := by unfold sockPeer; tp [Tp.unit]

theorem tp_freeSocket (i : Nat) : Tp D N (freeSocket i) := by unfold freeSocket; tp [tp_sockPeer _]

theorem tp_socketOpen (i : Nat) : Tp D N (socketOpen i) := by unfold socketOpen; tp [Tp.unit]

theorem tp_newSocket (i : Nat) (d : Option Nat) : Tp D N (newSocket i d) := by unfold newSocket; tp [tp_socketOpen _]

theorem tp_resetSocket (i : Nat) : Tp D N (resetSocket i) := by unfold resetSocket; tp [tp_freeSocket _, tp_newSocket _ _]

/-! ### Set-up and reset -/

theorem tp_schedulePeerTask (i : Nat) : Tp D N (schedulePeerTask i) := by
  unfold schedulePeerTask
  refine Tp.modP (fun p => ?_) (fun p => ?_) fun p k => ?_
  · split; rfl; split <;> rfl
  · split; rfl; split <;> rfl
  · split; exact id; split <;> exact id

theorem tp_setNextHandshake (i : Nat) (d : Time) : Tp D N (setNextHandshake i d) := by unfold setNextHandshake; tp [Tp.unit]

theorem tp_handshakeDefaultRand : Tp D N handshakeDefaultRand := Tp.rand

theorem tp_setNextHandshakeDefault (i : Nat) : Tp D N (setNextHandshakeDefault i) := by
  unfold setNextHandshakeDefault; tp [tp_handshakeDefaultRand, tp_setNextHandshake _ _]

theorem tp_scheduleHandshake (i : Nat) (d : Time) : Tp D N (scheduleHandshake i d) := by
  unfold scheduleHandshake; tp [tp_setNextHandshake _ _, tp_schedulePeerTask _]

theorem tp_scheduleHandshakeDefault (i : Nat) : Tp D N (scheduleHandshakeDefault i) := by
  unfold scheduleHandshakeDefault; tp [tp_handshakeDefaultRand, tp_scheduleHandshake _ _]

/-- A session object is changed or freed. -/
theorem Tl.objs {c : Ctx} {o : Nat → Option Env.Sess} (h : Base c) (ho : ∀ k, c.objs k = none → o k = none) :
    Tl D none none c { c with objs := o } :=
  ⟨⟨rfl, Nat.le_refl _, ⟨⟨h.ids.sorted, h.ids.lt⟩, h.eth⟩, Nat.le_refl _, fun k _ hk => ho k hk, fun q hq k hk _ => ⟨q, hq, rfl, hk⟩⟩,
    [], by simp, by simp, by simp, fun e => by simp [known_none]⟩

theorem tp_freeState (o : Option Nat) : Tp D N (freeState o) := by
  intro c a c' hb ho h
  cases o with
  | none => cases h; exact ⟨Tl.refl hb, ho⟩
  | some k =>
    obtain ⟨c1, c2, h1, h2⟩ := bind_ok h
    cases h1
    cases hx : c.objs k with
    | none => simp only [hx] at h2; cases h2
    | some _ =>
      simp only [hx] at h2
      cases h2
      refine ⟨Tl.objs hb fun j hj => ?_, ho⟩
      split
      · rfl
      · exact hj

theorem tp_freeSession (s : Session) : Tp D N (freeSession s) := by unfold freeSession; tp [tp_freeState _]

theorem tp_resetPeerState (i : Nat) : Tp D N (resetPeerState i) := by
  unfold resetPeerState
  tp [tp_freeSession _]
  · exact Tp.modP (fun _ => rfl) (fun _ => rfl) fun p k h => by
      simp only [Peer.refs, Option.toList_none, List.nil_append] at h ⊢; exact List.mem_append_right _ h
  · exact Tp.modP (fun _ => rfl) (fun _ => rfl) fun p k h => by
      simp only [Peer.refs, Option.toList_none, List.append_nil] at h ⊢; exact List.mem_append_left _ h

/-- What `resetPeer` does after the entries of the peer have been removed from the MAC table. -/
theorem tl_resetEnd {i : Nat} {c c' : Ctx} {a : Unit} {g : Peer → Option Iface} (hb : Base c) (hn : ∀ e ∈ c.eth, e.peer ≠ some i)
    (h : (do
      modP i fun p => { p with task := none }
      htRemove i
      modP i fun p => { p with addr := .unspec 0, localAddr := .unspec 0, state := .inactive }
      modP i fun p => { p with iface := g p } : M Unit) c = .ok (a, c')) : Tl False none none c c' := by
  obtain ⟨_, c1, h1, h⟩ := bind_ok h
  obtain ⟨_, c2, h2, h⟩ := bind_ok h
  obtain ⟨_, c3, h3, h⟩ := bind_ok h
  have t2 : Tl False none none c c2 := Tp.none (by tp [tp_htRemove _] : Tp False none (do
      modP i fun p => { p with task := none }
      htRemove i : M Unit)) hb (show _ = _ from by show M.bind _ _ _ = _; unfold M.bind; rw [h1]; exact h2)
  obtain ⟨_, e3⟩ := modP_ok h3
  have hn2 : ∀ e ∈ c2.eth, e.peer ≠ some i := by
    obtain ⟨l, hl, hd, hw, he⟩ := t2.eth
    intro e hm
    exact hn e (known_none.1 ((he e).1 hm).1)
  have t3 : Tl False none none c2 c3 := by
    rw [e3]
    exact ⟨Tc.upd t2.base (fun _ _ _ => rfl) (fun _ _ _ _ => .inr hn2) (fun _ _ _ _ h _ => h), [], by simp, by simp, by simp,
      fun e => by simp [known_none]⟩
  have : Tp False none (modP i fun p => { p with iface := g p }) := Tp.modP (fun _ => rfl) (fun _ => rfl) fun _ _ h => h
  exact (t2.trans t3).trans (this.none t3.base h)

theorem tl_resetPeer {i : Nat} {c c' : Ctx} {a : Unit} (hD : D) (hb : Base c) (h : resetPeer i c = .ok (a, c')) :
    Tl D none none c c' ∧ Out (some i) c' := by
  refine ⟨?_, fun j hj p hp hpj => by cases hj; rw [resetPeer_state h p hp hpj]; decide⟩
  unfold resetPeer at h
  obtain ⟨p, c0, h0, h'⟩ := bind_ok h
  clear h
  obtain ⟨rfl, hp, hpi⟩ := getP_ok h0
  obtain ⟨_, c2, h2, h⟩ := bind_ok h'
  obtain ⟨_, c3, h3, h⟩ := bind_ok h
  obtain ⟨_, c4, h4, h⟩ := bind_ok h
  obtain ⟨_, c5, h5, h⟩ := bind_ok h
  have e2 : c2 = { c0 with log := c0.log ++ if p.isEstablished then [.disestablished i] else [] } := by
    unfold when at h2
    split at h2
    · rename_i he; simp only [he, if_true]; exact modify_ok h2
    · rename_i he; cases h2; simp [he]
  have tc2 : Tc c0 c2 := by
    rw [e2]
    exact ⟨rfl, Nat.le_refl _, ⟨⟨hb.ids.sorted, hb.ids.lt⟩, hb.eth⟩, Nat.le_refl _, fun _ _ h => h, fun q hq _ hk _ => ⟨q, hq, rfl, hk⟩⟩
  have t3 : Tl False none none c2 c3 := Tp.none (tp_freeSocket i) tc2.base h3
  have t4 : Tl False none none c3 c4 := Tp.none (tp_resetPeerState i) t3.base h4
  have t24 := t3.trans t4
  have e5 : c5 = { c4 with eth := c4.eth.filter fun e => !decide (e.peer = some i) } := by
    rw [← ethCompact_eq]; exact modify_ok h5
  have tc5 : Tc c4 c5 := by
    rw [e5]
    have hb4 := t4.base
    exact ⟨rfl, Nat.le_refl _, ⟨⟨hb4.ids.sorted, hb4.ids.lt⟩, hb4.eth.sorted.sublist List.filter_sublist,
      fun e he => hb4.eth.peer e (List.mem_filter.1 he).1⟩, Nat.le_refl _, fun _ _ h => h, fun q hq _ hk _ => ⟨q, hq, rfl, hk⟩⟩
  have t6 : Tl False none none c5 c' := tl_resetEnd tc5.base (by rw [e5]; intro e he; simpa using (List.mem_filter.1 he).2) h
  refine ⟨((tc2.trans t24.toTc).trans tc5).trans t6.toTc, ?_⟩
  obtain ⟨l, hl, hd, hw, hx⟩ := t24.eth
  obtain ⟨l', hl', hd', hw', hx'⟩ := t6.eth
  refine ⟨(if p.isEstablished then [.disestablished i] else []) ++ l ++ l', ?_, fun _ _ => hD, fun j d => ?_, fun e => ?_⟩
  · rw [hl', e5, show ({ c4 with eth := c4.eth.filter fun e => !decide (e.peer = some i) } : Ctx).log = c4.log from rfl, hl, e2]
    simp only [List.append_assoc]
  · rw [List.mem_append, List.mem_append, hw, hw']
    split <;> simp
  · have hdis : ∀ j, .disestablished j ∈ ((if p.isEstablished then [.disestablished i] else []) ++ l ++ l' : List Eff) ↔
        p.isEstablished = true ∧ j = i := by
      intro j
      rw [List.mem_append, List.mem_append]
      constructor
      · rintro ((h | h) | h)
        · split at h
          · rename_i he; exact ⟨he, by simpa using h⟩
          · cases h
        · exact (hd j h).elim
        · exact (hd' j h).elim
      · rintro ⟨he, rfl⟩
        exact .inl (.inl (by simp [he]))
    have k6 : e ∈ c'.eth ↔ e ∈ c5.eth := by
      rw [hx', known_none]; exact ⟨fun h => h.1, fun h => ⟨h, fun j _ hm => (hd' j hm).elim⟩⟩
    have k4 : e ∈ c4.eth ↔ e ∈ c0.eth := by
      rw [hx, known_none, e2]; exact ⟨fun h => h.1, fun h => ⟨h, fun j _ hm => (hd j hm).elim⟩⟩
    have k5 : e ∈ c5.eth ↔ e ∈ c4.eth ∧ e.peer ≠ some i := by rw [e5]; simp [List.mem_filter]
    rw [k6, k5, k4, known_none]
    refine and_congr_right fun hm => ⟨fun hne j hj hin => ?_, fun hn he => ?_⟩
    · rw [hdis] at hin
      exact hne (by rw [hj, hin.2])
    · refine hn i he ((hdis i).2 ⟨?_, rfl⟩)
      obtain ⟨q, hq, hqi, hqs⟩ := hb.eth.peer e hm i he
      rw [← sorted_inj hb.ids.sorted hq hp (hqi.trans hpi.symm)]
      unfold Peer.isEstablished
      simpa using hqs

theorem tp_initDelay (g : Nat) : Tp D N (initDelay g) := by unfold initDelay; tp [Tp.unit]

theorem tp_initHandshake (i : Nat) : Tp D (some i) (initHandshake i) := by
  unfold initHandshake
  tp [tp_initDelay _, tp_scheduleHandshake _ _, Tp.modOut (fun _ => rfl) (fun _ => by simp) (fun _ _ h => h)]

theorem tp_getR (i k : Nat) : Tp D N (getR i k) := by unfold getR; tp [Tp.unit]

theorem tp_modR (i k : Nat) (f : Remote → Remote) : Tp D N (modR i k f) := by unfold modR; tp [tp_getR _ _]

theorem tp_resolvePeer (i k : Nat) : Tp D N (resolvePeer i k) := by
  unfold resolvePeer
  tp [tp_getR _ _, tp_modR _ _ _]

theorem tp_setupIface (i : Nat) : Tp D N (setupIface i) := by unfold setupIface; tp [Tp.unit]

theorem tp_setupConnect (i : Nat) : Tp D (some i) (setupConnect i) := by
  unfold setupConnect
  tp [tp_getR _ _, tp_modR _ _ _, tp_resolvePeer _ _, tp_setNextHandshakeDefault _, tp_initHandshake _,
    Tp.modOut (fun _ => rfl) (fun _ => by simp) (fun _ _ h => h)]

theorem tp_setupPeer (i : Nat) : Tp D (some i) (setupPeer i) := by
  unfold setupPeer
  tp [tp_setupIface _, tp_setupConnect _, tp_schedulePeerTask _]

theorem tl_peerReset {i : Nat} {c c' : Ctx} {a : Unit} (hD : D) (hb : Base c) (h : peerReset i c = .ok (a, c')) :
    Tl D none none c c' ∧ Out (some i) c' := by
  unfold peerReset at h
  obtain ⟨p, c1, h1, h'⟩ := bind_ok h
  clear h
  obtain ⟨rfl, hp, hpi⟩ := getP_ok h1
  obtain ⟨_, c2, h2, h⟩ := bind_ok h'
  have t2 : Tl D none none c1 c2 ∧ Out (some i) c2 := by
    unfold when at h2
    split at h2
    · exact tl_resetPeer hD hb h2
    · rename_i hs
      cases h2
      refine ⟨Tl.refl hb, fun j hj q hq hqj => ?_⟩
      cases hj
      rw [sorted_inj hb.ids.sorted hq hp (hqj.trans hpi.symm)]
      intro he
      rw [he] at hs
      exact hs (by decide)
  have t3 := tp_setupPeer (D := D) i _ _ _ t2.1.base t2.2 h
  exact ⟨t2.1.trans t3.1, t3.2⟩

theorem tp_peerReset {i : Nat} (hD : D) : Tp D none (peerReset i) := fun _ _ _ hb _ h => ⟨(tl_peerReset hD hb h).1, out_none⟩

theorem tp_peerDelete {i : Nat} (hD : D) : Tp D none (peerDelete i) := by
  intro c a c' hb _ h
  unfold peerDelete at h
  obtain ⟨_, c1, h1, h⟩ := bind_ok h
  obtain ⟨t1, o1⟩ := tl_resetPeer hD hb h1
  refine ⟨t1.trans ?_, out_none⟩
  unfold deletePeer at h
  obtain ⟨p0, c0, h0, h'⟩ := bind_ok h
  clear h
  obtain ⟨rfl, hp0, hpi0⟩ := getP_ok h0
  obtain ⟨c2, c3, h2, h⟩ := bind_ok h'
  cases h2
  cases hx : peerIndex c0.peers i with
  | none => simp only [hx] at h; cases h
  | some k =>
    simp only [hx] at h
    obtain ⟨_, c4, h4, h5⟩ := bind_ok h
    obtain ⟨t4, o4⟩ := tp_resetPeerState (D := D) (N := some i) i _ _ _ t1.base o1 h4
    have i4 : c4.peers.map (·.id) = c0.peers.map (·.id) := resetPeerState_ids h4
    refine t4.trans ?_
    have hb4 := t4.base
    cases h5
    have hsub : ∀ p, p ∈ c4.peers.eraseIdx k → p ∈ c4.peers := fun p hp => List.mem_of_mem_eraseIdx hp
    refine ⟨⟨rfl, Nat.le_refl _, ⟨⟨?_, fun p hp => hb4.ids.lt p (hsub p hp)⟩, hb4.eth.sorted, fun e he j hj => ?_⟩, Nat.le_refl _,
      fun _ _ h => h, fun q hq k hk _ => ⟨q, hsub q hq, rfl, hk⟩⟩, [], by simp, by simp, by simp, fun e => by simp [known_none]⟩
    · exact List.Pairwise.sublist ((List.eraseIdx_sublist _ _).map _) hb4.ids.sorted
    · obtain ⟨p, hp, hpj, hps⟩ := hb4.eth.peer e he j hj
      refine ⟨p, List.mem_eraseIdx_iff_getElem?.2 ?_, hpj, hps⟩
      obtain ⟨n, hn⟩ := List.getElem?_of_mem hp
      refine ⟨n, fun hnk => o4 i rfl p hp ?_ hps, hn⟩
      subst hnk
      obtain ⟨q, hq, he⟩ := Data.bsearch_some (Data.sortedFor_nat (fun q : Peer => q.id) c0.peers (List.pairwise_map.1 t1.base.ids.sorted) i) hx
      have h1 : (c4.peers.map (·.id))[n]? = some p.id := by rw [List.getElem?_map, hn]; rfl
      rw [i4, List.getElem?_map, hq] at h1
      have h1 : q.id = p.id := by simpa using h1
      rw [← h1]
      exact (Nat.compare_eq_eq.1 he).symm

theorem tp_handleResolve (i k : Nat) (l : List Addr) : Tp D none (handleResolve i k l) := by
  unfold handleResolve
  refine Tp.bind (tp_modR _ _ _) fun _ => Tp.bind' Tp.getP fun p c c1 hb _ h b c' h' => ?_
  obtain ⟨rfl, hp, hpi⟩ := getP_ok h
  refine ⟨?_, out_none⟩
  unfold when at h'
  split at h'
  · rename_i hs
    refine (tp_initHandshake (D := D) i _ _ _ hb (fun j hj q hq hqj => ?_) h').1
    cases hj
    rw [sorted_inj hb.ids.sorted hq hp (hqj.trans hpi.symm), of_decide_eq_true hs]
    decide
  · cases h'; exact Tl.refl hb

/-! ### Addresses -/

theorem tp_resetPeerAddress {i : Nat} (hD : D) : Tp D none (resetPeerAddress i) := by
  unfold resetPeerAddress
  tp [tp_peerReset hD, tp_htRemove _]

theorem tp_claimSock (i : Nat) (s : Option Sock) : Tp D N (claimSock i s) := by
  unfold claimSock; tp [tp_sockLive _, tp_freeSocket _]

theorem tp_claimFinish (i : Nat) (sock : Option Sock) (loc : Option Addr) (rem : Addr) : Tp D N (claimFinish i sock loc rem) := by
  unfold claimFinish
  tp [tp_htInsert _, tp_claimSock _ _, tp_htRemove _]

theorem tp_claimAddress {i : Nat} {sock : Option Sock} {loc : Option Addr} {rem : Addr} {force : Bool} (hD : D) :
    Tp D none (claimAddress i sock loc rem force) := by
  unfold claimAddress
  tp [tp_peerReset hD, tp_claimFinish _ _ _ _, tp_resetPeerAddress hD]

/-! ### Adding peers -/

theorem tp_addNew {q : Peer} (hr : q.refs = []) : Tp D none (addNew q) := by
  unfold addNew
  intro c a c' hb _ h
  obtain ⟨_, c1, h1, h'⟩ := bind_ok h
  cases h1
  obtain ⟨_, c2, h2, h3⟩ := bind_ok h'
  cases h2
  cases h3
  refine ⟨⟨⟨rfl, Nat.le_succ _, ⟨⟨?_, ?_⟩, hb.eth.sorted, fun e he j hj => ?_⟩, Nat.le_refl _, fun _ _ h => h, fun p hp k hk _ => ?_⟩,
    [], by simp, by simp, by simp, fun e => by simp [known_none]⟩, out_none⟩
  · show (List.map _ (c.peers ++ _)).Pairwise _
    rw [List.map_append, List.pairwise_append]
    refine ⟨hb.ids.sorted, List.pairwise_singleton _ _, fun a ha b hb' => ?_⟩
    obtain ⟨p, hp, rfl⟩ := List.mem_map.1 ha
    obtain ⟨r, hr, rfl⟩ := List.mem_map.1 hb'
    rw [List.mem_singleton.1 hr]
    exact hb.ids.lt p hp
  · intro p hp
    rcases List.mem_append.1 hp with hp | hp
    · exact Nat.lt_succ_of_lt (hb.ids.lt p hp)
    · rw [List.mem_singleton.1 hp]; exact Nat.lt_succ_self _
  · obtain ⟨p, hp, h⟩ := hb.eth.peer e he j hj
    exact ⟨p, List.mem_append_left _ hp, h⟩
  · rcases List.mem_append.1 hp with hp | hp
    · exact ⟨p, hp, rfl, hk⟩
    · rw [List.mem_singleton.1 hp] at hk
      have hk : k ∈ q.refs := hk
      rw [hr] at hk
      cases hk

theorem tp_peerAdd {q : Peer} (hD : D) (hr : q.refs = []) : Tp D none (peerAdd q) := by
  unfold peerAdd
  tp [tp_addNew hr, tp_peerDelete hD]

/-! ### Sending -/

theorem tp_sendRetry (b : Bool) (o : Option Nat) : Tp D N (send.sendRetry b o) := by
  unfold send.sendRetry; tp [tp_scheduleHandshakeDefault _]

theorem tp_send (s : Option Sock) (l r : Addr) (o : Option Nat) (d : Bytes) : Tp D N (send s l r o d) := by
  unfold send; tp [tp_sockLive _, tp_sendRetry _ _]

theorem tp_bugIfNone (o : Option α) : Tp D N (bugIfNone o) := by unfold bugIfNone; tp [Tp.unit]

theorem tp_memIfNone (o : Option α) : Tp D N (memIfNone o) := by unfold memIfNone; tp [Tp.unit]

theorem tp_deref (o : Option α) : Tp D N (deref o) := tp_memIfNone o

theorem tp_sendHandshakePkt (s : Sock) (l r : Addr) (o : Option Nat) (d : Bytes) (f : Option UInt8) : Tp D N (sendHandshakePkt s l r o d f) := by
  unfold sendHandshakePkt; tp [tp_send _ _ _ _ _]

theorem tp_sendError (s : Sock) (l r : Addr) (o : Option Nat) (t f c : UInt8) (d : Nat) : Tp D N (sendError s l r o t f c d) := by
  unfold sendError; tp [tp_bugIfNone _, tp_sendHandshakePkt _ _ _ _ _ _]

theorem tp_protoMaintenance : Tp D N protoMaintenance := by unfold protoMaintenance; tp [Tp.unit]

theorem tp_peerKeyOf (o : Option Nat) : Tp D N (peerKeyOf o) := by unfold peerKeyOf; tp [Tp.unit]

theorem tp_handshakeInit (s : Sock) (l r : Addr) (o : Option Nat) : Tp D N (handshakeInit s l r o) := by
  unfold handshakeInit
  tp [tp_protoMaintenance, tp_peerKeyOf _, tp_bugIfNone _, tp_sendHandshakePkt _ _ _ _ _ _]

theorem tp_getObj (h : Nat) : Tp D N (getObj h) := by unfold getObj; tp [tp_memIfNone _]

theorem getObj_ok {h : Nat} {c c' : Ctx} {o : Env.Sess} (hg : getObj h c = .ok (o, c')) : c' = c ∧ c.objs h = some o := by
  unfold getObj at hg
  obtain ⟨_, c1, h1, h2⟩ := bind_ok hg
  cases h1
  unfold memIfNone at h2
  cases hx : c.objs h with
  | none => simp only [hx] at h2; cases h2
  | some x => simp only [hx] at h2; cases h2; exact ⟨rfl, rfl⟩

theorem setObj_ok {h : Nat} {o : Env.Sess} {c c' : Ctx} {a : Unit} (hb : Base c) (ho : Out N c) (hl : c.objs h ≠ none)
    (hs : setObj h o c = .ok (a, c')) : Tl D none none c c' ∧ Out N c' := by
  cases hs
  refine ⟨Tl.objs hb fun k hk => ?_, ho⟩
  split
  · rename_i he
    rw [he] at hk
    exact absurd hk hl
  · exact hk

theorem tp_sessionValid (s : Session) : Tp D N (sessionValid s) := by unfold sessionValid; tp [tp_getObj _]

theorem tp_wantRefresh (s : Session) : Tp D N (wantRefresh s) := by unfold wantRefresh; tp [tp_deref _, tp_getObj _]

theorem tp_checkSessionRefresh (i : Nat) : Tp D N (checkSessionRefresh i) := by
  unfold checkSessionRefresh; tp [tp_wantRefresh _, tp_scheduleHandshake _ _]

theorem tp_checkSession {i : Nat} (hD : D) : Tp D none (checkSession i) := by unfold checkSession; tp [tp_sessionValid _, tp_peerReset hD]

theorem tp_isInitiator (s : Session) : Tp D N (isInitiator s) := by unfold isInitiator; tp [tp_deref _, tp_getObj _]

theorem tp_useOldSession (p : Peer) : Tp D N (useOldSession p) := by unfold useOldSession; tp [tp_isInitiator _, tp_sessionValid _]

theorem tp_clearKeepalive (i : Nat) : Tp D N (clearKeepalive i) := by unfold clearKeepalive; tp [Tp.unit]

theorem tp_sessionSend (i : Nat) (s : Session) (d : Bytes) : Tp D N (sessionSend i s d) := by
  unfold sessionSend
  refine Tp.bind (tp_deref _) fun m => Tp.bind (tp_deref _) fun h => Tp.bind' (tp_getObj _) fun o c c1 hb ho hg b c' h' => ?_
  obtain ⟨rfl, hx⟩ := getObj_ok hg
  cases hE : Env.encrypt m o d with
  | none => simp only [hE] at h'; cases h'; exact ⟨Tl.refl hb, ho⟩
  | some r =>
    obtain ⟨pkt, o'⟩ := r
    simp only [hE] at h'
    obtain ⟨_, c2, h2, h3⟩ := bind_ok h'
    obtain ⟨t2, o2⟩ := setObj_ok (D := D) hb ho (by rw [hx]; simp) h2
    have : Tp D N (do
      emit (.encrypt i h d)
      let p ← getP i
      send p.sock p.localAddr p.addr (some i) pkt
      when (!Env.forceKeepalive m) (clearKeepalive i) : M Unit) := by tp [tp_send _ _ _ _ _, tp_clearKeepalive _]
    obtain ⟨t3, o3⟩ := this _ _ _ t2.base o2 h3
    exact ⟨t2.trans t3, o3⟩

theorem tp_protocolSend {i : Nat} {d : Bytes} (hD : D) : Tp D none (protocolSend i d) := by
  unfold protocolSend; tp [tp_checkSession hD, tp_checkSessionRefresh _, tp_useOldSession _, tp_sessionSend _ _ _]

theorem tp_sendEmpty (i : Nat) : Tp D N (sendEmpty i) := by unfold sendEmpty; tp [tp_sessionSend _ _ _]

theorem tp_sendOne {d : Bytes} {s : Option Nat} {p : Peer} (hD : D) : Tp D none (sendOne d s p) := by unfold sendOne; tp [tp_protocolSend hD]

theorem tp_sendAll {d : Bytes} {s : Option Nat} (hD : D) (n k : Nat) : Tp D none (sendAll d s n k) := by
  induction n generalizing k with
  | zero => exact Tp.fail
  | succ n ih => unfold sendAll; tp [tp_sendOne hD, ih _]

/-- What follows learning. -/
def sendTapRest (d : Bytes) (s : Option Nat) : M Bool := do
  if !isUnicast (destMac d) then pure false
  else
    match ethFind (← get).eth (destMac d) with
    | none => pure false
    | some none => pure true
    | some (some j) =>
      if some j = s then pure true
      else
        protocolSend j d
        pure true

theorem tp_sendTapRest {d : Bytes} {s : Option Nat} (hD : D) : Tp D none (sendTapRest d s) := by
  unfold sendTapRest; tp [tp_protocolSend hD]

/-- Forwarding a frame learns nothing. -/
theorem tp_sendData {d : Bytes} {i : Nat} {t : Option Nat} (hD : D) : Tp D none (sendData d (some i) t) := by
  unfold sendData sendTapSingle learnLocal
  tp [tp_protocolSend hD, tp_sendAll hD _ _]

theorem tp_ifaceOwn {d : Bytes} {i : Nat} (hD : D) : Tp D none (sendData d none (some i)) := by
  unfold sendData; exact tp_protocolSend hD

/-- Learning. -/
theorem tl_ethPut {o : Option Nat} {a : Bytes} {c c' : Ctx} {u : Unit} (hb : Base c)
    (ho : ∀ i, o = some i → ∃ p ∈ c.peers, p.id = i ∧ p.state = .established)
    (h : ethPut o a c = .ok (u, c')) : Tl False none (some ⟨a, o, c.now + ETH_ADDR_STALE_TIME⟩) c c' := by
  have key : ∀ es', ethLearn c.eth ⟨a, o, c.now + ETH_ADDR_STALE_TIME⟩ es' →
      Tl False none (some ⟨a, o, c.now + ETH_ADDR_STALE_TIME⟩) c { c with eth := es' } := by
    intro es' ⟨hs, hl⟩
    have hm : ∀ e, e ∈ es' ↔ Known c.eth (some ⟨a, o, c.now + ETH_ADDR_STALE_TIME⟩) e := by
      intro e
      have h1 : e ∈ es' ↔ ethEntry es' e.addr = some e := by rw [ethEntry_some hs]; simp
      rw [h1, hl]
      unfold Known
      by_cases he : e.addr = a
      · rw [if_pos he]
        refine ⟨.inl, ?_⟩
        rintro (h | ⟨_, h⟩)
        · exact h
        · exact absurd he (h _ rfl)
      · rw [if_neg he, ethEntry_some hb.eth.sorted]
        refine ⟨fun h => .inr ⟨h.1, fun x hx => ?_⟩, ?_⟩
        · cases hx; exact he
        · rintro (h | h)
          · injection h with h; rw [← h] at he; exact absurd rfl he
          · exact ⟨h.1, rfl⟩
    refine ⟨⟨rfl, Nat.le_refl _, ⟨⟨hb.ids.sorted, hb.ids.lt⟩, hs, fun e he j hj => ?_⟩, Nat.le_refl _, fun _ _ h => h,
      fun q hq _ hk _ => ⟨q, hq, rfl, hk⟩⟩, [], by simp, by simp, by simp, fun e => by rw [← hm]; simp⟩
    rcases (hm e).1 he with h | h
    · injection h with h
      rw [← h] at hj
      exact ho j hj
    · exact hb.eth.peer e h.1 j hj
  have hp := ethPut_learn hb.eth.sorted o a (c.now + ETH_ADDR_STALE_TIME)
  unfold ethPut at h
  obtain ⟨c1, c2, h1, h2⟩ := bind_ok h
  cases h1
  cases hs : ethSearch c.eth a (c.eth.length + 1) 0 c.eth.length with
  | error e => simp only [hs] at h2; cases h2
  | ok r =>
    simp only [hs] at h2 hp
    cases r with
    | inl k => cases h2; exact key _ hp
    | inr k => cases h2; exact key _ hp

theorem tl_ethAdd {o : Option Nat} {a : Bytes} {c c' : Ctx} {u : Unit} (hb : Base c) (h : ethAdd o a c = .ok (u, c')) :
    Tl False none (some ⟨a, o, c.now + ETH_ADDR_STALE_TIME⟩) c c' := by
  unfold ethAdd at h
  cases o with
  | none => exact tl_ethPut hb (fun _ h => by cases h) h
  | some i =>
    simp only [] at h
    obtain ⟨p, c1, h1, h2⟩ := bind_ok h
    obtain ⟨rfl, hp, hpi⟩ := getP_ok h1
    split at h2
    · cases h2
    · rename_i he
      exact tl_ethPut hb (fun j hj => by cases hj; exact ⟨p, hp, hpi, by simpa [Peer.isEstablished] using he⟩) h2

/-- What is learned from a frame. -/
def learnt (now : Time) (o : Option Nat) (d : Bytes) : Option Eth :=
  if Env.mode = .tap ∧ 14 ≤ d.length ∧ isUnicast (sourceMac d) = true then some ⟨sourceMac d, o, now + ETH_ADDR_STALE_TIME⟩ else none

/-- A frame from the interface. -/
theorem tl_ifaceShared {d : Bytes} {c c' : Ctx} {u : Unit} (hb : Base c) (h : sendData d none none c = .ok (u, c')) :
    Tl True none (learnt c.now none d) c c' := by
  unfold sendData at h
  obtain ⟨done, c1, h1, h2⟩ := bind_ok h
  have rest : ∀ {c1 : Ctx}, Base c1 → (if done then pure () else do
      let c ← get
      sendAll d none (c.peers.length + 1) 0 : M Unit) c1 = .ok (u, c') → Tl True none none c1 c' := fun hb' h' =>
    Tp.none (by tp [tp_sendAll trivial _ _]) hb' h'
  unfold sendTapSingle at h1
  unfold learnt
  by_cases hm : Env.mode = .tap
  · rw [if_neg (by simp [hm])] at h1
    by_cases hl : d.length < 14
    · rw [if_pos hl] at h1
      rw [if_neg (by omega)]
      cases h1
      exact rest hb h2
    · rw [if_neg hl] at h1
      obtain ⟨_, c0, h0, h1⟩ := bind_ok h1
      have hr : sendTapRest d none c0 = .ok (done, c1) := h1
      unfold learnLocal at h0
      simp only [] at h0
      by_cases hu : isUnicast (sourceMac d) = true
      · rw [if_pos hu] at h0
        rw [if_pos ⟨hm, by omega, hu⟩]
        have t0 := tl_ethAdd hb h0
        have t1 := (tp_sendTapRest (D := True) trivial).none t0.base hr
        exact ((t0.mono fun h => h.elim).then t1).then (rest t1.base h2)
      · rw [if_neg hu] at h0
        rw [if_neg (fun h => hu h.2.2)]
        cases h0
        have t1 := (tp_sendTapRest (D := True) trivial).none hb hr
        exact t1.trans (rest t1.base h2)
  · rw [if_pos (by simp [hm])] at h1
    rw [if_neg (fun h => hm h.1)]
    cases h1
    exact rest hb h2

/-! ### Received payload -/

theorem Tl.write {X : Option Eth} {c c1 c2 : Ctx} {i : Nat} {d : Bytes} {u : Unit} (h : Tl D none X c c1) (h2 : emit (.write i d) c1 = .ok (u, c2)) :
    Tl D (some (i, d)) X c c2 := by
  have e2 : c2 = { c1 with log := c1.log ++ [.write i d] } := modify_ok h2
  have hb := h.base
  obtain ⟨l, hl, hd, hw, he⟩ := h.eth
  rw [e2]
  refine ⟨⟨h.now, h.nextId, ⟨⟨hb.ids.sorted, hb.ids.lt⟩, hb.eth⟩, h.obj, h.dead, h.own⟩, l ++ [.write i d], ?_, fun j hj => ?_, fun j d' => ?_, fun e => ?_⟩
  · show c1.log ++ _ = _
    rw [hl, List.append_assoc]
  · exact hd j (by simpa using hj)
  · rw [List.mem_append, hw]
    simp [eq_comm]
  · rw [show ({ c1 with log := c1.log ++ [.write i d] } : Ctx).eth = c1.eth from rfl, he]
    simp

/-- A received frame. -/
def Frame (V : Option (Nat × Bytes)) (c c' : Ctx) : Prop :=
  (∀ j d, V = some (j, d) → Env.mode = .tap → 14 ≤ d.length) ∧ Tl True V (V.bind fun x => learnt c.now (some x.1) x.2) c c'

theorem frame_none {c c' : Ctx} (h : Tl True none none c c') : Frame none c c' := ⟨fun _ _ h => (by cases h), h⟩

theorem Frame.before {V : Option (Nat × Bytes)} {c c1 c' : Ctx} (h : Tl False none none c c1) (h' : Frame V c1 c') : Frame V c c' := by
  refine ⟨h'.1, ?_⟩
  have := h.before h'.2
  rwa [h.now] at this

theorem tl_handleReceive {i : Nat} {d : Bytes} {c c' : Ctx} {u : Unit} (hb : Base c) (h : handleReceive i d c = .ok (u, c')) :
    ∃ V, Frame V c c' := by
  unfold handleReceive at h
  obtain ⟨p, c1, h1, h2⟩ := bind_ok h
  clear h
  obtain ⟨rfl, hp, hpi⟩ := getP_ok h1
  split at h2
  · cases h2; exact ⟨none, frame_none (Tl.refl hb)⟩
  · obtain ⟨ok, c2, h3, h4⟩ := bind_ok h2
    have rest : ∀ {X : Option Eth}, Tl True none X c1 c2 → ok = true → Tl True (some (i, d)) X c1 c' := by
      intro X t hok
      simp only [hok, Bool.not_true, Bool.false_eq_true, if_false] at h4
      obtain ⟨_, c3, h5, h6⟩ := bind_ok h4
      have t3 := t.write h5
      exact t3.then (Tp.none (by tp [tp_sendData trivial]) t3.base h6)
    unfold learnRemote at h3
    by_cases hm : Env.mode = .tap
    · rw [if_neg (by simp [hm])] at h3
      by_cases hl : d.length < 14
      · rw [if_pos hl] at h3
        cases h3
        cases h4
        exact ⟨none, frame_none (Tl.refl hb)⟩
      · rw [if_neg hl] at h3
        obtain ⟨_, c3, h5, h6⟩ := bind_ok h3
        have ho : ok = true ∧ c2 = c3 := by cases h6; exact ⟨rfl, rfl⟩
        obtain ⟨rfl, rfl⟩ := ho
        refine ⟨some (i, d), fun j d' hj _ => by cases hj; omega, ?_⟩
        simp only [Option.bind_some]
        unfold learnt
        unfold when at h5
        by_cases hu : isUnicast (sourceMac d) = true
        · rw [if_pos hu] at h5
          rw [if_pos ⟨hm, by omega, hu⟩]
          exact rest ((tl_ethAdd hb h5).mono fun h => h.elim) rfl
        · rw [if_neg hu] at h5
          rw [if_neg (fun h => hu h.2.2)]
          cases h5
          exact rest (Tl.refl hb) rfl
    · rw [if_pos (by simp [hm])] at h3
      have ho : ok = true ∧ c1 = c2 := by cases h3; exact ⟨rfl, rfl⟩
      obtain ⟨rfl, rfl⟩ := ho
      refine ⟨some (i, d), fun _ _ _ h => absurd h hm, ?_⟩
      simp only [Option.bind_some]
      unfold learnt
      rw [if_neg (fun h => hm h.1)]
      exact rest (Tl.refl hb) rfl

theorem tp_decryptWith (i : Nat) (s : Session) (d : Bytes) : Tp D N (decryptWith i s d) := by
  unfold decryptWith
  refine Tp.bind (tp_deref _) fun m => Tp.bind (tp_deref _) fun h => Tp.bind' (tp_getObj _) fun o c c1 hb ho hg b c' h' => ?_
  obtain ⟨rfl, hx⟩ := getObj_ok hg
  obtain ⟨c0, c2, h2, h3⟩ := bind_ok h'
  cases h2
  obtain ⟨_, c3, h4, h5⟩ := bind_ok h3
  obtain ⟨t3, o3⟩ := (Tp.emit (by intros; simp) (by intros; simp) : Tp D N (emit (.tryDecrypt i h d))) _ _ _ hb ho h4
  have hx3 : c3.objs h = some o := by have e := modify_ok h4; rw [e]; exact hx
  cases hE : Env.decrypt m o d c1.now with
  | none => simp only [hE] at h5; cases h5; exact ⟨t3, o3⟩
  | some r =>
    obtain ⟨data, r2, o'⟩ := r
    simp only [hE] at h5
    obtain ⟨_, c4, h6, h7⟩ := bind_ok h5
    obtain ⟨t4, o4⟩ := setObj_ok (D := D) t3.base o3 (by rw [hx3]; simp) h6
    have : Tp D N (do
      emit (.accept i h d)
      pure (some data) : M (Option Bytes)) := by tp [Tp.unit]
    obtain ⟨t5, o5⟩ := this _ _ _ t4.base o4 h7
    exact ⟨(t3.trans t4).trans t5, o5⟩

theorem tp_tryOld (i : Nat) (d : Bytes) : Tp D N (tryOld i d) := by unfold tryOld; tp [tp_sessionValid _, tp_decryptWith _ _ _]

theorem tp_clearOld (i : Nat) : Tp D N (modP i fun p => { p with old := {} }) :=
  Tp.modP (fun _ => rfl) (fun _ => rfl) fun p k h => by
    simp only [Peer.refs, Option.toList_none, List.nil_append] at h ⊢; exact List.mem_append_right _ h

theorem tp_dropOld (i : Nat) : Tp D N (dropOld i) := by unfold dropOld; tp [tp_freeState _, tp_clearOld _]

theorem tp_unscheduleHandshake (i : Nat) : Tp D N (unscheduleHandshake i) := by unfold unscheduleHandshake; tp [Tp.unit]

theorem tp_cleanHandshakes (i : Nat) : Tp D N (cleanHandshakes i) := by
  unfold cleanHandshakes; tp [tp_unscheduleHandshake _, tp_isInitiator _, tp_sendEmpty _]

theorem tp_seen (i : Nat) : Tp D N (seen i) := by unfold seen; tp [Tp.unit]

theorem tp_setVerifying (i : Nat) : Tp D N (setVerifying i) := by unfold setVerifying; tp [Tp.unit]

theorem tp_setVerified (i : Nat) (ok : Bool) : Tp D N (setVerified i ok) := by unfold setVerified; tp [Tp.unit]

theorem tl_deliver {i : Nat} {d : Bytes} {c c' : Ctx} {u : Unit} (hb : Base c) (h : deliver i d c = .ok (u, c')) : ∃ V, Frame V c c' := by
  unfold deliver at h
  obtain ⟨_, c1, h1, h2⟩ := bind_ok h
  have t1 : Tl False none none c c1 := (tp_seen i).none hb h1
  split at h2
  · obtain ⟨V, hV⟩ := tl_handleReceive t1.base h2
    exact ⟨V, hV.before t1⟩
  · cases h2
    exact ⟨none, frame_none (t1.mono fun h => h.elim)⟩

theorem checkSession_true {i : Nat} {c c' : Ctx} (h : checkSession i c = .ok (true, c')) : c' = c := by
  unfold checkSession at h
  obtain ⟨p, c1, h1, h2⟩ := bind_ok h
  clear h
  obtain ⟨rfl, _⟩ := getP_ok h1
  obtain ⟨v, c2, h3, h4⟩ := bind_ok h2
  have e2 : c2 = c1 := by
    unfold sessionValid at h3
    cases hm : p.sess.method with
    | none => simp only [hm] at h3; cases h3; rfl
    | some m =>
      cases hs : p.sess.mstate with
      | none => simp only [hm, hs] at h3; cases h3; rfl
      | some s =>
        simp only [hm, hs] at h3
        obtain ⟨_, c3, h5, h6⟩ := bind_ok h3
        obtain ⟨rfl, _⟩ := getObj_ok h5
        obtain ⟨_, c4, h7, h8⟩ := bind_ok h6
        cases h7; cases h8; rfl
  split at h4
  · cases h4; exact e2
  · obtain ⟨_, _, _, h5⟩ := bind_ok h4
    cases h5

theorem tl_handleRecv {i : Nat} {d : Bytes} {c c' : Ctx} {u : Unit} (hb : Base c) (h : handleRecv i d c = .ok (u, c')) : ∃ V, Frame V c c' := by
  unfold handleRecv at h
  obtain ⟨ok, c1, h1, h2⟩ := bind_ok h
  cases ok with
  | false =>
    have t1 : Tl True none none c c1 := (tp_checkSession trivial).none hb h1
    cases h2
    exact ⟨none, frame_none t1⟩
  | true =>
    obtain rfl := checkSession_true h1
    simp only [Bool.not_true, Bool.false_eq_true, if_false] at h2
    obtain ⟨o, c2, h3, h4⟩ := bind_ok h2
    have t2 : Tl False none none c1 c2 := (tp_tryOld _ _).none hb h3
    cases o with
    | some data =>
      obtain ⟨V, hV⟩ := tl_deliver t2.base h4
      exact ⟨V, hV.before t2⟩
    | none =>
      simp only [] at h4
      obtain ⟨p, c3, h5, h6⟩ := bind_ok h4
      obtain ⟨rfl, _⟩ := getP_ok h5
      obtain ⟨o, c4, h7, h8⟩ := bind_ok h6
      have t4 : Tl False none none c3 c4 := (tp_decryptWith _ _ _).none t2.base h7
      have t14 := t2.trans t4
      cases o with
      | none => cases h8; exact ⟨none, frame_none (t14.mono fun h => h.elim)⟩
      | some data =>
        simp only [] at h8
        obtain ⟨_, c5, h9, h10⟩ := bind_ok h8
        obtain ⟨_, c6, h11, h12⟩ := bind_ok h10
        obtain ⟨_, c7, h13, h14⟩ := bind_ok h12
        have t5 : Tl False none none c4 c5 := (tp_dropOld _).none t4.base h9
        have t6 : Tl False none none c5 c6 := (tp_cleanHandshakes _).none t5.base h11
        have t7 : Tl False none none c6 c7 := (tp_checkSessionRefresh _).none t6.base h13
        obtain ⟨V, hV⟩ := tl_deliver t7.base h14
        exact ⟨V, hV.before (((t14.trans t5).trans t6).trans t7)⟩

/-! ### The task of a peer -/

theorem tp_chooseAddress {i : Nat} {r : Option Nat} (hD : D) : Tp D none (chooseAddress i r) := by
  unfold chooseAddress
  tp [tp_deref _, tp_getR _ _, tp_memIfNone _, tp_claimAddress hD, tp_resetSocket _]

theorem tp_sendHandshake {i : Nat} {r : Option Nat} (hD : D) : Tp D none (sendHandshake i r) := by
  unfold sendHandshake; tp [tp_chooseAddress hD, tp_handshakeInit _ _ _ _]

theorem tp_nextRemote (i : Nat) : Tp D N (nextRemote i) := by
  unfold nextRemote
  tp [tp_deref _, tp_modR _ _ _, tp_getR _ _, tp_resolvePeer _ _]

theorem tp_advanceRemote (i : Nat) (r : Option Nat) : Tp D none (advanceRemote i r) := by
  unfold advanceRemote
  refine Tp.bind' Tp.getP fun p c c1 hb _ h b c' h' => ⟨?_, out_none⟩
  obtain ⟨rfl, hp, hpi⟩ := getP_ok h
  split at h'
  · cases h'; exact Tl.refl hb
  · rename_i he
    have ho : Out (some i) c1 := by
      intro j hj q hq hqj
      cases hj
      rw [sorted_inj hb.ids.sorted hq hp (hqj.trans hpi.symm)]
      simpa [Peer.isEstablished] using he
    refine ((?_ : Tp D (some i) _) _ _ _ hb ho h').1
    tp [tp_deref _, tp_modR _ _ _, tp_getR _ _, tp_nextRemote _, Tp.modOut (fun _ => rfl) (fun _ => by simp) (fun _ _ h => h)]

theorem tp_handleTaskHandshake {i : Nat} (hD : D) : Tp D none (handleTaskHandshake i) := by
  unfold handleTaskHandshake
  tp [tp_setNextHandshakeDefault _, tp_sendHandshake hD, tp_advanceRemote _ _, tp_nextRemote _]

theorem tp_handleTaskKeepalive {i : Nat} (hD : D) : Tp D none (handleTaskKeepalive i) := by
  unfold handleTaskKeepalive; tp [tp_protocolSend hD, tp_clearKeepalive _]

theorem tp_handleTaskDueHandshake {i : Nat} (hD : D) : Tp D none (handleTaskDueHandshake i) := by
  unfold handleTaskDueHandshake; tp [tp_handleTaskHandshake hD]

theorem tp_peerTask {i : Nat} (hD : D) : Tp D none (peerTask i) := by
  unfold peerTask
  tp [tp_peerDelete hD, tp_peerReset hD, tp_handleTaskKeepalive hD, tp_handleTaskDueHandshake hD, tp_schedulePeerTask _]

theorem tp_resetAll (hD : D) (n k : Nat) : Tp D none (resetAll n k) := by
  induction n generalizing k with
  | zero => exact Tp.fail
  | succ n ih => unfold resetAll; tp [tp_peerDelete hD, tp_peerReset hD, ih _]

/-! ### Establishing sessions -/

theorem tp_supersede (i m : Nat) : Tp D N (supersede i m) := by
  have h1 : ∀ p, Tp D N (supersedeKeep p) := fun p => by unfold supersedeKeep; tp [tp_sessionValid _]
  have h2 : Tp D N (supersedeFirst i) := by
    unfold supersedeFirst
    tp [h1 _, tp_freeSession _, Tp.modP (fun _ => rfl) (fun _ => rfl) fun p k h => by
      simp only [Peer.refs, List.mem_append, or_self] at h ⊢; exact .inr h]
  have h3 : Tp D N (supersedeSecond i m) := by
    unfold supersedeSecond
    refine Tp.bind Tp.getP fun p => ?_
    split
    · exact Tp.pure
    · refine Tp.ite (by tp [tp_freeState _, tp_clearOld _]) ?_
      refine Tp.bind (tp_deref _) fun h => Tp.bind' (tp_getObj _) fun o c c1 hb ho hg b c' h' => ?_
      obtain ⟨rfl, hx⟩ := getObj_ok hg
      obtain ⟨c0, c2, h2, h3⟩ := bind_ok h'
      cases h2
      exact setObj_ok hb ho (by rw [hx]; simp) h3
  unfold supersede
  tp [h2, h3]

theorem tp_newSession (i m : Nat) (b b' : Bool) (g : Agreement) : Tp D N (newSession i m b b' g) := by
  unfold newSession
  refine Tp.bind (tp_supersede _ _) fun _ => Tp.bind Tp.draw fun n => Tp.bind' Tp.get fun c0 _ c hb ho h r c' h' => ?_
  cases h
  cases hE : Env.sessInit m (Env.deriveKey m g.A g.B g.X g.Y g.sigma g.salt) b b' n c0.now with
  | none =>
    simp only [hE] at h'
    refine (?_ : Tp D N _) _ _ _ hb ho h'
    tp [Tp.modP (fun _ => rfl) (fun _ => rfl) fun p k h => by
      simp only [Peer.refs, Option.toList_none, List.append_nil] at h ⊢; exact List.mem_append_left _ h]
  | some o =>
    simp only [hE] at h'
    obtain ⟨_, c1, h1, h2⟩ := bind_ok h'
    cases h1
    obtain ⟨_, c2, h3, h4⟩ := bind_ok h2
    obtain ⟨_, e2⟩ := modP_ok h3
    have t2 : Tl D none none c0 c2 ∧ Out N c2 := by
      rw [e2]
      refine ⟨⟨⟨rfl, Nat.le_refl _, ⟨?_, hb.eth.sorted, fun e he j hj => ?_⟩, Nat.le_succ _, fun k hk h => ?_, fun q hq k hk hlt => ?_⟩,
        [], by simp, by simp, by simp, fun e => by simp [known_none]⟩, fun j hj p hp hpj => ?_⟩
      · refine ⟨sorted_updPeers hb.ids.sorted fun _ _ _ => rfl, fun p' hp' => ?_⟩
        rcases mem_upd_cases hp' with ⟨hp, _⟩ | ⟨p, hp, hi, rfl⟩
        · exact hb.ids.lt p' hp
        · exact hb.ids.lt p hp
      · obtain ⟨p, hp, hpi, hps⟩ := hb.eth.peer e he j hj
        by_cases hpi' : p.id = i
        · exact ⟨_, mem_updPeers.2 ⟨p, hp, if_pos hpi'⟩, hpi, hps⟩
        · exact ⟨p, mem_updPeers.2 ⟨p, hp, if_neg hpi'⟩, hpi, hps⟩
      · show (if k = c0.nextObj then some o else c0.objs k) = none
        rw [if_neg (by omega)]
        exact h
      · rcases mem_upd_cases hq with ⟨hp, _⟩ | ⟨p, hp, hpi, rfl⟩
        · exact ⟨q, hp, rfl, hk⟩
        · refine ⟨p, hp, rfl, ?_⟩
          simp only [Peer.refs, List.mem_append, Option.toList_some, List.mem_singleton] at hk ⊢
          rcases hk with hk | hk
          · exact .inl hk
          · omega
      · rcases mem_upd_cases hp with ⟨hp, _⟩ | ⟨q, hq, hqi, rfl⟩
        · exact ho j hj p hp hpj
        · exact ho j hj q hq hpj
    obtain ⟨p, c3, h5, h6⟩ := bind_ok h4
    obtain ⟨rfl, _⟩ := getP_ok h5
    have t3 := (by tp [Tp.unit] : Tp D N (do
      emit (.session i p.key g.hk.serial g.hk.key m b)
      pure true : M Bool)) _ _ _ t2.1.base t2.2 h6
    exact ⟨t2.1.trans t3.1, t3.2⟩

theorem tp_openIface (i : Nat) : Tp D N (openIface i) := by unfold openIface; tp [Tp.unit]

theorem tp_setEstablished (i : Nat) : Tp D none (setEstablished i) := by
  have he : ∀ t : Time, Tp D none (modP i fun p => { p with state := .established, established := t }) := by
    intro t c a c' hb _ h
    obtain ⟨_, rfl⟩ := modP_ok h
    exact ⟨Tl.upd hb (fun _ _ _ => rfl) (fun _ _ _ _ => rfl) (fun _ _ _ _ h _ => h), out_none⟩
  unfold setEstablished
  tp [tp_openIface _, he _, tp_seen _, tp_clearKeepalive _, tp_schedulePeerTask _]

theorem tp_establishEnd (i : Nat) (b : Bool) : Tp D N (establishEnd i b) := by
  unfold establishEnd; tp [tp_scheduleHandshakeDefault _, tp_sendEmpty _]

theorem tp_establish {i m : Nat} {s : Sock} {l r : Addr} {b b' : Bool} {g : Agreement} (hD : D) :
    Tp D none (establish i m s l r b b' g) := by
  unfold establish
  tp [tp_claimAddress hD, tp_peerReset hD, tp_newSession _ _ _ _ _, tp_setEstablished _, tp_establishEnd _ _]

/-! ### Handshakes -/

theorem tp_updateShared (i : Nat) (hk : Protocol.HKey Nat) (k : Key) : Tp D N (updateShared i hk k) := by
  unfold updateShared; tp [Tp.unit]

theorem tp_clearShared (i : Nat) : Tp D N (clearShared i) := by unfold clearShared; tp [Tp.unit]

theorem tp_respondHandshake (s : Sock) (l r : Addr) (i : Nat) (k : Key) (f : UInt8) : Tp D N (respondHandshake s l r i k f) := by
  unfold respondHandshake; tp [tp_updateShared _ _ _, tp_bugIfNone _, tp_sendHandshakePkt _ _ _ _ _ _]

theorem tp_record (r : Rcv) (t : Nat) : Tp D N (record r t) := by unfold record; tp [tp_memIfNone _]

theorem tp_field (r : Rcv) (t n : Nat) : Tp D N (field r t n) := by unfold field; tp [tp_memIfNone _]

theorem tp_sendFinish (s : Sock) (l r : Addr) (i m : Nat) (hk : Protocol.HKey Nat) (k : Key) (sh : Bytes) (f : UInt8) :
    Tp D N (sendFinish s l r i m hk k sh f) := by unfold sendFinish; tp [tp_bugIfNone _, tp_sendHandshakePkt _ _ _ _ _ _]

theorem tp_finishHandshake {s : Sock} {l r : Addr} {i : Nat} {hk : Protocol.HKey Nat} {k mac : Key} {x : Rcv} (hD : D) :
    Tp D none (finishHandshake s l r i hk k mac x) := by
  unfold finishHandshake
  tp [tp_record _ _, tp_sendError _ _ _ _ _ _ _ _, tp_establish hD, tp_sendFinish _ _ _ _ _ _ _ _ _]

theorem tp_handleFinish {s : Sock} {l r : Addr} {i : Nat} {hk : Protocol.HKey Nat} {k mac : Key} {x : Rcv} (hD : D) :
    Tp D none (handleFinish s l r i hk k mac x) := by
  unfold handleFinish
  tp [tp_record _ _, tp_sendError _ _ _ _ _ _ _ _, tp_establish hD, tp_updateShared _ _ _, tp_clearShared _]

theorem tp_matchSenderKey (s : Sock) (a : Addr) (o : Option Nat) (k : Key) : Tp D N (matchSenderKey s a o k) := by
  unfold matchSenderKey; tp [tp_sockPeer _]

theorem tp_addDynamic {s : Sock} {k : Key} (hD : D) : Tp D none (addDynamic s k) := by
  unfold addDynamic
  have h : Tp D none (peerAdd { group := Env.verifyGroup, cfg := .dynamic, key := k }) := tp_peerAdd hD rfl
  tp [tp_sockPeer _, h, tp_peerReset hD]

theorem tp_verifyPeer (i : Nat) (v : Verif) : Tp D N (verifyPeer i v) := by
  unfold verifyPeer; tp [tp_setVerifying _, tp_setVerified _ _]

theorem tp_handleDynamic {s : Sock} {l r : Addr} {i : Nat} {h : Handshake.Hs} {k : Key} (hD : D) :
    Tp D none (handleDynamic s l r i h k) := by
  unfold handleDynamic; tp [tp_verifyPeer _ _, tp_peerDelete hD]

theorem tp_hsVerified {s : Sock} {l r : Addr} {i : Nat} {k : Key} {x : Rcv} (hD : D) : Tp D none (hsVerified s l r i k x) := by
  unfold hsVerified; tp [tp_handleDynamic hD]

theorem tp_handleVerifyReturn (v : Verif) (ok : Bool) : Tp D N (handleVerifyReturn v ok) := by
  unfold handleVerifyReturn; tp [tp_respondHandshake _ _ _ _ _ _]

theorem tp_checkMtu (s : Sock) (l r : Addr) (i : Nat) (x : Rcv) : Tp D N (checkMtu s l r i x) := by
  unfold checkMtu; tp [tp_memIfNone _, tp_sendError _ _ _ _ _ _ _ _]

theorem tp_hsInitial (s : Sock) (l r : Addr) (i : Nat) (k : Key) (f : UInt8) : Tp D N (hsInitial s l r i k f) := by
  unfold hsInitial; tp [tp_respondHandshake _ _ _ _ _ _]

theorem tp_hsReply {s : Sock} {l r : Addr} {i : Nat} {k : Key} {x : Rcv} (hD : D) : Tp D none (hsReply s l r i k x) := by
  unfold hsReply; tp [tp_field _ _ _, tp_finishHandshake hD, tp_handleFinish hD]

theorem tp_hsCheck (s : Sock) (l r : Addr) (i : Nat) (x : Rcv) : Tp D N (hsCheck s l r i x) := by
  unfold hsCheck; tp [tp_checkMtu _ _ _ _ _, tp_field _ _ _]

theorem tp_hsKnown {s : Sock} {l r : Addr} {i : Nat} {x : Rcv} (hD : D) : Tp D none (hsKnown s l r i x) := by
  unfold hsKnown; tp [tp_hsCheck _ _ _ _ _, tp_hsVerified hD, tp_hsInitial _ _ _ _ _ _, tp_hsReply hD]

theorem tp_handshakeHandle {s : Sock} {l r : Addr} {o : Option Nat} {x : Rcv} (hD : D) : Tp D none (handshakeHandle s l r o x) := by
  unfold handshakeHandle
  tp [tp_protoMaintenance, tp_field _ _ _, tp_matchSenderKey _ _ _ _, tp_hsKnown hD, tp_addDynamic hD]

/-! ### Received packets -/

theorem tp_canReceive (o : Option Nat) (l : Addr) : Tp D N (canReceive o l) := by unfold canReceive; tp [Tp.unit]

theorem tp_allowUnknown : Tp D N allowUnknown := by unfold allowUnknown; tp [Tp.unit]

theorem tp_backoff (r : Addr) : Tp D N (backoff r) := by unfold backoff; tp [Tp.unit]

theorem tp_hsPacket {s : Sock} {l r : Addr} {o : Option Nat} {d : Bytes} {b : Bool} (hD : D) : Tp D none (hsPacket s l r o d b) := by
  unfold hsPacket; tp [tp_sendError _ _ _ _ _ _ _ _, tp_handshakeHandle hD]

theorem tl_classify {s : Sock} {l r : Addr} {o : Option Nat} {d : Bytes} {b : Bool} {c c' : Ctx} {u : Unit} (hb : Base c)
    (h : classify s l r o d b c = .ok (u, c')) : ∃ V, Frame V c c' := by
  unfold classify at h
  obtain ⟨t, c1, h1, h2⟩ := bind_ok h
  have t1 : Tl False none none c c1 := (tp_memIfNone _).none hb h1
  obtain ⟨can, c2, h3, h4⟩ := bind_ok h2
  have t2 : Tl False none none c1 c2 := (tp_canReceive _ _).none t1.base h3
  have t12 := t1.trans t2
  clear h h2
  have rest : Tp True none (do
      let ok ← allowUnknown
      if o = none && !ok then pure ()
      else if t = PACKET_HANDSHAKE then hsPacket s l r o d b
      else if isDataPacket t then
        let b ← backoff r
        if b then pure ()
        else handshakeInit s l r none
      else pure () : M Unit) := by
    tp [tp_allowUnknown, tp_hsPacket trivial, tp_backoff _, tp_handshakeInit _ _ _ _]
  have fin : Tl True none none c2 c' → ∃ V, Frame V c c' := fun t => ⟨none, frame_none ((t12.mono fun h => h.elim).trans t)⟩
  cases hd : (isDataPacket t && can) with
  | false =>
    simp only [hd] at h4
    exact fin (rest.none t2.base h4)
  | true =>
    cases o with
    | none =>
      simp only [hd] at h4
      exact fin (rest.none t2.base h4)
    | some i =>
      simp only [hd] at h4
      obtain ⟨V, hV⟩ := tl_handleRecv t2.base h4
      exact ⟨V, hV.before t12⟩

theorem tp_senderOf (s : Sock) (r : Addr) : Tp D N (senderOf s r) := by unfold senderOf; tp [tp_sockPeer _, tp_htLookup _]

theorem tl_socketReceive {s : Sock} {l r : Addr} {d : Bytes} {c c' : Ctx} {u : Unit} (hb : Base c) (h : socketReceive s l r d c = .ok (u, c')) :
    ∃ V, Frame V c c' := by
  unfold socketReceive at h
  obtain ⟨o, c1, h1, h2⟩ := bind_ok h
  have t1 : Tl False none none c c1 := (tp_senderOf _ _).none hb h1
  cases o with
  | none => cases h2; exact ⟨none, frame_none (t1.mono fun h => h.elim)⟩
  | some peer =>
    simp only [] at h2
    obtain ⟨t, c2, h3, h4⟩ := bind_ok h2
    have t2 : Tl False none none c1 c2 := (tp_memIfNone _).none t1.base h3
    have t12 := t1.trans t2
    have cl : ∀ {pkt : Bytes} {b : Bool}, classify s l r peer pkt b c2 = .ok (u, c') → ∃ V, Frame V c c' := fun h => by
      obtain ⟨V, hV⟩ := tl_classify t2.base h
      exact ⟨V, hV.before t12⟩
    have no : (pure () : M Unit) c2 = .ok (u, c') → ∃ V, Frame V c c' := fun h => by
      cases h; exact ⟨none, frame_none (t12.mono fun h => h.elim)⟩
    split at h4
    · split at h4
      · exact no h4
      · split at h4
        · exact no h4
        · exact cl h4
    · exact cl h4

/-! ### Asynchronous results, reloading -/

theorem tp_resolveReturn (i k : Nat) (l : List Addr) : Tp D none (resolveReturn i k l) := by
  unfold resolveReturn; tp [tp_handleResolve _ _ _]

theorem tp_verifyReturn (v : Verif) (ok : Bool) : Tp D N (verifyReturn v ok) := by
  unfold verifyReturn; tp [tp_setVerified _ _, tp_handleVerifyReturn _ _]

theorem tp_configurePeer {d : Bool} {p : Peer} (hD : D) : Tp D none (configurePeer d p) := by
  unfold configurePeer; tp [tp_peerDelete hD, tp_peerReset hD]

theorem tp_configureLoop {d : Bool} (hD : D) (n : Nat) : Tp D none (configureLoop d n) := by
  induction n with
  | zero => exact Tp.pure
  | succ n ih => unfold configureLoop; tp [tp_memIfNone _, tp_configurePeer hD, ih]

theorem tp_configurePeers {d : Bool} (hD : D) : Tp D none (configurePeers d) := by
  unfold configurePeers; tp [tp_configureLoop hD _]

theorem tp_addDef {b : Bool} {d : PeerDef} (hD : D) : Tp D none (addDef b d) := by
  unfold addDef
  split
  · exact Tp.pure
  · exact Tp.bind (tp_peerAdd hD rfl) fun _ => Tp.pure

theorem tp_loadPeerDirs {d : Bool} {defs : List PeerDef} (hD : D) : Tp D none (loadPeerDirs d defs) := by
  unfold loadPeerDirs
  refine Tp.bind ?_ fun _ => Tp.bind (Tp.forEach (fun _ => tp_addDef hD) _) fun _ => tp_configurePeers hD
  intro c a c' hb _ h
  cases h
  have hm : ∀ p : Peer, (reloadMark p).id = p.id ∧ (reloadMark p).state = p.state ∧ (reloadMark p).refs = p.refs := by
    intro p
    unfold reloadMark
    split
    · exact ⟨rfl, rfl, rfl⟩
    · split
      · exact ⟨rfl, rfl, rfl⟩
      · split <;> exact ⟨rfl, rfl, rfl⟩
  refine ⟨⟨⟨rfl, Nat.le_refl _, ⟨⟨?_, ?_⟩, hb.eth.sorted, fun e he j hj => ?_⟩, Nat.le_refl _, fun _ _ h => h, fun q hq k hk _ => ?_⟩,
    [], by simp, by simp, by simp, fun e => by simp [known_none]⟩, out_none⟩
  · have hs : Sorted c.peers := hb.ids.sorted
    unfold Sorted at hs ⊢
    show List.Pairwise _ ((c.peers.map reloadMark).map (·.id))
    rw [List.map_map]
    have : ((·.id) ∘ reloadMark : Peer → Nat) = (·.id) := by
      funext p
      exact (hm p).1
    rw [this]
    exact hs
  · intro p' hp'
    obtain ⟨p, hp, rfl⟩ := List.mem_map.1 hp'
    rw [(hm p).1]
    exact hb.ids.lt p hp
  · obtain ⟨p, hp, hpj, hps⟩ := hb.eth.peer e he j hj
    exact ⟨reloadMark p, List.mem_map.2 ⟨p, hp, rfl⟩, (hm p).1.trans hpj, (hm p).2.1.trans hps⟩
  · obtain ⟨p, hp, rfl⟩ := List.mem_map.1 hq
    rw [(hm p).2.2] at hk
    exact ⟨p, hp, (hm p).1.symm, hk⟩

theorem tp_addStatic {d : PeerDef} (hD : D) : Tp D none (addStatic d) := by
  unfold addStatic
  split
  · exact Tp.fail
  · refine Tp.bind (tp_peerAdd hD rfl) fun _ => ?_
    split
    · exact Tp.pure
    · exact Tp.fail

theorem tp_startup {static dirs : List PeerDef} (hD : D) : Tp D none (startup static dirs) := by
  unfold startup
  exact Tp.bind (Tp.forEach (fun _ => tp_addStatic hD) _) fun _ => Tp.bind (tp_configurePeers hD) fun _ => tp_loadPeerDirs hD

/-! ### Events -/

theorem Inv.base {S : Prop} {x y z : Nat → Prop} {c : Ctx} (h : Inv S x y z c) : Base c := ⟨h.idsOk, h.eth⟩

/-- All events except time passing, maintenance, and frames that are delivered. -/
theorem tl_other {e : Event} {c c' : Ctx} {u : Unit} (hb : Base c) (ht : e.isTick = false) (hm : e ≠ .maintenance)
    (hr : ∀ s l r d, e ≠ .recv s l r d) (hi : ∀ d, e ≠ .iface none d) (h : handle e c = .ok (u, c')) : Tl True none none c c' := by
  cases e with
  | tick d => cases ht
  | task i => exact (tp_peerTask trivial).none hb h
  | maintenance => exact absurd rfl hm
  | recv s l r d => exact absurd rfl (hr s l r d)
  | iface o d =>
    cases o with
    | none => exact absurd rfl (hi d)
    | some i => exact (tp_ifaceOwn trivial).none hb h
  | resolved k l =>
    refine (?_ : Tp True none _).none hb h
    unfold handle; tp [tp_memIfNone _, tp_resolveReturn _ _ _]
  | verified k ok =>
    refine (?_ : Tp True none _).none hb h
    unfold handle; tp [tp_memIfNone _, tp_verifyReturn _ _]
  | reload d => exact (tp_loadPeerDirs trivial).none hb h
  | resetAll =>
    refine (?_ : Tp True none _).none hb h
    unfold handle; tp [tp_resetAll trivial _ _]

/-- Every event: session objects. -/
theorem tc_handle {e : Event} {c c' : Ctx} {u : Unit} (hb : Base c) (h : handle e c = .ok (u, c')) :
    c.nextObj ≤ c'.nextObj ∧ (∀ k < c.nextObj, c.objs k = none → c'.objs k = none) ∧
      ∀ q ∈ c'.peers, ∀ k ∈ q.refs, k < c.nextObj → ∃ p ∈ c.peers, p.id = q.id ∧ k ∈ p.refs := by
  have fin : Tc c c' → c.nextObj ≤ c'.nextObj ∧ (∀ k < c.nextObj, c.objs k = none → c'.objs k = none) ∧
      ∀ q ∈ c'.peers, ∀ k ∈ q.refs, k < c.nextObj → ∃ p ∈ c.peers, p.id = q.id ∧ k ∈ p.refs := fun t => ⟨t.obj, t.dead, t.own⟩
  cases e with
  | tick d => cases h; exact ⟨Nat.le_refl _, fun _ _ h => h, fun q hq k hk _ => ⟨q, hq, rfl, hk⟩⟩
  | maintenance =>
    obtain ⟨_, c1, h1, h2⟩ := bind_ok h
    cases h1; cases h2
    exact ⟨Nat.le_refl _, fun _ _ h => h, fun q hq k hk _ => ⟨q, hq, rfl, hk⟩⟩
  | recv s l r d =>
    obtain ⟨V, _, t⟩ := tl_socketReceive hb h
    exact fin t.toTc
  | iface o d =>
    cases o with
    | none => exact fin (tl_ifaceShared hb h).toTc
    | some i => exact fin ((tp_ifaceOwn (D := True) trivial).none hb h).toTc
  | _ => exact fin (tl_other hb rfl (by simp) (by simp) (by simp) h).toTc

end Fastd.Daemon
