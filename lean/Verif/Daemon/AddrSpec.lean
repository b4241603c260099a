import Verif.Daemon.ResetSpec

/-!
# Deletion of peers, resolved names and remote addresses, and the invariant
-/

namespace Fastd.Daemon

set_option linter.unusedSectionVars false

variable [Env] {S : Prop} {x y z : Nat → Prop}

/-! ### Deletion -/

/-- The peers without one. -/
def without' (ps : List Peer) (i : Nat) : List Peer := ps.filter fun p => !decide (p.id = i)

theorem mem_without' {ps : List Peer} {i : Nat} {p : Peer} : p ∈ without' ps i ↔ p ∈ ps ∧ p.id ≠ i := by
  unfold without'
  rw [List.mem_filter]
  simp

theorem without'_upd {ps : List Peer} {i : Nat} {f : Peer → Peer} (hf : ∀ p ∈ ps, p.id = i → (f p).id = i) :
    without' (updPeers ps i f) i = without' ps i := by
  unfold without' updPeers
  rw [List.filter_map]
  have e : ∀ p ∈ ps, ((fun p : Peer => !decide (p.id = i)) ∘ fun p => if p.id = i then f p else p) p =
      !decide (p.id = i) := by
    intro p hp
    simp only [Function.comp_apply]
    split
    · rename_i h
      simp [hf p hp h, h]
    · rfl
  rw [List.filter_congr e]
  conv_rhs => rw [← List.map_id (List.filter (fun p => !decide (p.id = i)) ps)]
  refine List.map_congr_left fun p hp => ?_
  rw [List.mem_filter] at hp
  have : p.id ≠ i := by simpa using hp.2
  rw [if_neg this]
  rfl

theorem eraseIdx_without' {ps : List Peer} (hs : Sorted ps) {k : Nat} {p : Peer} (hk : ps[k]? = some p) :
    ps.eraseIdx k = without' ps p.id := by
  induction ps generalizing k with
  | nil => cases hk
  | cons a as ih =>
    have hs' := hs
    simp only [Sorted, List.map_cons, List.pairwise_cons] at hs'
    cases k with
    | zero =>
      simp only [List.getElem?_cons_zero, Option.some.injEq] at hk
      subst hk
      rw [List.eraseIdx_cons_zero]
      unfold without'
      rw [List.filter_cons_of_neg (by simp), List.filter_eq_self.2]
      intro b hb
      have := hs'.1 b.id (List.mem_map.2 ⟨b, hb, rfl⟩)
      simp only [Bool.not_eq_true', decide_eq_false_iff_not]
      omega
    | succ k =>
      rw [List.getElem?_cons_succ] at hk
      rw [List.eraseIdx_cons_succ, ih hs'.2 hk]
      unfold without'
      have := hs'.1 p.id (List.mem_map.2 ⟨p, List.mem_of_getElem? hk, rfl⟩)
      rw [List.filter_cons_of_pos (by simp; omega)]

theorem sorted_sublist {ps ps' : List Peer} (h : ps'.Sublist ps) (hs : Sorted ps) : Sorted ps' :=
  List.Pairwise.sublist (h.map _) hs

theorem HtOk.filter {inc : Nat → Bool} {ps : List Peer} {t : HT} (h : HtOk inc ps t) {P : Peer → Bool}
    (hP : ∀ p ∈ ps, p.addr.isSet = true → P p = true) : HtOk inc (ps.filter P) t := by
  refine ⟨h.pos, h.nodup, fun b l hl i => ?_, ?_, h.load⟩
  · rw [h.mem b l hl i]
    constructor
    · rintro ⟨p, hp, h1, h2, h3, h4⟩
      exact ⟨p, List.mem_filter.2 ⟨hp, hP p hp h3⟩, h1, h2, h3, h4⟩
    · rintro ⟨p, hp, h1, h2, h3, h4⟩
      exact ⟨p, (List.mem_filter.1 hp).1, h1, h2, h3, h4⟩
  · rw [h.used, List.countP_filter]
    refine List.countP_congr fun p hp => ?_
    simp only [Bool.and_eq_true, Bool.and_eq_true]
    constructor
    · rintro ⟨h1, h2⟩
      exact ⟨⟨h1, h2⟩, hP p hp h2⟩
    · exact fun h => h.1

theorem flatMap_filter {ps : List Peer} {P : Peer → Bool} (h : ∀ p ∈ ps, P p = false → p.refs = []) :
    (ps.filter P).flatMap Peer.refs = ps.flatMap Peer.refs := by
  induction ps with
  | nil => rfl
  | cons a as ih =>
    have ih' := ih fun p hp => h p (List.mem_cons_of_mem _ hp)
    rw [List.filter_cons, List.flatMap_cons]
    cases hP : P a with
    | true => simp only [if_true, List.flatMap_cons, ih']
    | false =>
      simp only [Bool.false_eq_true, if_false, h a List.mem_cons_self hP, List.nil_append, ih']

/-- A peer that has been reset can be taken out. -/
theorem Inv.delete {x' y' z' : Nat → Prop} {c : Ctx} (h : Inv S x y z c) {p : Peer} (hp : p ∈ c.peers)
    (ha : p.addr.isSet = false) (hsk : p.sock = none) (hr : p.refs = []) (he : p.state ≠ .established)
    (hx : ∀ i, i ≠ p.id → x i → x' i) (hy : ∀ i, i ≠ p.id → y i → y' i) (hz : ∀ i, i ≠ p.id → z i → z' i) :
    Inv S x' y' z' { c with peers := without' c.peers p.id } := by
  have hsub : ∀ q ∈ without' c.peers p.id, q ∈ c.peers ∧ q.id ≠ p.id := fun q hq => mem_without'.1 hq
  have hP : ∀ q ∈ c.peers, (!decide (q.id = p.id)) = false → q = p := by
    intro q hq h'
    refine h.inj hq hp ?_
    simpa using h'
  have hfm : (without' c.peers p.id).flatMap Peer.refs = c.peers.flatMap Peer.refs :=
    flatMap_filter fun q hq h' => by rw [hP q hq h']; exact hr
  constructor
  · exact sorted_sublist List.filter_sublist h.ids
  · exact fun q hq => h.idlt q (hsub q hq).1
  · exact (List.Sublist.map _ List.filter_sublist).nodup h.keys
  · refine h.ht.filter fun q hq hset => ?_
    cases hd : (!decide (q.id = p.id)) with
    | true => rfl
    | false => rw [hP q hq hd, ha] at hset; cases hset
  · exact fun q hq r hr => h.uniq q (hsub q hq).1 r (hsub r hr).1
  · refine ⟨h.socks.nodup, h.socks.lt, fun q hq => h.socks.own q (hsub q hq).1, fun s hs => ?_, h.socks.none⟩
    obtain ⟨q, hq, hi⟩ := h.socks.live s hs
    refine ⟨q, mem_without'.2 ⟨hq, ?_⟩, hi⟩
    intro hqp
    have := (h.socks.own p hp s.1).2 (by rw [← hqp, hi]; exact hs)
    rw [hsk] at this
    cases this
  · show RefsOk (without' c.peers p.id) _ _
    exact ⟨by rw [hfm]; exact h.refs.nodup, by rw [hfm]; exact h.refs.live, by rw [hfm]; exact h.refs.lt⟩
  · refine ⟨h.eth.sorted, fun e hm i hi => ?_⟩
    obtain ⟨q, hq, hqi, hqe⟩ := h.eth.peer e hm i hi
    refine ⟨q, mem_without'.2 ⟨hq, ?_⟩, hqi, hqe⟩
    intro hqp
    rw [h.inj hq hp hqp] at hqe
    exact he hqe
  · intro g m hm
    refine Nat.le_trans ?_ (h.limits g m hm)
    unfold countEstablished without'
    rw [List.filter_filter]
    refine (List.Sublist.length_le ?_)
    exact List.monotone_filter_right _ fun a ha => by
      simp only [Bool.and_eq_true] at ha ⊢
      exact ha.1
  · intro q hq
    obtain ⟨hq, hne⟩ := hsub q hq
    have := h.peer q hq
    exact ⟨this.inact, fun hx' => this.idle fun h' => hx' (hx _ hne h'), fun hx' => this.est fun h' => hx' (hx _ hne h'),
      fun hS hx' => this.sock hS fun h' => hx' (hx _ hne h'), this.oldM, this.sessM, this.rem, this.addrs, this.hs,
      this.dynr, this.key, this.ifc⟩
  · intro q hq hn
    obtain ⟨hq, hne⟩ := hsub q hq
    exact h.act q hq fun h' => hn (hy _ hne h')
  · exact fun q hq => h.timers q (hsub q hq).1
  · intro q hq hn
    obtain ⟨hq, hne⟩ := hsub q hq
    exact h.sched q hq fun h' => hn (hz _ hne h')
  · exact fun r hr => ⟨(h.resolves r hr).1, fun q hq => (h.resolves r hr).2 q (hsub q hq).1⟩
  · intro v hv
    obtain ⟨h1, h2, h3, h4, h5⟩ := h.verifs v hv
    exact ⟨h1, h2, h3, h4, fun q hq => h5 q (hsub q hq).1⟩
  · exact h.serials
  · exact fun q hq => h.caches q (hsub q hq).1
  · exact ⟨h.log.lt, fun s hs q hq => h.log.last s hs q (hsub q hq).1, h.log.inc,
      fun ho s hs q hq => h.log.lastKey ho s hs q (hsub q hq).1, h.log.incKey⟩
  · exact fun q hq => h.dynv q (hsub q hq).1

theorem peerIndex_some {ps : List Peer} (hs : Sorted ps) {p : Peer} (hp : p ∈ ps) :
    ∃ k, peerIndex ps p.id = some k ∧ ps[k]? = some p := by
  obtain ⟨j, hj⟩ := List.mem_iff_getElem?.1 hp
  unfold peerIndex
  have hsf : Data.SortedFor (fun q : Peer => compare p.id q.id) ps := by
    refine Data.sortedFor_nat (fun q : Peer => q.id) ps ?_ p.id
    exact List.pairwise_map.1 hs
  cases hb : Data.bsearch (fun q : Peer => compare p.id q.id) ps with
  | none =>
    have := Data.bsearch_none hsf hb p hp
    simp at this
  | some k =>
    obtain ⟨q, hq, he⟩ := Data.bsearch_some hsf hb
    refine ⟨k, rfl, ?_⟩
    have : p.id = q.id := by simpa using he
    rw [hq, sorted_inj hs (List.mem_of_getElem? hq) hp this.symm]

theorem wp_peerDelete {T : Prop} {x' y' z' : Nat → Prop} {c : Ctx} (h : Inv S x y z c) {p : Peer} (hp : p ∈ c.peers) {i : Nat}
    (hi : p.id = i) (hx : ∀ j, j ≠ i → x j → x' j) (hy : ∀ j, j ≠ i → y j → y' j)
    (hz : ∀ j, j ≠ i → z j → z' j) {Q : Unit → Ctx → Prop}
    (hQ : ∀ c' ht, Inv S x' y' z' c' → c' = { c with
        peers := without' c.peers i
        ht := ht
        eth := c.eth.filter fun e => !decide (e.peer = some i)
        socks := dropSock p.sock c.socks
        objs := without c.objs p.refs
        log := c.log ++ (if p.isEstablished then [.disestablished i] else []) } → Q () c') :
    wp T (peerDelete i) Q c := by
  subst hi
  have hk := h.peer p hp
  unfold peerDelete
  rw [wp_bind]
  refine wp_resetPeer h.ids h.socks h.refs h.ht hp (by rw [hk.oldM]; exact id) hk.sessM fun ht hht => ?_
  have h1 : Inv S (fun j => x' j ∨ j = p.id) (fun j => y' j ∨ j = p.id) (fun j => z' j ∨ j = p.id) (resetCtx c p ht) :=
    h.reset hp hht (fun j hj hxj => .inl (hx j hj hxj)) (fun j hj hyj => .inl (hy j hj hyj)) (.inr rfl)
      fun j hj hzj => .inl (hz j hj hzj)
  refine wp_opaque fun c1 e1 => ?_
  rw [← e1] at h1
  have hm : resetF p ∈ c1.peers := by rw [e1]; exact mem_upd_self hp
  unfold deletePeer
  rw [wp_bind]
  refine (wp_getP' (p := resetF p) h1.ids hm rfl).2 ?_
  rw [wp_bind, wp_get]
  obtain ⟨k, hk1, hk2⟩ := peerIndex_some h1.ids hm
  have hk1' : peerIndex c1.peers p.id = some k := hk1
  simp only [hk1']
  rw [wp_bind]
  refine wp_resetPeerState (p := resetF p) h1.ids h1.refs hm (fun h => nomatch h) (fun h => nomatch h) ?_
  rw [wp_modify]
  have e2 : ({ resetF p with old := {}, sess := {} } : Peer) = resetF p := rfl
  have e3 : (updPeers c1.peers (resetF p).id fun _ => resetF p) = c1.peers := updPeers_self h1.ids hm
  simp only [e2, e3, resetF_refs, without_nil]
  rw [eraseIdx_without' h1.ids hk2]
  have hdel := h1.delete (x' := x') (y' := y') (z' := z') hm rfl rfl (resetF_refs p) (fun h => nomatch h)
    (fun j hj hxj => hxj.resolve_right hj) (fun j hj hxj => hxj.resolve_right hj)
    (fun j hj hxj => hxj.resolve_right hj)
  refine hQ _ ht hdel ?_
  have hid : (resetF p).id = p.id := rfl
  rw [e1, hid]
  simp only [resetCtx]
  rw [without'_upd (by intros; rfl)]

/-! ### Changes that leave the core alone -/

theorem Inv.one {x' y' z' : Nat → Prop} {c c' : Ctx} (h : Inv S x y z c) {p q : Peer} {r : List (Nat × Nat)}
    (h1 : One p c c' q r) (hc : Core p q) (hr : ReqOk p r) (hx : ∀ i, i ≠ p.id → x i → x' i)
    (hy : ∀ i, i ≠ p.id → y i → y' i) (hz : ∀ i, i ≠ p.id → z i → z' i) (hq : PeerOk S (x' p.id) q)
    (hact : ¬ y' p.id → (q.state = .inactive ↔ q.isEnabled = false)) (htim : TimerOk c.now q)
    (hsch : ¬ z' p.id → Sched q) : Inv S x' y' z' c' := by
  obtain ⟨n, e⟩ := h1.eq
  have h2 := h.core h1.mem hc hx hy hz hq hact htim hsch
  have h3 := (h2.addResolves (r := r) (p := q) (mem_upd_self h1.mem) (by
    intro v hv
    obtain ⟨a1, a2, a3⟩ := hr v hv
    exact ⟨a1.trans h1.id.symm, by rw [hc.dyn]; exact a2, by rw [stat_len hc.stat]; exact a3⟩)).pos n
  rw [e]
  exact h3

theorem stat_enabled {p q : Peer} (h : q.stat = p.stat) : q.isEnabled = p.isEnabled := by
  unfold Peer.isEnabled; rw [stat_cfg h]

theorem stat_dynamic {p q : Peer} (h : q.stat = p.stat) : q.isDynamic = p.isDynamic := by
  unfold Peer.isDynamic; rw [stat_cfg h]

/-! ### `fastd_peer_handle_resolve` -/

theorem stat_modify {p : Peer} {k : Nat} {f : Remote → Remote}
    (h : ∀ r, (f r).hostname = r.hostname ∧ (f r).address = r.address) :
    ({ p with remotes := p.remotes.modify k f } : Peer).stat = p.stat := by
  simp only [Peer.stat]
  rw [map_modify]
  intro r
  rw [(h r).1, (h r).2]

theorem modify_eq_nil' {l : List Remote} {k : Nat} {f : Remote → Remote} (h : l.modify k f = []) : l = [] := by
  have := congrArg List.length h
  rw [List.length_modify] at this
  exact List.length_eq_zero_iff.1 this

theorem mem_modify {l : List Remote} {k : Nat} {f : Remote → Remote} {s : Remote} (h : s ∈ l.modify k f) :
    ∃ r ∈ l, s = r ∨ s = f r := by
  obtain ⟨j, hj⟩ := List.mem_iff_getElem?.1 h
  rw [List.getElem?_modify] at hj
  cases hl : l[j]? with
  | none => rw [hl] at hj; split at hj <;> simp at hj
  | some r =>
    rw [hl] at hj
    refine ⟨r, List.mem_of_getElem? hl, ?_⟩
    split at hj
    · exact .inr (Option.some.inj hj).symm
    · exact .inl (Option.some.inj hj).symm

/-- Changing the addresses of a remote or its position. -/
theorem PeerOk.modify {u : Prop} {p : Peer} (h : PeerOk S u p) {k : Nat} {f : Remote → Remote}
    (hf : ∀ r, (f r).hostname = r.hostname ∧ (f r).address = r.address)
    (hset : ∀ r ∈ p.remotes, (∀ a ∈ r.addrs, a.isSet = true) → ∀ a ∈ (f r).addrs, a.isSet = true)
    (hcur : p.nextRemote = some k → ∀ r ∈ p.remotes, (r.cur < r.addrs.length ∨ r.addrs = []) →
      (f r).cur < (f r).addrs.length ∨ (f r).addrs = []) :
    PeerOk S u { p with remotes := p.remotes.modify k f } where
  inact := h.inact
  idle := h.idle
  est := h.est
  sock := h.sock
  oldM := h.oldM
  sessM := h.sessM
  rem := fun hst j hj => by
    obtain ⟨r, hr, hc⟩ := h.rem hst j hj
    simp only [List.getElem?_modify, hr]
    by_cases hkj : k = j
    · subst hkj
      refine ⟨f r, by simp, hcur hj r (List.mem_of_getElem? hr) hc⟩
    · exact ⟨r, by simp [hkj], hc⟩
  addrs := fun s hs => by
    obtain ⟨r, hr, he⟩ := mem_modify hs
    rcases he with e | e
    · rw [e]; exact h.addrs r hr
    · rw [e, (hf r).1, (hf r).2]
      exact ⟨hset r hr (h.addrs r hr).1, (h.addrs r hr).2⟩
  hs := fun hS hr => h.hs hS (modify_eq_nil' hr)
  dynr := fun hd => by
    obtain ⟨h1, h2⟩ := h.dynr hd
    refine ⟨?_, h2⟩
    show p.remotes.modify k f = []
    rw [h1]; cases k <;> rfl
  key := h.key
  ifc := h.ifc

theorem Core.modify {p : Peer} {k : Nat} {f : Remote → Remote}
    (hf : ∀ r, (f r).hostname = r.hostname ∧ (f r).address = r.address) :
    Core p { p with remotes := p.remotes.modify k f } :=
  ⟨stat_modify hf, rfl, rfl, rfl, Iff.rfl, rfl, rfl⟩

theorem wp_handleResolve {c : Ctx} (h : Inv S x y z c) {p : Peer} (hp : p ∈ c.peers) {k : Nat}
    (hk : k < p.remotes.length) {addrs : List Addr} (ha : ∀ a ∈ addrs, a.isSet = true) {Q : Unit → Ctx → Prop}
    (hQ : ∀ c' q, Inv S x y z c' → One p c c' q [] → Core p q → Q () c') :
    wp S (handleResolve p.id k addrs) Q c := by
  have hpk := h.peer p hp
  have hr : p.remotes[k]? = some p.remotes[k] := List.getElem?_eq_getElem hk
  unfold handleResolve
  rw [wp_bind]
  have hf : ∀ r : Remote, ({ r with addrs := addrs, cur := 0 } : Remote).hostname = r.hostname ∧
      ({ r with addrs := addrs, cur := 0 } : Remote).address = r.address := fun _ => ⟨rfl, rfl⟩
  have hcur : (0 < addrs.length ∨ addrs = []) := by
    cases addrs with
    | nil => exact .inr rfl
    | cons a as => exact .inl (Nat.succ_pos _)
  have hok := hpk.modify (k := k) hf (fun _ _ _ => ha) fun _ _ _ _ => hcur
  refine wp_modR (One.refl h.ids hp) hr fun c1 h1 => ?_
  rw [wp_bind, h1.wp_getP rfl]
  refine wp_when (fun hst => ?_) (fun hst => ?_)
  · have hst' : p.state = .resolving := by simpa using hst
    refine wp_initHandshake_one h1 fun c2 d hd0 hd h2 => ?_
    have hcore : Core p (scheduled { p with
        remotes := p.remotes.modify k fun r => { r with addrs := addrs, cur := 0 }
        state := .handshake, nextHs := c.now + d }) := by
      rw [scheduled_eq]
      have := Core.modify (p := p) (k := k) hf
      exact ⟨this.stat, rfl, rfl, rfl, ⟨fun h => (nomatch h), fun h => by rw [hst'] at h; cases h⟩, rfl, rfl⟩
    refine hQ c2 _ (h.one h2 hcore (by simp [ReqOk]) (fun _ _ => id) (fun _ _ => id) (fun _ _ => id) ?_ ?_ ?_ ?_) h2 hcore
    · rw [scheduled_eq]
      have hne : p.remotes.modify k (fun r => { r with addrs := addrs, cur := 0 }) ≠ [] := by
        intro he
        rw [modify_eq_nil' he] at hk
        cases hk
      exact { hok with
        inact := fun h => (nomatch h)
        idle := fun hx _ => hok.idle hx (by rw [hst']; decide)
        est := fun _ h => (nomatch h)
        sock := fun _ _ h => (nomatch h)
        rem := fun _ => hok.rem (by rw [hst']; decide)
        hs := fun _ hr => absurd hr hne
        ifc := fun hs _ => hok.ifc hs (by rw [hst']; decide) }
    · intro hy
      have := h.act p hp hy
      rw [stat_enabled hcore.stat, ← this, hst', scheduled_eq]
      simp
    · rw [scheduled_eq]
      exact fun h => (nomatch h)
    · intro _
      exact scheduled_sched _
  · exact hQ c1 _ (h.one h1 (Core.modify hf) (by simp [ReqOk]) (fun _ _ => id) (fun _ _ => id) (fun _ _ => id) hok
      (h.act p hp) (h.timers p hp) fun hz => h.sched p hp hz) h1 (Core.modify hf)

/-! ### Addresses -/

theorem HtOk.of_upd {ps : List Peer} {t : HT} {p q : Peer} (h : HtOk (fun j => j != p.id) ps t)
    (hid : q.id = p.id) : HtOk (fun j => j != p.id) (updPeers ps p.id fun _ => q) t :=
  HtOk.other h fun _ _ _ => hid

theorem wp_resetPeerAddress {c : Ctx} (h : Inv S nobody nobody z c) {p : Peer} (hp : p ∈ c.peers) {i : Nat}
    (hi : p.id = i) {Q : Unit → Ctx → Prop}
    (hQ : ∀ c' q, Inv S nobody nobody z c' → q ∈ c'.peers → q.stat = p.stat → q.lastSerial = p.lastSerial →
      q.addr.isSet = false → q.state ≠ .established → c'.peers = (updPeers c.peers i fun _ => q) →
      (p.state ≠ .established → q = { p with addr := .unspec 0 } ∧ ∃ ht, c' = { c with
        peers := updPeers c.peers i fun _ => q, ht := ht }) →
      (p.state = .established → Cleared c.now p q ∧ ResetTo p q c c') →
      (∀ E : Eff → Prop, E (.disestablished i) → Fr (· = i) nobody E c c') → Q () c') :
    wp S (resetPeerAddress i) Q c := by
  subst hi
  have hk := h.peer p hp
  unfold resetPeerAddress
  rw [wp_bind, wp_getP h.ids hp]
  refine wp_ite (fun he => ?_) (fun he => ?_)
  · have he' : p.state = .established := by simpa [Peer.isEstablished] using he
    refine wp_peerReset h hp rfl (fun _ => id) (fun _ _ => id) (fun _ _ => id) (fun _ _ => id) fun c' q h' hq hcl hto hfr => ?_
    obtain ⟨ht, r, n, e⟩ := hto
    exact hQ c' q h' hq hcl.stat hcl.serial hcl.addr hcl.est (by rw [e]) (fun hn => absurd he' hn)
      (fun _ => ⟨hcl, ht, r, n, e⟩) hfr
  · have he' : p.state ≠ .established := by simpa [Peer.isEstablished] using he
    rw [wp_bind]
    refine wp_mono (wp_htRemove h.ids hp h.ht) ?_
    rintro _ c1 ⟨e1, ht1⟩
    have p1 : c1.peers = c.peers := by rw [e1]
    rw [wp_modP (by rw [p1]; exact h.ids) (by rw [p1]; exact hp) rfl, p1, updPeers_const h.ids hp]
    have hfull : HtOk (fun _ => true) (updPeers c.peers p.id fun _ => { p with addr := .unspec 0 }) c1.ht := by
      refine HtOk.full (i := p.id) (ht1.of_upd rfl) ?_
      intro q hq hqi
      rcases mem_upd hq with rfl | ⟨_, hne⟩
      · rfl
      · exact absurd hqi hne
    have e2 : ({ c1 with peers := updPeers c.peers p.id fun _ => { p with addr := .unspec 0 } } : Ctx) =
        { c with peers := updPeers c.peers p.id fun _ => { p with addr := .unspec 0 }, ht := c1.ht } := by
      rw [e1]
    refine hQ _ { p with addr := .unspec 0 } ?_ (mem_upd_self hp) rfl rfl rfl he' rfl (fun _ => ⟨rfl, c1.ht, e2⟩)
      (fun h => absurd h he') ?_
    · rw [e2]
      refine h.upd hp rfl rfl rfl rfl rfl (Nat.le_refl _) rfl rfl rfl rfl rfl rfl (fun _ _ => id) (fun _ _ => id)
        (fun _ _ => id) hfull (h.uniq.upd hp rfl (.inr rfl)) (h.socks.upd hp rfl rfl) (h.refs.upd h.ids hp rfl)
        (h.eth.upd h.ids hp rfl id) (h.limits.upd h.ids hp rfl id) ?_ (h.act p hp) (h.timers p hp)
        (fun hz => h.sched p hp hz)
      exact { hk with
        inact := fun hin => ⟨rfl, (hk.inact hin).2⟩
        est := fun _ h => absurd h he' }
    · intro E _
      rw [e2]
      exact ⟨rfl, rfl, Nat.le_refl _, forall₂_updPeers (fun r hr hi => by
        rw [h.inj hr hp hi]; exact ⟨rfl, fun hn => absurd rfl hn, .inl, .inl rfl⟩) fun _ _ _ => PFr.refl,
        fun _ _ _ _ _ => rfl, [], (List.append_nil _).symm, by simp⟩

/-- The socket after claiming an address. -/
def claimedSock (old : Option Sock) : Option Sock → Option Sock
  | some (.bound k) => some (.bound k)
  | _ => old

/-- The peer after claiming an address. -/
def claimed (p : Peer) (sock : Option Sock) (loc : Option Addr) (rem : Addr) : Peer :=
  { p with addr := rem, localAddr := loc.getD p.localAddr, sock := claimedSock p.sock sock }

/-- The dynamic sockets after claiming an address. -/
def claimedSocks (old : Option Sock) (socks : List (Nat × Nat)) : Option Sock → List (Nat × Nat)
  | some (.bound _) => dropSock old socks
  | _ => socks

theorem wp_claimSock {c : Ctx} (hs : Sorted c.peers) (hk : SocksOk c.peers c.socks c.nextSock) {p : Peer}
    (hp : p ∈ c.peers) {sock : Option Sock} (hS : S → ∀ n, sock = some (.dyn n) → p.sock = some (.dyn n))
    {Q : Unit → Ctx → Prop} (hQ : Q () { c with
      peers := updPeers c.peers p.id fun _ => { p with sock := claimedSock p.sock sock }
      socks := claimedSocks p.sock c.socks sock }) : wp S (claimSock p.id sock) Q c := by
  have hself : sock = none ∨ (∃ n, sock = some (.dyn n)) ∨ (∃ k, sock = some (.bound k) ∧ p.sock = some (.bound k)) →
      Q () c := by
    intro h
    have : ({ p with sock := claimedSock p.sock sock } : Peer) = p := by
      rcases h with h | ⟨n, h⟩ | ⟨k, h, h'⟩
      · rw [h]; rfl
      · rw [h]; rfl
      · rw [h]
        show ({ p with sock := some (.bound k) } : Peer) = p
        rw [← h']
    rw [this, updPeers_self hs hp] at hQ
    have e : claimedSocks p.sock c.socks sock = c.socks := by
      rcases h with h | ⟨n, h⟩ | ⟨k, h, h'⟩
      · rw [h]; rfl
      · rw [h]; rfl
      · rw [h, h']; rfl
    rw [e] at hQ
    exact hQ
  unfold claimSock
  match sock, hself, hS, hQ with
  | none, hself, _, _ => exact hself (.inl rfl)
  | some (.dyn n), hself, hS, _ =>
    simp only [sockLive]
    rw [wp_bind, wp_get]
    cases hf : c.socks.find? (·.1 = n) with
    | none =>
      simp only []
      rw [wp_mem]
      intro hS'
      have := (hk.own p hp n).1 (hS hS' n rfl)
      rw [find_sock hk this] at hf
      cases hf
    | some v =>
      simp only []
      exact hself (.inr (.inl ⟨n, rfl⟩))
  | some (.bound k), hself, _, hQ =>
    simp only []
    rw [wp_bind, wp_getP hs hp]
    refine wp_ite (fun he => ?_) (fun he => ?_)
    · exact hself (.inr (.inr ⟨k, rfl, he⟩))
    · rw [wp_bind]
      refine wp_freeSocket hs hk hp ?_
      have hs1 : Sorted (updPeers c.peers p.id fun _ => { p with sock := none }) :=
        sorted_updPeers hs (by intro q _ hq; exact hq.symm)
      refine (wp_modP (p := { p with sock := none }) hs1 (mem_upd_self hp) rfl).2 ?_
      simp only []
      rw [updPeers_updPeers (by intro q _ hq; exact hq.symm)]
      exact hQ

/-- The address can be claimed if no other peer has it. -/
theorem AddrU.claim {ps : List Peer} (h : AddrU ps) {p q : Peer} (hid : q.id = p.id)
    (hfree : ∀ r ∈ ps, r.id ≠ p.id → addrEq r.addr q.addr = false) : AddrU (updPeers ps p.id fun _ => q) := by
  intro r hr s hs hset heq
  rcases mem_upd hr with rfl | ⟨hr1, hrn⟩ <;> rcases mem_upd hs with rfl | ⟨hs1, hsn⟩
  · rfl
  · rw [addrEq_comm, hfree s hs1 hsn] at heq; cases heq
  · rw [hfree r hr1 hrn] at heq; cases heq
  · exact h r hr1 s hs1 hset heq

theorem wp_claimFinish {c : Ctx} (h : Inv S nobody nobody z c) {p : Peer} (hp : p ∈ c.peers) {i : Nat}
    (hi : p.id = i) {sock : Option Sock} {loc : Option Addr} {rem : Addr} (hset : rem.isSet = true)
    (hst : p.state ≠ .inactive) (hfree : ∀ r ∈ c.peers, r.id ≠ i → addrEq r.addr rem = false)
    (hS : S → ∀ n, sock = some (.dyn n) → p.sock = some (.dyn n))
    {Q : Bool → Ctx → Prop}
    (hQ : ∀ c' ht n, Inv S nobody nobody z c' → claimed p sock loc rem ∈ c'.peers → c' = { c with
        peers := updPeers c.peers i fun _ => claimed p sock loc rem
        socks := claimedSocks p.sock c.socks sock
        ht := ht, pos := n } →
      (∀ E : Eff → Prop, Fr (· = i) nobody E c c') → Q true c') :
    wp S (claimFinish i sock loc rem) Q c := by
  subst hi
  have hk := h.peer p hp
  unfold claimFinish
  rw [wp_bind]
  refine wp_mono (wp_htRemove h.ids hp h.ht) ?_
  rintro _ c1 ⟨e1, ht1⟩
  have p1 : c1.peers = c.peers := by rw [e1]
  rw [wp_bind]
  refine (wp_modP (p := p) (by rw [p1]; exact h.ids) (by rw [p1]; exact hp) rfl).2 ?_
  refine wp_opaque fun c2 e2 => ?_
  have p2 : c2.peers = updPeers c.peers p.id fun _ => { p with addr := rem } := by
    rw [e2]
    simp only []
    rw [p1, updPeers_const h.ids hp]
  have hs2 : Sorted c2.peers := by
    rw [p2]; exact sorted_updPeers h.ids (by intro q _ hq; exact hq.symm)
  have hm2 : ({ p with addr := rem } : Peer) ∈ c2.peers := by rw [p2]; exact mem_upd_self hp
  have ht2 : HtOk (fun j => j != p.id) c2.peers c2.ht := by
    rw [p2, e2]; exact ht1.of_upd rfl
  rw [wp_bind]
  refine wp_mono (wp_htInsert (p := { p with addr := rem }) hs2 hm2 ht2) ?_
  rintro _ c3 ⟨e3, ht3⟩
  have p3 : c3.peers = c2.peers := by rw [e3]
  have e3' : c3 = { c with peers := updPeers c.peers p.id fun _ => { p with addr := rem }, ht := c3.ht, pos := c3.pos } := by
    apply Ctx.ext <;> first | rfl | exact p3.trans p2 | (rw [e3, e2, e1])
  have k3 : SocksOk c3.peers c3.socks c3.nextSock := by
    rw [e3']; exact h.socks.upd hp rfl rfl
  rw [wp_bind]
  refine wp_claimSock (p := { p with addr := rem }) (by rw [p3]; exact hs2) k3 (by rw [p3]; exact hm2) hS ?_
  rw [wp_bind]
  refine wp_opaque fun c4 e4 => ?_
  have p4 : c4.peers = updPeers c.peers p.id fun _ => { p with addr := rem, sock := claimedSock p.sock sock } := by
    rw [e4]
    simp only []
    rw [p3, p2, updPeers_updPeers (by intro q _ hq; exact hq.symm)]
    rfl
  have hs4 : Sorted c4.peers := by
    rw [p4]; exact sorted_updPeers h.ids (by intro q _ hq; exact hq.symm)
  refine (wp_modP (p := { p with addr := rem, sock := claimedSock p.sock sock }) hs4 (by rw [p4]; exact mem_upd_self hp)
    rfl).2 ?_
  refine wp_opaque (m := pure true) (S := S) fun c5 e5 => ?_
  rw [wp_pure]
  have e5' : c5 = { c with
      peers := updPeers c.peers p.id fun _ => claimed p sock loc rem
      socks := claimedSocks p.sock c.socks sock
      ht := c3.ht, pos := c3.pos } := by
    have hp5 : c5.peers = updPeers c.peers p.id fun _ => claimed p sock loc rem := by
      rw [e5]
      simp only []
      rw [p4, updPeers_updPeers (by intro q _ hq; exact hq.symm)]
      rfl
    apply Ctx.ext <;> first
      | exact hp5
      | (rw [e5]; simp only []; rw [e4]; done)
      | (rw [e5]; simp only []; rw [e4]; simp only []; rw [e3'])
  have hstat : (claimed p sock loc rem).stat = p.stat := rfl
  refine hQ c5 c3.ht c3.pos ?_ (by rw [e5']; exact mem_upd_self hp) e5' ?_
  · rw [e5']
    refine h.upd hp rfl rfl rfl rfl rfl (Nat.le_refl _) rfl rfl rfl rfl rfl rfl (fun _ _ => id) (fun _ _ => id)
        (fun _ _ => id) ?_ (h.uniq.claim rfl hfree) ?_ (h.refs.upd h.ids hp rfl)
        (h.eth.upd h.ids hp rfl id) (h.limits.upd h.ids hp rfl id) ?_ (h.act p hp) (h.timers p hp)
        (fun hz => h.sched p hp hz)
    · show HtOk (fun _ => true) (updPeers c.peers p.id fun _ => claimed p sock loc rem) c3.ht
      rw [p2] at ht3
      refine ht3.congr ?_ fun _ _ _ => rfl
      unfold updPeers
      rw [List.map_map, List.map_map]
      refine List.map_congr_left fun r _ => ?_
      simp only [Function.comp_apply]
      split <;> rfl
    · show SocksOk (updPeers c.peers p.id fun _ => claimed p sock loc rem) (claimedSocks p.sock c.socks sock) c.nextSock
      match sock with
      | none => exact h.socks.upd hp rfl rfl
      | some (.dyn n) => exact h.socks.upd hp rfl rfl
      | some (.bound k) => exact h.socks.drop hp rfl fun n hn => by simp [claimed, claimedSock] at hn
    · exact { hk with
        inact := fun h => absurd h hst
        est := fun hx he => ⟨hset, (hk.est hx he).2⟩
        sock := fun hS' hx he => by
          have := hk.sock hS' hx he
          match sock with
          | none => exact this
          | some (.dyn n) => exact this
          | some (.bound k) => rfl
        dynr := fun hd => by
          obtain ⟨h1, h2⟩ := hk.dynr hd
          refine ⟨h1, ?_⟩
          match sock with
          | none => exact h2
          | some (.dyn n) => exact h2
          | some (.bound k) => exact fun n hn => by simp [claimed, claimedSock] at hn }
  · intro E
    rw [e5']
    exact ⟨rfl, rfl, Nat.le_refl _, forall₂_updPeers (fun r hr hi => by
      rw [h.inj hr hp hi]; exact ⟨rfl, fun hn => absurd rfl hn, .inl, .inl rfl⟩) fun _ _ _ => PFr.refl,
      fun _ _ _ _ _ => rfl, [], (List.append_nil _).symm, by simp⟩

end Fastd.Daemon
