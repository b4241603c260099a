import Verif.Daemon.PeersSpec

/-!
# Reset, set-up and deletion of peers and the invariant
-/

namespace Fastd.Daemon

set_option linter.unusedSectionVars false

variable [Env] {S : Prop} {x y z : Nat → Prop}

/-! ### The hash table -/

/-- Excluded peers do not matter. -/
theorem HtOk.other {ps : List Peer} {t : HT} {i : Nat} (h : HtOk (fun j => j != i) ps t) {f : Peer → Peer}
    (hf : ∀ p ∈ ps, p.id = i → (f p).id = i) : HtOk (fun j => j != i) (updPeers ps i f) t := by
  refine ⟨h.pos, h.nodup, fun b l hl k => ?_, ?_, h.load⟩
  · rw [h.mem b l hl k]
    constructor
    · rintro ⟨p, hp, hk, hi, hset, hb⟩
      exact ⟨p, mem_updPeers_other hp (by simpa using hi), hk, hi, hset, hb⟩
    · rintro ⟨p, hp, hk, hi, hset, hb⟩
      rw [mem_updPeers] at hp
      obtain ⟨q, hq, he⟩ := hp
      by_cases hqi : q.id = i
      · rw [if_pos hqi] at he
        subst he
        simp [hf q hq hqi] at hi
      · rw [if_neg hqi] at he
        subst he
        exact ⟨q, hq, hk, hi, hset, hb⟩
  · rw [h.used]
    unfold updPeers
    rw [List.countP_map]
    refine List.countP_congr fun p hp => ?_
    simp only [Function.comp_apply]
    by_cases hi : p.id = i
    · rw [if_pos hi]; simp [hi, hf p hp hi]
    · rw [if_neg hi]

/-- A peer without an address need not be in the table. -/
theorem HtOk.full {ps : List Peer} {t : HT} {i : Nat} (h : HtOk (fun j => j != i) ps t)
    (hu : ∀ p ∈ ps, p.id = i → p.addr.isSet = false) : HtOk (fun _ => true) ps t := by
  refine h.congr rfl fun p hp hset => ?_
  by_cases hi : p.id = i
  · rw [hu p hp hi] at hset; cases hset
  · simp [hi]

/-! ### `reset_peer` -/

/-- What `reset_peer` does to a peer. -/
def resetF (p : Peer) : Peer :=
  { p with
    sock := none, old := {}, sess := {}, task := none, addr := .unspec 0, localAddr := .unspec 0, state := .inactive
    iface := if !Env.ifacePersist || p.cfg = .disabled || p.isDynamic then none else p.iface }

/-- What `reset_peer` does to the state. -/
def resetCtx (c : Ctx) (p : Peer) (ht : HT) : Ctx :=
  { c with
    peers := updPeers c.peers p.id fun _ => resetF p
    ht := ht
    eth := c.eth.filter fun e => !decide (e.peer = some p.id)
    socks := dropSock p.sock c.socks
    objs := without c.objs p.refs
    log := c.log ++ (if p.isEstablished then [.disestablished p.id] else []) }

theorem wp_resetPeer {c : Ctx} (hs : Sorted c.peers) (hk : SocksOk c.peers c.socks c.nextSock)
    (hr : RefsOk c.peers c.objs c.nextObj) (hht : HtOk (fun _ => true) c.peers c.ht) {p : Peer} (hp : p ∈ c.peers)
    (ho : p.old.mstate.isSome = true → p.old.method.isSome = true)
    (hse : p.sess.mstate.isSome = true → p.sess.method.isSome = true) {Q : Unit → Ctx → Prop}
    (hQ : ∀ ht, HtOk (fun _ => true) (updPeers c.peers p.id fun _ => resetF p) ht → Q () (resetCtx c p ht)) :
    wp S (resetPeer p.id) Q c := by
  unfold resetPeer
  rw [wp_bind, wp_getP hs hp, wp_bind]
  have hlog : wp S (when p.isEstablished (emit (.disestablished p.id)))
      (fun _ c' => c' = { c with log := c.log ++ (if p.isEstablished then [.disestablished p.id] else []) }) c := by
    refine wp_when (fun he => ?_) (fun he => ?_)
    · rw [wp_emit, he]; rfl
    · rw [he]; simp
  refine wp_mono hlog ?_
  rintro _ c1 e1
  rw [wp_bind]
  refine wp_freeSocket (by rw [e1]; exact hs) (by rw [e1]; exact hk) (by rw [e1]; exact hp) ?_
  refine wp_opaque fun c2 e2 => ?_
  have p2 : c2.peers = updPeers c.peers p.id fun _ => { p with sock := none } := by rw [e2, e1]
  have hs2 : Sorted c2.peers := by
    rw [p2]; refine sorted_updPeers hs ?_; intro q _ hq; exact hq.symm
  have hm2 : ({ p with sock := none } : Peer) ∈ c2.peers := by rw [p2]; exact mem_upd_self hp
  have hr2 : RefsOk c2.peers c2.objs c2.nextObj := by
    rw [p2, e2, e1]; exact hr.upd hs hp rfl
  rw [wp_bind]
  refine wp_resetPeerState (p := { p with sock := none }) hs2 hr2 hm2 ho hse ?_
  rw [wp_bind, wp_modify, wp_bind]
  refine wp_opaque fun c3 e3 => ?_
  have p3 : c3.peers = updPeers c.peers p.id fun _ => { p with sock := none, old := {}, sess := {} } := by
    rw [e3]
    simp only [p2]
    rw [updPeers_updPeers (by intro q _ hq; exact hq.symm)]
    rfl
  have hs3 : Sorted c3.peers := by
    rw [p3]; refine sorted_updPeers hs ?_; intro q _ hq; exact hq.symm
  have hm3 : ({ p with sock := none, old := {}, sess := {} } : Peer) ∈ c3.peers := by rw [p3]; exact mem_upd_self hp
  refine (wp_modP (p := { p with sock := none, old := {}, sess := {} }) (by exact hs3) (by exact hm3) rfl).2 ?_
  rw [wp_bind]
  refine wp_opaque fun c4 e4 => ?_
  have p4 : c4.peers = updPeers c.peers p.id fun _ => { p with sock := none, old := {}, sess := {}, task := none } := by
    rw [e4]
    simp only [p3]
    rw [updPeers_updPeers (by intro q _ hq; exact hq.symm)]
    rfl
  have hs4 : Sorted c4.peers := by
    rw [p4]; refine sorted_updPeers hs ?_; intro q _ hq; exact hq.symm
  have hm4 : ({ p with sock := none, old := {}, sess := {}, task := none } : Peer) ∈ c4.peers := by
    rw [p4]; exact mem_upd_self hp
  have ht4 : HtOk (fun _ => true) c4.peers c4.ht := by
    rw [p4, e4, e3, e2, e1]; exact hht.upd hs hp rfl rfl
  refine wp_mono (wp_htRemove (p := { p with sock := none, old := {}, sess := {}, task := none }) hs4 hm4 ht4) ?_
  rintro _ c5 ⟨e5, ht5⟩
  have p5 : c5.peers = c4.peers := by rw [e5]
  rw [wp_bind]
  refine (wp_modP (p := { p with sock := none, old := {}, sess := {}, task := none }) (by rw [p5]; exact hs4)
    (by rw [p5]; exact hm4) rfl).2 ?_
  have hs6 : Sorted (updPeers c5.peers p.id fun p => { p with addr := .unspec 0, localAddr := .unspec 0, state := .inactive }) := by
    refine sorted_updPeers (by rw [p5]; exact hs4) ?_; intros; rfl
  refine (wp_modP (p := { p with sock := none, old := {}, sess := {}, task := none, addr := .unspec 0, localAddr := .unspec 0, state := .inactive })
    hs6 (by rw [p5]; exact mem_updPeers_self' hm4 rfl) rfl).2 ?_
  have hfin : (updPeers (updPeers c5.peers p.id fun p => { p with addr := .unspec 0, localAddr := .unspec 0, state := .inactive })
      p.id fun p => { p with iface := if !Env.ifacePersist || p.cfg = .disabled || p.isDynamic then none else p.iface }) =
      updPeers c.peers p.id fun _ => resetF p := by
    rw [p5, p4, updPeers_updPeers (by intros; rfl), updPeers_updPeers (by intro q _ hq; exact hq.symm)]
    rfl
  have := hQ c5.ht (by
    refine HtOk.full (i := p.id) ?_ ?_
    · rw [← hfin]
      refine HtOk.other (HtOk.other ?_ ?_) ?_
      · rw [p5]; exact ht5
      · intro q _ hq; exact hq
      · intro q _ hq; exact hq
    · intro q hq hi
      rcases mem_upd hq with rfl | ⟨_, hne⟩
      · rfl
      · exact absurd hi hne)
  have hctx : resetCtx c p c5.ht = { c5 with peers := updPeers (updPeers c5.peers p.id fun p => { p with addr := .unspec 0, localAddr := .unspec 0, state := .inactive }) p.id fun p => { p with iface := if !Env.ifacePersist || p.cfg = .disabled || p.isDynamic then none else p.iface } } := by
    rw [hfin]
    apply Ctx.ext <;> simp only [resetCtx] <;> rw [e5] <;> simp only [] <;> rw [e4] <;> simp only [] <;> rw [e3] <;>
      simp only [] <;> rw [e2] <;> simp only [] <;> rw [e1]
    · exact (ethCompact_eq _ _).symm
    · rfl
  rw [hctx] at this
  exact this

theorem resetF_refs (p : Peer) : (resetF p).refs = [] := rfl

theorem resetF_ok {p : Peer} (h : PeerOk S (x p.id) p) (v : Prop) : PeerOk S v (resetF p) where
  inact := fun _ => ⟨rfl, rfl, rfl⟩
  idle := fun _ _ => ⟨rfl, rfl⟩
  est := fun _ h => nomatch h
  sock := fun _ _ h => nomatch h
  oldM := rfl
  sessM := fun h => nomatch h
  rem := fun h => absurd rfl h
  addrs := h.addrs
  hs := fun _ _ _ h => absurd rfl h
  dynr := fun hd => ⟨(h.dynr hd).1, fun _ h => nomatch h⟩
  key := h.key
  ifc := fun _ h => absurd rfl h

theorem EthOk.purge {ps : List Peer} {es : List Eth} (h : EthOk ps es) {p q : Peer} :
    EthOk (updPeers ps p.id fun _ => q) (es.filter fun e => !decide (e.peer = some p.id)) := by
  refine ⟨h.sorted.filter _, fun e hm i hi => ?_⟩
  rw [List.mem_filter] at hm
  obtain ⟨r, hr, hri, hre⟩ := h.peer e hm.1 i hi
  refine ⟨r, mem_updPeers_other hr ?_, hri, hre⟩
  intro he
  simp [hi, ← hri, he] at hm

theorem Inv.reset {x' y' z' : Nat → Prop} {c : Ctx} (h : Inv S x y z c) {p : Peer} (hp : p ∈ c.peers) {ht : HT}
    (hht : HtOk (fun _ => true) (updPeers c.peers p.id fun _ => resetF p) ht)
    (hx : ∀ i, i ≠ p.id → x i → x' i) (hy : ∀ i, i ≠ p.id → y i → y' i) (hyp : y' p.id)
    (hz : ∀ i, i ≠ p.id → z i → z' i) : Inv S x' y' z' (resetCtx c p ht) := by
  refine h.upd hp rfl rfl rfl rfl rfl (Nat.le_refl _) rfl rfl rfl rfl rfl ?_ hx hy hz hht
    (h.uniq.upd hp rfl (.inr rfl)) (h.socks.drop hp rfl fun _ h => nomatch h) (h.refs.remove h.ids hp (resetF_refs p))
    h.eth.purge (h.limits.upd h.ids hp rfl fun h => nomatch h) (resetF_ok (h.peer p hp) _)
    (fun hn => absurd hyp hn) (fun h => nomatch h) fun _ h => absurd rfl h
  show sessLog (c.log ++ _) = _
  rw [sessLog_append]
  split <;> simp [sessLog, Eff.sess]

theorem resetCtx_fr {t a : Nat → Prop} {E : Eff → Prop} {c : Ctx} (hs : Sorted c.peers)
    (hr : RefsOk c.peers c.objs c.nextObj) {p : Peer} (hp : p ∈ c.peers) {ht : HT} (htp : t p.id)
    (hE : E (.disestablished p.id)) : Fr t a E c (resetCtx c p ht) := by
  refine ⟨rfl, rfl, Nat.le_refl _, forall₂_updPeers (fun r hr hi => ?_) fun _ _ _ => PFr.refl, ?_, _, rfl, ?_⟩
  · rw [sorted_inj hs hr hp hi]
    exact ⟨rfl, fun h => absurd htp h, (fun h => nomatch h), .inl rfl⟩
  · intro q hq hnt k hk
    show without c.objs p.refs k = _
    unfold without
    rw [if_neg]
    refine refs_disjoint hs hr.nodup hq hp ?_ hk
    intro he
    exact hnt (by rw [he]; exact htp)
  · split
    · intro e he
      rw [List.mem_singleton] at he
      rw [he]; exact hE
    · simp

/-! ### Functions that change one peer only -/

/-- From `c` to `c'`, the peer `p` has become `q`, requests to resolve names were added and outcomes were drawn. -/
structure One (p : Peer) (c c' : Ctx) (q : Peer) (r : List (Nat × Nat)) : Prop where
  sorted : Sorted c.peers
  mem : p ∈ c.peers
  id : q.id = p.id
  eq : ∃ n, c' = { c with peers := updPeers c.peers p.id fun _ => q, resolves := c.resolves ++ r, pos := n }

theorem One.refl {p : Peer} {c : Ctx} (hs : Sorted c.peers) (hp : p ∈ c.peers) : One p c c p [] :=
  ⟨hs, hp, rfl, c.pos, by rw [updPeers_self hs hp, List.append_nil]⟩

theorem One.peers {p q : Peer} {c c' : Ctx} {r : List (Nat × Nat)} (h : One p c c' q r) :
    c'.peers = updPeers c.peers p.id fun _ => q := by
  obtain ⟨n, e⟩ := h.eq
  rw [e]

theorem One.sorted' {p q : Peer} {c c' : Ctx} {r : List (Nat × Nat)} (h : One p c c' q r) : Sorted c'.peers := by
  rw [h.peers]
  refine sorted_updPeers h.sorted ?_
  intro s _ hs
  rw [hs]
  exact h.id

theorem One.mem' {p q : Peer} {c c' : Ctx} {r : List (Nat × Nat)} (h : One p c c' q r) : q ∈ c'.peers := by
  rw [h.peers]
  exact mem_upd_self h.mem

theorem One.now {p q : Peer} {c c' : Ctx} {r : List (Nat × Nat)} (h : One p c c' q r) : c'.now = c.now := by
  obtain ⟨n, e⟩ := h.eq
  rw [e]

theorem One.set {p q q' : Peer} {c c' : Ctx} {r : List (Nat × Nat)} (h : One p c c' q r) (hq : q'.id = q.id) :
    One p c { c' with peers := updPeers c'.peers p.id fun _ => q' } q' r := by
  refine ⟨h.sorted, h.mem, hq.trans h.id, ?_⟩
  obtain ⟨n, e⟩ := h.eq
  refine ⟨n, ?_⟩
  rw [e]
  simp only []
  rw [updPeers_updPeers]
  · rfl
  · intro s _ hs
    rw [hs]
    exact h.id

theorem One.draw {p q : Peer} {c c' : Ctx} {r : List (Nat × Nat)} (h : One p c c' q r) (n : Nat) :
    One p c { c' with pos := n } q r := by
  refine ⟨h.sorted, h.mem, h.id, ?_⟩
  obtain ⟨m, e⟩ := h.eq
  exact ⟨n, by rw [e]⟩

theorem One.resolve {p q : Peer} {c c' : Ctx} {r : List (Nat × Nat)} (h : One p c c' q r) (v : Nat × Nat) :
    One p c { c' with resolves := c'.resolves ++ [v] } q (r ++ [v]) := by
  refine ⟨h.sorted, h.mem, h.id, ?_⟩
  obtain ⟨m, e⟩ := h.eq
  exact ⟨m, by rw [e]; simp only [List.append_assoc]⟩

theorem One.trans {p q q' : Peer} {c c' c'' : Ctx} {r r' : List (Nat × Nat)} (h : One p c c' q r)
    (h' : One q c' c'' q' r') : One p c c'' q' (r ++ r') := by
  refine ⟨h.sorted, h.mem, h'.id.trans h.id, ?_⟩
  obtain ⟨n, e⟩ := h.eq
  obtain ⟨n', e'⟩ := h'.eq
  refine ⟨n', ?_⟩
  rw [e', e]
  simp only [h.id, List.append_assoc]
  rw [updPeers_updPeers]
  · rfl
  · intro s _ hs
    rw [hs]
    exact h.id

theorem One.wp_getP {p q : Peer} {c c' : Ctx} {r : List (Nat × Nat)} (h : One p c c' q r) {i : Nat} (hi : i = p.id)
    {Q : Peer → Ctx → Prop} : wp S (getP i) Q c' ↔ Q q c' :=
  wp_getP' h.sorted' h.mem' (by rw [hi]; exact h.id)

theorem One.wp_modP {p q : Peer} {c c' : Ctx} {r : List (Nat × Nat)} (h : One p c c' q r) {i : Nat} (hi : i = p.id)
    {f : Peer → Peer} (hf : (f q).id = q.id) {Q : Unit → Ctx → Prop} (hQ : ∀ c'', One p c c'' (f q) r → Q () c'') :
    wp S (modP i f) Q c' := by
  subst hi
  rw [← h.id]
  rw [Daemon.wp_modP h.sorted' h.mem' rfl, updPeers_const h.sorted' h.mem']
  have := h.set (q' := f q) hf
  rw [← h.id] at this
  exact hQ _ this

/-! ### `setup_peer` -/

/-- A peer that has been set up: nothing is left of a previous connection. -/
structure Fresh (now : Time) (p q : Peer) : Prop where
  stat : q.stat = p.stat
  serial : q.lastSerial = p.lastSerial
  cache : q.cache = p.cache
  name : q.name = p.name
  addr : q.addr = p.addr
  sock : q.sock = p.sock
  old : q.old = p.old
  sess : q.sess = p.sess
  est : q.state ≠ .established
  act : q.state = .inactive ↔ q.isEnabled = false
  task : q.state = .inactive → q.task = p.task
  keepalive : q.keepalive = timeoutInv
  reset : q.resetTimeout = if p.isDynamic then now else timeoutInv
  nextHs : q.nextHs ≤ timeoutInv ∨ q.nextHs ≤ now + 100000
  noHs : q.remotes = [] → q.nextHs = timeoutInv
  addrs : ∀ s ∈ q.remotes, (∃ r ∈ p.remotes, s.hostname = r.hostname ∧ s.address = r.address ∧
    s.addrs = if r.hostname = none then [r.address] else r.addrs)
  next : ∀ k, q.nextRemote = some k → k = 0 ∧ ∃ r, q.remotes[0]? = some r ∧ (q.state ≠ .inactive → r.cur = 0)
  verify : q.verifyTimeout = now ∧ q.verifyValid = now
  ifc : Env.sharedIface = true → q.state ≠ .inactive → q.iface ≠ none

theorem Fresh.scheduled {now : Time} {p q : Peer} (h : Fresh now p q) (hs : q.state ≠ .inactive) :
    Fresh now p (scheduled q) := by
  rw [scheduled_eq]
  exact { h with task := fun hi => absurd hi hs }

theorem setupFields_stat (now : Time) (p : Peer) : (setupFields now p).stat = p.stat := by
  simp only [Peer.stat, setupFields, List.map_map]
  congr

theorem setupFields_fresh {now : Time} {p : Peer} (hi : p.state = .inactive) (he : p.isEnabled = false) :
    Fresh now p (setupFields now p) where
  stat := setupFields_stat now p
  serial := rfl
  cache := rfl
  name := rfl
  addr := rfl
  sock := rfl
  old := rfl
  sess := rfl
  est := by show p.state ≠ _; rw [hi]; decide
  act := ⟨fun _ => he, fun _ => hi⟩
  task := fun _ => rfl
  keepalive := rfl
  reset := rfl
  nextHs := .inl (Int.le_refl _)
  noHs := fun _ => rfl
  addrs := by
    intro s hs
    obtain ⟨r, hr, e⟩ := List.mem_map.1 hs
    exact ⟨r, hr, by rw [← e]; exact ⟨rfl, rfl, rfl⟩⟩
  next := by
    intro k hk
    have hne : p.remotes ≠ [] := by intro h; simp [setupFields, h] at hk
    simp only [setupFields, hne, if_false, Option.some.injEq] at hk
    refine ⟨hk.symm, ?_⟩
    obtain ⟨r, rs, hr⟩ := List.exists_cons_of_ne_nil hne
    refine ⟨setupRemote now r, by simp [setupFields, hr], fun h => absurd hi h⟩
  verify := ⟨rfl, rfl⟩
  ifc := fun _ h => absurd hi h

theorem fresh_of {now : Time} {p : Peer} {f : Option Iface} {l : List Remote} {st : PState} {nh : Time}
    (hl : l.map (fun r => (r.hostname, r.address)) = p.remotes.map fun r => (r.hostname, r.address))
    (hen : p.isEnabled = true) (h1 : st ≠ .established) (h2 : st ≠ .inactive) (hnh : nh ≤ timeoutInv ∨ nh ≤ now + 100000)
    (hno : l = [] → nh = timeoutInv) (haddrs : ∀ s ∈ l, (∃ r ∈ p.remotes, s.hostname = r.hostname ∧
      s.address = r.address ∧ s.addrs = if r.hostname = none then [r.address] else r.addrs))
    (hnext : p.remotes = [] ∨ ∃ r, l[0]? = some r ∧ r.cur = 0) (hif : Env.sharedIface = true → f ≠ none) :
    Fresh now p { setupFields now p with iface := f, remotes := l, state := st, nextHs := nh } := by
  constructor
  · simp only [Peer.stat, hl]
    rfl
  · rfl
  · rfl
  · rfl
  · rfl
  · rfl
  · rfl
  · rfl
  · exact h1
  · exact ⟨fun h => absurd h h2, fun h => absurd (hen.symm.trans h) (by decide)⟩
  · exact fun h => absurd h h2
  · rfl
  · rfl
  · exact hnh
  · exact hno
  · exact haddrs
  · intro k hk
    have hk' : (if p.remotes = [] then none else some 0) = some k := hk
    rcases hnext with h | ⟨r, hr, hc⟩
    · rw [if_pos h] at hk'; cases hk'
    · by_cases h : p.remotes = []
      · rw [if_pos h] at hk'; cases hk'
      · rw [if_neg h, Option.some.injEq] at hk'
        exact ⟨hk'.symm, r, hr, fun _ => hc⟩
  · exact ⟨rfl, rfl⟩
  · exact fun hs _ => hif hs

theorem wp_setupIface {p q : Peer} {c c' : Ctx} {r : List (Nat × Nat)} (h : One p c c' q r)
    {Q : Unit → Ctx → Prop} (hQ : ∀ c'' f, (Env.sharedIface = true → f ≠ none) → One p c c'' { q with iface := f } r → Q () c'') :
    wp S (setupIface p.id) Q c' := by
  unfold setupIface
  rw [wp_bind, h.wp_getP rfl]
  refine wp_ite (fun _ => ?_) (fun hns => wp_ite (fun _ => ?_) (fun _ => ?_))
  · exact h.wp_modP rfl rfl fun c'' h' => hQ c'' _ (fun _ => by simp) h'
  · rw [wp_bind, wp_draw]
    have h' := h.draw (c'.pos + 1)
    refine wp_ite (fun _ => ?_) (fun _ => wp_ite (fun _ => wp_exit.2 fun hc => hns hc.1) (fun _ => ?_))
    · exact h'.wp_modP rfl rfl fun c'' h' => hQ c'' _ (fun hs => absurd hs hns) h'
    · exact hQ _ q.iface (fun hs => absurd hs hns) h'
  · exact hQ _ q.iface (fun hs => absurd hs hns) h

theorem wp_getR {p q : Peer} {c c' : Ctx} {r : List (Nat × Nat)} (h : One p c c' q r) {k : Nat} {s : Remote}
    (hk : q.remotes[k]? = some s) {Q : Remote → Ctx → Prop} : wp S (getR p.id k) Q c' ↔ Q s c' := by
  unfold getR
  rw [wp_bind, h.wp_getP rfl, hk]
  rfl

theorem wp_modR {p q : Peer} {c c' : Ctx} {r : List (Nat × Nat)} (h : One p c c' q r) {k : Nat} {s : Remote}
    (hk : q.remotes[k]? = some s) {f : Remote → Remote} {Q : Unit → Ctx → Prop}
    (hQ : ∀ c'', One p c c'' { q with remotes := q.remotes.modify k f } r → Q () c'') :
    wp S (modR p.id k f) Q c' := by
  unfold modR
  rw [wp_bind, wp_getR h hk]
  exact h.wp_modP rfl rfl hQ

theorem modify_zero {α : Type} {l : List α} {a : α} (h : l[0]? = some a) (f : α → α) :
    (l.modify 0 f)[0]? = some (f a) ∧ l.modify 0 f ≠ [] ∧ ∀ b ∈ l.modify 0 f, b = f a ∨ b ∈ l := by
  cases l with
  | nil => cases h
  | cons c cs =>
    simp only [List.getElem?_cons_zero, Option.some.injEq] at h
    subst h
    simp only [List.modify_zero_cons, List.getElem?_cons_zero, ne_eq, reduceCtorEq, not_false_eq_true, true_and,
      List.mem_cons]
    intro b hb
    exact hb.imp_right .inr

/-- Keeping the first remote but for its state of resolution. -/
theorem map_modify {γ : Type} {l : List Remote} {k : Nat} {f : Remote → Remote} {g : Remote → γ}
    (h : ∀ r, g (f r) = g r) : (l.modify k f).map g = l.map g := by
  induction l generalizing k with
  | nil => cases k <;> rfl
  | cons a as ih =>
    cases k with
    | zero => simp [h]
    | succ k => simp [ih]

/-- Requests for names of remotes of a peer. -/
def ReqOk (p : Peer) (r : List (Nat × Nat)) : Prop :=
  ∀ v ∈ r, v.1 = p.id ∧ p.isDynamic = false ∧ v.2 < p.remotes.length

theorem wp_resolvePeer {p q : Peer} {c c' : Ctx} {r : List (Nat × Nat)} (h : One p c c' q r) {k : Nat} {s : Remote}
    (hk : q.remotes[k]? = some s) (hd : q.isDynamic = false) {Q : Unit → Ctx → Prop}
    (hQ : ∀ c'' r' t, (r' = [] ∨ r' = [(p.id, k)]) →
      One p c c'' { q with remotes := q.remotes.modify k fun r => { r with lastResolve := t } } (r ++ r') → Q () c'') :
    wp S (resolvePeer p.id k) Q c' := by
  unfold resolvePeer
  rw [wp_bind, h.wp_getP rfl, hd]
  simp only [Bool.false_eq_true, if_false]
  rw [wp_bind, wp_getR h hk, wp_bind, wp_get]
  refine wp_ite (fun _ => ?_) (fun _ => ?_)
  · refine hQ c' [] s.lastResolve (.inl rfl) ?_
    have : q.remotes.modify k (fun r => { r with lastResolve := s.lastResolve }) = q.remotes := by
      apply List.ext_getElem?
      intro j
      rw [List.getElem?_modify]
      split
      · subst_vars
        rw [hk]; rfl
      · simp
    rw [this, List.append_nil]
    exact h
  · rw [wp_bind]
    refine wp_modR h hk fun c1 h1 => ?_
    rw [wp_bind, wp_drawBool]
    have h2 := h1.draw (c1.pos + 1)
    refine wp_when (fun _ => ?_) (fun _ => ?_)
    · rw [wp_modify]
      exact hQ _ [(p.id, k)] _ (.inr rfl) (h2.resolve _)
    · refine hQ _ [] (c'.now + MIN_RESOLVE_INTERVAL) (.inl rfl) ?_
      rw [List.append_nil]
      exact h2

theorem wp_schedulePeerTask_one {p q : Peer} {c c' : Ctx} {r : List (Nat × Nat)} (h : One p c c' q r)
    {Q : Unit → Ctx → Prop} (hQ : ∀ c'', One p c c'' (scheduled q) r → Q () c'') :
    wp S (schedulePeerTask p.id) Q c' := by
  unfold schedulePeerTask
  refine h.wp_modP (f := scheduled) rfl ?_ hQ
  rw [scheduled_eq]

theorem wp_initHandshake_one {p q : Peer} {c c' : Ctx} {r : List (Nat × Nat)} (h : One p c c' q r)
    {Q : Unit → Ctx → Prop} (hQ : ∀ c'' d, 0 ≤ d → d ≤ 3000 →
      One p c c'' (scheduled { q with state := .handshake, nextHs := c.now + d }) r → Q () c'') :
    wp S (initHandshake p.id) Q c' := by
  unfold initHandshake
  rw [wp_bind, h.wp_getP rfl, wp_bind]
  have key : ∀ c2 d, 0 ≤ d → d ≤ 3000 → One p c c2 q r →
      wp S (do modP p.id fun p => { p with state := .handshake }; scheduleHandshake p.id d) Q c2 := by
    intro c2 d hd0 hd h2
    rw [wp_bind]
    refine h2.wp_modP rfl rfl fun c3 h3 => ?_
    unfold scheduleHandshake setNextHandshake
    rw [wp_bind, wp_bind, wp_get]
    refine h3.wp_modP rfl rfl fun c4 h4 => ?_
    refine wp_schedulePeerTask_one h4 fun c5 h5 => ?_
    rw [h3.now] at h5
    exact hQ c5 d hd0 hd h5
  unfold initDelay
  refine wp_ite (fun _ => ?_) (fun _ => ?_)
  · rw [wp_rand]
    have := rand_le (a := 0) (b := 3000) (by decide) (Env.tape c'.pos)
    exact key _ _ this.2 (Int.le_of_lt this.1) (h.draw _)
  · rw [wp_pure]
    exact key _ _ (by decide) (by decide) h

theorem wp_setNextHandshakeDefault_one {p q : Peer} {c c' : Ctx} {r : List (Nat × Nat)} (h : One p c c' q r)
    {Q : Unit → Ctx → Prop} (hQ : ∀ c'' d, 17500 ≤ d → d ≤ 22500 →
      One p c c'' { q with nextHs := c.now + d } r → Q () c'') :
    wp S (setNextHandshakeDefault p.id) Q c' := by
  unfold setNextHandshakeDefault
  rw [wp_bind]
  refine wp_handshakeDefaultRand fun d hd hd' => ?_
  have h1 := h.draw (c'.pos + 1)
  unfold setNextHandshake
  rw [wp_bind, wp_get]
  refine h1.wp_modP rfl rfl fun c2 h2 => ?_
  rw [h1.now] at h2
  exact hQ _ d hd' hd h2

theorem wp_setupPeer {c : Ctx} (hs : Sorted c.peers) {p : Peer} (hp : p ∈ c.peers) (hi : p.state = .inactive)
    (hd : p.isDynamic = true → p.remotes = []) {Q : Unit → Ctx → Prop}
    (hQ : ∀ c' q r, One p c c' q r → Fresh c.now p q → ReqOk p r → (Sched q) →
      Q () c') : wp S (setupPeer p.id) Q c := by
  have h0 := One.refl hs hp
  unfold setupPeer
  rw [wp_bind, wp_get, wp_bind]
  refine h0.wp_modP rfl rfl fun c1 h1 => ?_
  rw [wp_bind, h1.wp_getP rfl]
  refine wp_ite (fun hen => ?_) (fun hen => ?_)
  · refine hQ c1 _ _ h1 (setupFields_fresh hi ?_) (by simp [ReqOk]) fun hst => absurd hi hst
    have : (!p.isEnabled) = true := hen
    simpa using this
  have hen' : p.isEnabled = true := by
    have : ¬ (!p.isEnabled) = true := hen
    simpa using this
  rw [wp_bind]
  refine wp_setupIface h1 fun c2 f hif h2 => ?_
  rw [wp_bind]
  -- scheduling at the end
  have last : ∀ c3 q r, One p c c3 q r → Fresh c.now p q → q.state ≠ .inactive → ReqOk p r →
      wp S (schedulePeerTask p.id) Q c3 := by
    intro c3 q r h3 hf hst hr
    refine wp_schedulePeerTask_one h3 fun c4 h4 => ?_
    refine hQ c4 _ _ h4 (hf.scheduled hst) hr (scheduled_sched q)
  have hbase : (setupFields c.now p).remotes.map (fun r => (r.hostname, r.address)) =
      p.remotes.map fun r => (r.hostname, r.address) := by
    simp only [setupFields, List.map_map]
    rfl
  have haddrs : ∀ s ∈ (setupFields c.now p).remotes, ∃ r ∈ p.remotes, s.hostname = r.hostname ∧
      s.address = r.address ∧ s.addrs = if r.hostname = none then [r.address] else r.addrs := by
    intro s hs
    obtain ⟨r, hr, e⟩ := List.mem_map.1 hs
    exact ⟨r, hr, by rw [← e]; exact ⟨rfl, rfl, rfl⟩⟩
  unfold setupConnect
  rw [wp_bind, h2.wp_getP rfl]
  by_cases hrem : p.remotes = []
  · have hn : (setupFields c.now p).nextRemote = none := by simp [setupFields, hrem]
    simp only [hn]
    refine h2.wp_modP rfl rfl fun c3 h3 => ?_
    refine last c3 _ _ h3 ?_ (by simp) (by simp [ReqOk])
    exact fresh_of hbase hen' (by simp) (by simp) (.inl (Int.le_refl _)) (fun _ => rfl) haddrs (.inl hrem) hif
  · have hn : (setupFields c.now p).nextRemote = some 0 := by simp [setupFields, hrem]
    simp only [hn]
    obtain ⟨r0, rs, hr0⟩ := List.exists_cons_of_ne_nil hrem
    have hdy : p.isDynamic = false := by
      cases h : p.isDynamic with
      | false => rfl
      | true => exact absurd (hd h) hrem
    have hget : (setupFields c.now p).remotes[0]? = some (setupRemote c.now r0) := by simp [setupFields, hr0]
    rw [wp_bind]
    refine wp_modR h2 hget fun c3 h3 => ?_
    obtain ⟨hg, hne, hmem⟩ := modify_zero hget fun r => { r with cur := 0 }
    rw [wp_bind, wp_getR h3 hg]
    have haddrs1 : ∀ s ∈ (setupFields c.now p).remotes.modify 0 (fun r => { r with cur := 0 }), ∃ r ∈ p.remotes,
        s.hostname = r.hostname ∧ s.address = r.address ∧
        s.addrs = if r.hostname = none then [r.address] else r.addrs := by
      intro s hs
      rcases hmem s hs with e | hs'
      · obtain ⟨r, hr, h1, h2, h3⟩ := haddrs _ (List.mem_of_getElem? hget)
        rw [e]
        exact ⟨r, hr, h1, h2, h3⟩
      · exact haddrs s hs'
    have hl1 : ((setupFields c.now p).remotes.modify 0 fun r => { r with cur := 0 }).map
        (fun r => (r.hostname, r.address)) = p.remotes.map fun r => (r.hostname, r.address) := by
      rw [map_modify (by intros; rfl), hbase]
    refine wp_ite (fun _ => ?_) (fun _ => ?_)
    · rw [wp_bind]
      refine h3.wp_modP rfl rfl fun c4 h4 => ?_
      rw [wp_bind]
      refine wp_resolvePeer h4 hg hdy fun c5 r' t hr' h5 => ?_
      refine wp_setNextHandshakeDefault_one h5 fun c6 d hd1 hd2 h6 => ?_
      obtain ⟨hg5, hne5, hmem5⟩ := modify_zero hg fun r => { r with lastResolve := t }
      refine last c6 _ _ h6 ?_ (by simp) ?_
      · refine fresh_of ?_ hen' (by simp) (by simp) (.inr (by omega)) (fun h => absurd h hne5) ?_
          (.inr ⟨_, hg5, rfl⟩) hif
        · rw [← hl1]
          exact map_modify (by intros; rfl)
        · intro s hs
          rcases hmem5 s hs with e | hs'
          · obtain ⟨r, hr, h1, h2, h3⟩ := haddrs1 _ (List.mem_of_getElem? hg)
            rw [e]
            exact ⟨r, hr, h1, h2, h3⟩
          · exact haddrs1 s hs'
      · intro v hv
        rcases hr' with rfl | rfl
        · simp at hv
        · simp only [List.nil_append, List.mem_singleton] at hv
          subst hv
          exact ⟨rfl, hdy, by rw [hr0]; simp⟩
    · refine wp_initHandshake_one h3 fun c4 d hd0 hd1 h4 => ?_
      refine last c4 _ _ h4 (Fresh.scheduled ?_ (by simp)) ?_ (by simp [ReqOk])
      · exact fresh_of hl1 hen' (by simp) (by simp) (.inr (by omega)) (fun h => absurd h hne) haddrs1
          (.inr ⟨_, hg, rfl⟩) hif
      · rw [scheduled_eq]
        simp

theorem Inv.addResolves {c : Ctx} (h : Inv S x y z c) {p : Peer} (hp : p ∈ c.peers) {r : List (Nat × Nat)}
    (hr : ReqOk p r) : Inv S x y z { c with resolves := c.resolves ++ r } :=
  { h with
    resolves := fun v hv => by
      rcases List.mem_append.1 hv with hv | hv
      · exact h.resolves v hv
      · obtain ⟨h1, h2, h3⟩ := hr v hv
        refine ⟨by rw [h1]; exact h.idlt p hp, fun q hq hi => ?_⟩
        rw [h.inj hq hp (hi.trans h1)]
        exact ⟨h2, h3⟩ }

theorem Fresh.ok {now : Time} {p q : Peer} {u v : Prop} (h : Fresh now p q) (hk : PeerOk S u p) (ha : p.addr.isSet = false)
    (hs : p.sock = none) (ho : p.old = {}) (hse : p.sess = {}) (ht : p.task = none) : PeerOk S v q where
  inact := fun hi => ⟨by rw [h.addr]; exact ha, by rw [h.sock]; exact hs, by rw [h.task hi]; exact ht⟩
  idle := fun _ _ => ⟨h.old.trans ho, h.sess.trans hse⟩
  est := fun _ he => absurd he h.est
  sock := fun _ _ he => absurd he h.est
  oldM := by rw [h.old, ho]
  sessM := by rw [h.sess, hse]; exact fun h => nomatch h
  rem := fun hst k hk => by
    obtain ⟨rfl, r, hr, hc⟩ := h.next k hk
    refine ⟨r, hr, ?_⟩
    rw [hc hst]
    cases r.addrs with
    | nil => exact .inr rfl
    | cons a as => exact .inl (Nat.succ_pos _)
  addrs := fun s hs => by
    obtain ⟨r, hr, h1, h2, h3⟩ := h.addrs s hs
    obtain ⟨h4, h5⟩ := hk.addrs r hr
    refine ⟨fun a ha => ?_, fun hn => by rw [h2]; exact h5 (by rw [← h1]; exact hn)⟩
    rw [h3] at ha
    split at ha
    · rename_i hn
      rw [List.mem_singleton] at ha
      rw [ha]; exact h5 hn
    · exact h4 a ha
  hs := fun _ hr _ _ => h.noHs hr
  dynr := fun hd => by
    have hd' : p.isDynamic = true := by
      unfold Peer.isDynamic at hd ⊢
      rw [← stat_cfg h.stat]; exact hd
    refine ⟨?_, fun n hn => ?_⟩
    · have := stat_len h.stat
      rw [(hk.dynr hd').1] at this
      exact List.length_eq_zero_iff.1 this
    · rw [h.sock, hs] at hn
      cases hn
  key := by rw [stat_key h.stat]; exact hk.key
  ifc := h.ifc

theorem Inv.setup {x' y' z' : Nat → Prop} {c c' : Ctx} (h : Inv S x y z c) {p q : Peer} {r : List (Nat × Nat)}
    (h1 : One p c c' q r) (hf : Fresh c.now p q) (hr : ReqOk p r) (hsc : Sched q)
    (hi : p.state = .inactive) (ho : p.old = {}) (hse : p.sess = {})
    (hx : ∀ i, i ≠ p.id → x i → x' i) (hy : ∀ i, i ≠ p.id → y i → y' i)
    (hz : ∀ i, i ≠ p.id → z i → z' i) : Inv S x' y' z' c' := by
  have hp := h1.mem
  have hk := h.peer p hp
  obtain ⟨ha, hsk, ht⟩ := hk.inact hi
  obtain ⟨n, e⟩ := h1.eq
  have hid := h1.id
  have h2 : Inv S x' y' z' { c with peers := updPeers c.peers p.id fun _ => q } := by
    refine h.upd hp rfl hid (stat_key hf.stat) (by unfold Peer.isDynamic; rw [stat_cfg hf.stat]) (stat_len hf.stat)
      (Nat.le_of_eq hf.serial.symm) rfl rfl rfl rfl rfl rfl hx hy hz (h.ht.upd h.ids hp hid hf.addr)
      (h.uniq.upd hp hid (.inl hf.addr)) (h.socks.upd hp hid hf.sock)
      (h.refs.upd h.ids hp (by unfold Peer.refs; rw [hf.old, hf.sess])) (h.eth.upd h.ids hp hid ?_)
      (h.limits.upd h.ids hp (stat_group hf.stat) fun he => absurd he hf.est) (hf.ok hk ha hsk ho hse ht)
      (fun _ => hf.act) (fun he => absurd he hf.est) (fun _ => hsc) (.inl hf.cache)
    intro he
    rw [hi] at he
    cases he
  have h3 := (h2.addResolves (r := r) (p := q) (mem_upd_self hp) (by
    intro v hv
    obtain ⟨a1, a2, a3⟩ := hr v hv
    refine ⟨a1.trans hid.symm, ?_, ?_⟩
    · unfold Peer.isDynamic at a2 ⊢
      rw [stat_cfg hf.stat]; exact a2
    · rw [stat_len hf.stat]; exact a3)).pos n
  rw [e]
  exact h3

theorem One.fr {t a : Nat → Prop} {E : Eff → Prop} {p q : Peer} {c c' : Ctx} {r : List (Nat × Nat)}
    (h : One p c c' q r) (hq : PFr t a p q) : Fr t a E c c' := by
  obtain ⟨n, e⟩ := h.eq
  rw [e]
  refine ⟨rfl, rfl, Nat.le_refl _, forall₂_updPeers (fun r hr hi => ?_) fun _ _ _ => PFr.refl, fun _ _ _ _ _ => rfl, [],
    (List.append_nil _).symm, by simp⟩
  rw [sorted_inj h.sorted hr h.mem hi]
  exact hq

/-! ### `fastd_peer_reset` -/

/-- What a reset leaves of a peer. -/
structure Cleared (now : Time) (p q : Peer) : Prop where
  stat : q.stat = p.stat
  serial : q.lastSerial = p.lastSerial
  cache : q.cache = p.cache
  name : q.name = p.name
  addr : q.addr.isSet = false
  sock : q.sock = none
  old : q.old = {}
  sess : q.sess = {}
  est : q.state ≠ .established
  act : q.state = .inactive ↔ q.isEnabled = false
  keepalive : q.keepalive = timeoutInv
  reset : q.resetTimeout = if p.isDynamic then now else timeoutInv
  noHs : q.remotes = [] → q.nextHs = timeoutInv
  verify : q.verifyTimeout = now ∧ q.verifyValid = now

/-- What a reset of a peer does to the state. -/
def ResetTo (p q : Peer) (c c' : Ctx) : Prop :=
  ∃ ht r n, c' = { c with
    peers := updPeers c.peers p.id fun _ => q
    ht := ht
    eth := c.eth.filter fun e => !decide (e.peer = some p.id)
    socks := dropSock p.sock c.socks
    objs := without c.objs p.refs
    log := c.log ++ (if p.isEstablished then [.disestablished p.id] else [])
    resolves := c.resolves ++ r
    pos := n }

theorem wp_peerReset {x' y' z' : Nat → Prop} {c : Ctx} (h : Inv S x y z c) {p : Peer} (hp : p ∈ c.peers) {i : Nat}
    (hi : p.id = i) (hxi : p.state = .inactive → ¬ x i) (hx : ∀ j, j ≠ i → x j → x' j) (hy : ∀ j, j ≠ i → y j → y' j)
    (hz : ∀ j, j ≠ i → z j → z' j) {Q : Unit → Ctx → Prop}
    (hQ : ∀ c' q, Inv S x' y' z' c' → q ∈ c'.peers → Cleared c.now p q → ResetTo p q c c' →
      (∀ E : Eff → Prop, E (.disestablished i) → Fr (· = i) nobody E c c') → Q () c') :
    wp S (peerReset i) Q c := by
  subst hi
  have hk := h.peer p hp
  unfold peerReset
  rw [wp_bind, wp_getP h.ids hp, wp_bind]
  refine wp_when (fun hst => ?_) (fun hst => ?_)
  · refine wp_resetPeer h.ids h.socks h.refs h.ht hp (by rw [hk.oldM]; exact id) hk.sessM fun ht hht => ?_
    have h1 : Inv S x' (fun j => y' j ∨ j = p.id) z' (resetCtx c p ht) :=
      h.reset hp hht hx (fun j hj hyj => .inl (hy j hj hyj)) (.inr rfl) hz
    refine wp_opaque fun c1 e1 => ?_
    rw [← e1] at h1
    have hm : resetF p ∈ c1.peers := by rw [e1]; exact mem_upd_self hp
    refine wp_setupPeer (p := resetF p) h1.ids hm rfl (fun hd => (hk.dynr hd).1) fun c2 q r h2 hf hr hsc => ?_
    have hnow : c1.now = c.now := by rw [e1]; rfl
    have hf1 : Fr (· = p.id) nobody (fun _ => True) c1 c2 :=
      h2.fr ⟨hf.stat, fun hn => absurd rfl hn, fun he => absurd he hf.est, .inl hf.serial⟩
    refine hQ c2 q (h1.setup h2 hf hr hsc rfl rfl rfl (fun _ _ => id) (fun j hj hyj => ?_) (fun _ _ => id)) h2.mem' ?_ ?_
      ?_
    · rcases hyj with h | h
      · exact h
      · exact absurd h hj
    · exact {
        stat := hf.stat, serial := hf.serial, cache := hf.cache, name := hf.name
        addr := by rw [hf.addr]; rfl
        sock := hf.sock, old := hf.old, sess := hf.sess, est := hf.est, act := hf.act, keepalive := hf.keepalive
        reset := by rw [← hnow]; exact hf.reset
        noHs := hf.noHs
        verify := by rw [← hnow]; exact hf.verify }
    · obtain ⟨n, e⟩ := h2.eq
      refine ⟨ht, r, n, ?_⟩
      rw [e, e1]
      simp only [resetCtx]
      have hid : (resetF p).id = p.id := rfl
      rw [hid, updPeers_updPeers]
      · rfl
      · intro s _ hs; rw [hs]; rfl
    · intro E hE
      refine (?_ : Fr _ _ E c c1).trans ?_
      · rw [e1]; exact resetCtx_fr h.ids h.refs hp rfl hE
      · exact h2.fr ⟨hf.stat, fun hn => absurd rfl hn, fun he => absurd he hf.est, .inl hf.serial⟩
  · have hin : p.state = .inactive := by simpa using hst
    obtain ⟨ha, hsk, ht⟩ := hk.inact hin
    obtain ⟨ho, hse⟩ := hk.idle (hxi hin) (by rw [hin]; decide)
    refine wp_setupPeer (p := p) h.ids hp hin (fun hd => (hk.dynr hd).1) fun c2 q r h2 hf hr hsc => ?_
    refine hQ c2 q (h.setup h2 hf hr hsc hin ho hse hx hy hz) h2.mem' ?_ ?_ ?_
    · exact {
        stat := hf.stat, serial := hf.serial, cache := hf.cache, name := hf.name
        addr := by rw [hf.addr]; exact ha
        sock := hf.sock.trans hsk, old := hf.old.trans ho, sess := hf.sess.trans hse, est := hf.est, act := hf.act
        keepalive := hf.keepalive, reset := hf.reset, noHs := hf.noHs, verify := hf.verify }
    · obtain ⟨n, e⟩ := h2.eq
      refine ⟨c.ht, r, n, ?_⟩
      have e1 : (c.eth.filter fun e => !decide (e.peer = some p.id)) = c.eth := by
        rw [List.filter_eq_self]
        intro e he
        simp only [Bool.not_eq_true', decide_eq_false_iff_not]
        intro hpe
        obtain ⟨s, hs, hsi, hst⟩ := h.eth.peer e he _ hpe
        rw [h.inj hs hp hsi, hin] at hst
        cases hst
      have e2 : p.refs = [] := by unfold Peer.refs; rw [ho, hse]; rfl
      have e3 : p.isEstablished = false := by unfold Peer.isEstablished; rw [hin]; rfl
      rw [e, e1, hsk, e2, without_nil, e3]
      simp [dropSock]
    · intro E _
      exact h2.fr ⟨hf.stat, fun hn => absurd rfl hn, fun he => absurd he hf.est, .inl hf.serial⟩

end Fastd.Daemon
