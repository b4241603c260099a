import Verif.Daemon.Inv

/-!
# Preservation of the invariant by small steps
-/

namespace Fastd.Daemon

set_option linter.unusedSectionVars false

variable [Env] {S : Prop} {x y z : Nat → Prop}

/-! ### Changes of the state that do not concern the invariant -/

/-- The parts of the state that matter are the same, up to new entries in the log that are not sessions. -/
theorem Inv.misc {c c' : Ctx} (h : Inv S x y z c) (h1 : c'.peers = c.peers) (h2 : c'.nextId = c.nextId)
    (h3 : c'.ht = c.ht) (h4 : c'.eth = c.eth) (h5 : c'.objs = c.objs) (h6 : c'.nextObj = c.nextObj)
    (h7 : c'.socks = c.socks) (h8 : c'.nextSock = c.nextSock) (h9 : c'.resolves = c.resolves)
    (h10 : c'.verifs = c.verifs) (h11 : c'.keys = c.keys) (h12 : c'.now = c.now)
    (h13 : sessLog c'.log = sessLog c.log) : Inv S x y z c' := by
  constructor
  · rw [h1]; exact h.ids
  · rw [h1, h2]; exact h.idlt
  · rw [h1]; exact h.keys
  · rw [h1, h3]; exact h.ht
  · rw [h1]; exact h.uniq
  · rw [h1, h7, h8]; exact h.socks
  · rw [h1, h5, h6]; exact h.refs
  · rw [h1, h4]; exact h.eth
  · rw [h1]; exact h.limits
  · rw [h1]; exact h.peer
  · rw [h1]; exact h.act
  · rw [h1, h12]; exact h.timers
  · rw [h1]; exact h.sched
  · rw [h1, h2, h9]; exact h.resolves
  · rw [h1, h2, h10]; exact h.verifs
  · rw [h11]; exact h.serials
  · rw [h1, h11]; exact h.caches
  · rw [h1, h2, h11, h13]; exact h.log
  · rw [h1]; exact h.dynv

theorem Inv.pos {c : Ctx} (h : Inv S x y z c) (n : Nat) : Inv S x y z { c with pos := n } :=
  h.misc rfl rfl rfl rfl rfl rfl rfl rfl rfl rfl rfl rfl rfl

theorem sessLog_append (l l' : List Eff) : sessLog (l ++ l') = sessLog l ++ sessLog l' := List.filterMap_append

theorem Inv.emit {c : Ctx} (h : Inv S x y z c) {e : Eff} (he : e.sess = none) :
    Inv S x y z { c with log := c.log ++ [e] } :=
  h.misc rfl rfl rfl rfl rfl rfl rfl rfl rfl rfl rfl rfl (by
    show sessLog (c.log ++ [e]) = _
    rw [sessLog_append]; simp [sessLog, he])

theorem Inv.mono {x' y' z' : Nat → Prop} {c : Ctx} (h : Inv S x y z c) (hx : ∀ i, x i → x' i) (hy : ∀ i, y i → y' i)
    (hz : ∀ i, z i → z' i) : Inv S x' y' z' c :=
  { h with
    peer := fun p hp => by
      have := h.peer p hp
      exact ⟨this.inact, fun hx' => this.idle fun h' => hx' (hx _ h'), fun hx' => this.est fun h' => hx' (hx _ h'),
        fun hS hx' => this.sock hS fun h' => hx' (hx _ h'), this.oldM, this.sessM, this.rem, this.addrs, this.hs,
        this.dynr, this.key, this.ifc⟩
    act := fun p hp hn => h.act p hp fun h' => hn (hy _ h')
    sched := fun p hp hn => h.sched p hp fun h' => hn (hz _ h') }

/-- Exemptions of peers that need none. -/
theorem Inv.drop {x' y' z' : Nat → Prop} {c : Ctx} (h : Inv S x y z c)
    (hx : ∀ p ∈ c.peers, ¬ x' p.id → x p.id → PeerOk S (x' p.id) p)
    (hy : ∀ p ∈ c.peers, ¬ y' p.id → y p.id → (p.state = .inactive ↔ p.isEnabled = false))
    (hz : ∀ p ∈ c.peers, ¬ z' p.id → z p.id → Sched p) : Inv S x' y' z' c :=
  { h with
    peer := fun p hp => by
      by_cases h1 : x p.id
      · by_cases h2 : x' p.id
        · have := h.peer p hp
          exact ⟨this.inact, fun h => absurd h2 h, fun h => absurd h2 h, fun _ h => absurd h2 h, this.oldM, this.sessM,
            this.rem, this.addrs, this.hs, this.dynr, this.key, this.ifc⟩
        · exact hx p hp h2 h1
      · have := h.peer p hp
        exact ⟨this.inact, fun _ => this.idle h1, fun _ => this.est h1, fun hS _ => this.sock hS h1, this.oldM,
          this.sessM, this.rem, this.addrs, this.hs, this.dynr, this.key, this.ifc⟩
    act := fun p hp hn => by
      by_cases h1 : y p.id
      · exact hy p hp hn h1
      · exact h.act p hp h1
    sched := fun p hp hn => by
      by_cases h1 : z p.id
      · exact hz p hp hn h1
      · exact h.sched p hp h1 }

theorem Fr.pos {t a : Nat → Prop} {E : Eff → Prop} {c : Ctx} (n : Nat) : Fr t a E c { c with pos := n } :=
  ⟨rfl, rfl, Nat.le_refl _, forall₂_refl' fun _ _ => PFr.refl, fun _ _ _ _ _ => rfl, [], by simp, by simp⟩

theorem Fr.emit {t a : Nat → Prop} {E : Eff → Prop} {c : Ctx} {e : Eff} (he : E e) :
    Fr t a E c { c with log := c.log ++ [e] } :=
  ⟨rfl, rfl, Nat.le_refl _, forall₂_refl' fun _ _ => PFr.refl, fun _ _ _ _ _ => rfl, [e], rfl, by simpa using he⟩

/-! ### Components and the change of one peer -/

theorem mem_upd {ps : List Peer} {i : Nat} {q r : Peer} (h : r ∈ updPeers ps i fun _ => q) :
    r = q ∨ (r ∈ ps ∧ r.id ≠ i) := by
  rw [mem_updPeers] at h
  obtain ⟨s, hs, he⟩ := h
  by_cases hsi : s.id = i
  · rw [if_pos hsi] at he; exact .inl he.symm
  · rw [if_neg hsi] at he; subst he; exact .inr ⟨hs, hsi⟩

theorem mem_upd_self {ps : List Peer} {p q : Peer} (hp : p ∈ ps) : q ∈ updPeers ps p.id fun _ => q :=
  mem_updPeers.2 ⟨p, hp, if_pos rfl⟩

theorem updPeers_const {ps : List Peer} (hs : Sorted ps) {p : Peer} (hp : p ∈ ps) {f : Peer → Peer} :
    updPeers ps p.id f = updPeers ps p.id fun _ => f p :=
  updPeers_congr fun q hq hi => by rw [sorted_inj hs hq hp hi]

theorem HtOk.upd {ps : List Peer} {t : HT} (h : HtOk (fun _ => true) ps t) (hs : Sorted ps) {p q : Peer} (hp : p ∈ ps)
    (hid : q.id = p.id) (ha : q.addr = p.addr) : HtOk (fun _ => true) (updPeers ps p.id fun _ => q) t :=
  h.congr (updPeers_map fun r hr hi => by rw [sorted_inj hs hr hp hi, hid, ha]).symm fun _ _ _ => rfl

theorem AddrU.upd {ps : List Peer} (h : AddrU ps) {p q : Peer} (hp : p ∈ ps)
    (hid : q.id = p.id) (ha : q.addr = p.addr ∨ q.addr.isSet = false) : AddrU (updPeers ps p.id fun _ => q) := by
  intro r hr s hs hset heq
  have hset' : s.addr.isSet = true := by rw [← addrEq_isSet heq]; exact hset
  rcases mem_upd hr with hr1 | ⟨hr1, _⟩ <;> rcases mem_upd hs with hs1 | ⟨hs1, _⟩
  · rw [hr1, hs1]
  · subst hr1
    rcases ha with ha | ha
    · rw [ha] at hset heq; rw [hid]; exact h p hp s hs1 hset heq
    · rw [ha] at hset; cases hset
  · subst hs1
    rcases ha with ha | ha
    · rw [ha] at heq; rw [hid]; exact h r hr1 p hp hset heq
    · rw [ha] at hset'; cases hset'
  · exact h r hr1 s hs1 hset heq

theorem SocksOk.upd {ps : List Peer} {socks : List (Nat × Nat)} {n : Nat} (h : SocksOk ps socks n) {p q : Peer}
    (hp : p ∈ ps) (hid : q.id = p.id) (hk : q.sock = p.sock) : SocksOk (updPeers ps p.id fun _ => q) socks n := by
  refine ⟨h.nodup, h.lt, fun r hr k => ?_, fun s hs => ?_, h.none⟩
  · rcases mem_upd hr with rfl | ⟨hr, _⟩
    · rw [hk, hid]; exact h.own p hp k
    · exact h.own r hr k
  · obtain ⟨r, hr, he⟩ := h.live s hs
    by_cases hi : r.id = p.id
    · exact ⟨q, mem_upd_self hp, by rw [hid, ← hi, he]⟩
    · exact ⟨r, mem_updPeers_other hr hi, he⟩

theorem flatMap_upd {ps : List Peer} (hs : Sorted ps) {p q : Peer} (hp : p ∈ ps) (hr : q.refs = p.refs) :
    (updPeers ps p.id fun _ => q).flatMap Peer.refs = ps.flatMap Peer.refs := by
  rw [List.flatMap_def, List.flatMap_def, updPeers_map]
  intro r hr' hi
  rw [sorted_inj hs hr' hp hi, hr]

theorem RefsOk.upd {ps : List Peer} {objs : Nat → Option Env.Sess} {n : Nat} (h : RefsOk ps objs n) (hs : Sorted ps)
    {p q : Peer} (hp : p ∈ ps) (hr : q.refs = p.refs) : RefsOk (updPeers ps p.id fun _ => q) objs n := by
  have := flatMap_upd hs hp hr
  exact ⟨by rw [this]; exact h.nodup, by rw [this]; exact h.live, by rw [this]; exact h.lt⟩

theorem EthOk.upd {ps : List Peer} {es : List Eth} (h : EthOk ps es) (hs : Sorted ps) {p q : Peer} (hp : p ∈ ps)
    (hid : q.id = p.id) (he : p.state = .established → q.state = .established) :
    EthOk (updPeers ps p.id fun _ => q) es := by
  refine ⟨h.sorted, fun e hm i hi => ?_⟩
  obtain ⟨r, hr, hri, hre⟩ := h.peer e hm i hi
  by_cases hip : r.id = p.id
  · refine ⟨q, mem_upd_self hp, by rw [hid, ← hip, hri], he ?_⟩
    rw [← sorted_inj hs hr hp hip]; exact hre
  · exact ⟨r, mem_updPeers_other hr hip, hri, hre⟩

theorem LimitsOk.upd {ps : List Peer} (h : LimitsOk ps) (hs : Sorted ps) {p q : Peer} (hp : p ∈ ps)
    (hg : q.group = p.group) (he : q.state = .established → p.state = .established) :
    LimitsOk (updPeers ps p.id fun _ => q) := by
  intro g m hm
  refine Nat.le_trans (countEstablished_le (forall₂_updPeers ?_ ?_) g) (h g m hm)
  · intro r hr hi
    rw [sorted_inj hs hr hp hi]
    exact ⟨hg, he⟩
  · intro r _ _
    exact ⟨rfl, id⟩

/-- What has to stay the same for most of the invariant. -/
structure Core (p q : Peer) : Prop where
  stat : q.stat = p.stat
  addr : q.addr = p.addr
  sock : q.sock = p.sock
  refs : q.refs = p.refs
  est : q.state = .established ↔ p.state = .established
  serial : q.lastSerial = p.lastSerial
  cache : q.cache = p.cache

theorem Core.dyn {p q : Peer} (h : Core p q) : q.isDynamic = p.isDynamic := by
  unfold Peer.isDynamic; rw [stat_cfg h.stat]

theorem Inv.core {x' y' z' : Nat → Prop} {c : Ctx} (h : Inv S x y z c) {p q : Peer} (hp : p ∈ c.peers)
    (hc : Core p q) (hx : ∀ i, i ≠ p.id → x i → x' i) (hy : ∀ i, i ≠ p.id → y i → y' i)
    (hz : ∀ i, i ≠ p.id → z i → z' i) (hq : PeerOk S (x' p.id) q)
    (hact : ¬ y' p.id → (q.state = .inactive ↔ q.isEnabled = false)) (htim : TimerOk c.now q)
    (hsch : ¬ z' p.id → Sched q) :
    Inv S x' y' z' { c with peers := updPeers c.peers p.id fun _ => q } :=
  h.upd hp rfl (stat_id hc.stat) (stat_key hc.stat) hc.dyn (stat_len hc.stat) (Nat.le_of_eq hc.serial.symm) rfl rfl rfl
    rfl rfl rfl hx hy hz (h.ht.upd h.ids hp (stat_id hc.stat) hc.addr) (h.uniq.upd hp (stat_id hc.stat) (.inl hc.addr))
    (h.socks.upd hp (stat_id hc.stat) hc.sock) (h.refs.upd h.ids hp hc.refs)
    (h.eth.upd h.ids hp (stat_id hc.stat) hc.est.2) (h.limits.upd h.ids hp (stat_group hc.stat) hc.est.1) hq hact htim
    hsch (.inl hc.cache)

theorem PFr.core {t a : Nat → Prop} {p q : Peer} (hc : Core p q) (ht : t p.id) : PFr t a p q :=
  ⟨hc.stat, fun h => absurd ht h, fun h => .inl (hc.est.1 h), .inl hc.serial⟩

theorem Fr.upd {t a : Nat → Prop} {E : Eff → Prop} {c : Ctx} (hs : Sorted c.peers) {p q : Peer} (hp : p ∈ c.peers)
    (h : PFr t a p q) : Fr t a E c { c with peers := updPeers c.peers p.id fun _ => q } :=
  ⟨rfl, rfl, Nat.le_refl _, forall₂_updPeers (fun r hr hi => by rw [sorted_inj hs hr hp hi]; exact h)
    fun _ _ _ => PFr.refl, fun _ _ _ _ _ => rfl, [], by simp, by simp⟩

/-- The rule for changing a peer in ways that leave the core alone. -/
theorem wp_modP_core {x' y' z' : Nat → Prop} {c : Ctx} (h : Inv S x y z c) {p : Peer} (hp : p ∈ c.peers) {i : Nat}
    (hi : p.id = i) {f : Peer → Peer} (hc : Core p (f p)) (hx : ∀ j, j ≠ i → x j → x' j)
    (hy : ∀ j, j ≠ i → y j → y' j) (hz : ∀ j, j ≠ i → z j → z' j) (hq : PeerOk S (x' i) (f p))
    (hact : ¬ y' i → ((f p).state = .inactive ↔ (f p).isEnabled = false)) (htim : TimerOk c.now (f p))
    (hsch : ¬ z' i → Sched (f p)) {Q : Unit → Ctx → Prop}
    (hQ : ∀ c', c' = { c with peers := updPeers c.peers i fun _ => f p } → Inv S x' y' z' c' → f p ∈ c'.peers →
      (∀ E, Fr (· = i) nobody E c c') → Q () c') : wp S (modP i f) Q c := by
  subst hi
  rw [wp_modP h.ids hp rfl, updPeers_const h.ids hp]
  exact hQ _ rfl (h.core hp hc hx hy hz hq hact htim hsch) (mem_upd_self hp) fun E => Fr.upd h.ids hp (PFr.core hc rfl)

/-- A common case: state, configuration, sessions and remotes stay the same, deadlines do not come closer. -/
theorem wp_modP_same {c : Ctx} (h : Inv S x y z c) {p : Peer} (hp : p ∈ c.peers) {i : Nat}
    (hi : p.id = i) {f : Peer → Peer} (hstat : (f p).stat = p.stat) (haddr : (f p).addr = p.addr)
    (hsock : (f p).sock = p.sock) (hold : (f p).old = p.old)
    (hsess : (f p).sess.mstate = p.sess.mstate ∧ (f p).sess.method = p.sess.method ∧
      (p.state ≠ .established → (f p).sess = p.sess))
    (hstate : (f p).state = p.state) (hser : (f p).lastSerial = p.lastSerial) (hrem : (f p).remotes = p.remotes)
    (hnext : (f p).nextRemote = p.nextRemote) (htask : (f p).task = p.task)
    (hhs : (S → p.remotes = [] → p.state ≠ .established → p.state ≠ .inactive → p.nextHs = timeoutInv) →
      S → p.remotes = [] → p.state ≠ .established → p.state ≠ .inactive → (f p).nextHs = timeoutInv)
    (htim : TimerOk c.now p → TimerOk c.now (f p))
    (hdl : ¬ z i → TimerOk c.now p → (f p).deadline < timeoutInv →
      p.deadline ≤ (f p).deadline)
    {Q : Unit → Ctx → Prop} (hQ : ∀ c', c' = { c with peers := updPeers c.peers i fun _ => f p } → Inv S x y z c' →
      f p ∈ c'.peers → (∀ E, Fr (· = i) nobody E c c') → Q () c')
    (hcache : (f p).cache = p.cache := by rfl)
    (hifc : p.iface ≠ none → (f p).iface ≠ none := by exact id) : wp S (modP i f) Q c := by
  have hk := h.peer p hp
  have hcfg := stat_cfg hstat
  have hen : (f p).isEnabled = p.isEnabled := by unfold Peer.isEnabled; rw [hcfg]
  refine wp_modP_core h hp hi ⟨hstat, haddr, hsock, ?_, by rw [hstate], hser, hcache⟩ (fun _ _ => id) (fun _ _ => id)
    (fun _ _ => id) ?_ ?_ (htim (h.timers p hp)) ?_ hQ
  · unfold Peer.refs; rw [hold, hsess.1]
  · subst hi
    constructor
    · rw [hstate, haddr, hsock, htask]; exact hk.inact
    · intro hx hs
      rw [hstate] at hs
      rw [hold, hsess.2.2 hs]; exact hk.idle hx hs
    · rw [hstate, haddr, hsess.1]; exact hk.est
    · rw [hstate, hsock]; exact hk.sock
    · rw [hold]; exact hk.oldM
    · rw [hsess.1, hsess.2.1]; exact hk.sessM
    · rw [hstate, hnext, hrem]; exact hk.rem
    · rw [hrem]; exact hk.addrs
    · rw [hrem, hstate]; exact hhs hk.hs
    · unfold Peer.isDynamic
      rw [hcfg, hrem, hsock]; exact hk.dynr
    · rw [stat_key hstat]; exact hk.key
    · rw [hstate]; exact fun hs hn => hifc (hk.ifc hs hn)
  · subst hi
    rw [hstate, hen]; exact h.act p hp
  · subst hi
    intro hz hst hd
    rw [hstate] at hst
    have h2 := hdl hz (h.timers p hp) hd
    obtain ⟨t, ht, hle⟩ := h.sched p hp hz hst (Int.lt_of_le_of_lt h2 hd)
    exact ⟨t, by rw [htask]; exact ht, Int.le_trans hle h2⟩

end Fastd.Daemon
