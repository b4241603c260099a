import Verif.Daemon.AddrSpec

/-!
# Claiming addresses, opening sockets, adding peers, and the invariant
-/

namespace Fastd.Daemon

set_option linter.unusedSectionVars false

variable [Env] {S : Prop} {x y z : Nat → Prop}

/-! ### Claiming -/

theorem claimScan_free {i : Nat} {a : Addr} {ps : List Peer} (h : claimScan i a ps = .free) :
    ∀ q ∈ ps, q.id ≠ i → q.isEnabled = true → addrEq q.addr a = false ∧ ownsAddress q a = false := by
  induction ps with
  | nil => intro q hq; cases hq
  | cons p ps ih =>
    intro q hq hne hen
    unfold claimScan at h
    rcases List.mem_cons.1 hq with rfl | hq
    · rw [if_neg hne, hen] at h
      simp only [Bool.not_true, Bool.false_eq_true, if_false] at h
      cases ho : ownsAddress q a with
      | true => simp [ho] at h
      | false =>
        cases he : addrEq q.addr a with
        | true => simp [ho, he] at h
        | false => exact ⟨rfl, rfl⟩
    · refine ih ?_ q hq hne hen
      split at h
      · exact h
      · split at h
        · exact h
        · split at h
          · cases h
          · split at h
            · cases h
            · exact h

theorem claimScan_held {i j : Nat} {a : Addr} {ps : List Peer} (h : claimScan i a ps = .held j) :
    ∃ q ∈ ps, q.id = j ∧ j ≠ i ∧ q.isEnabled = true ∧ addrEq q.addr a = true ∧ ownsAddress q a = false := by
  induction ps with
  | nil => cases h
  | cons p ps ih =>
    unfold claimScan at h
    have step : claimScan i a ps = .held j → ∃ q ∈ p :: ps, q.id = j ∧ j ≠ i ∧ q.isEnabled = true ∧
        addrEq q.addr a = true ∧ ownsAddress q a = false := by
      intro h'
      obtain ⟨q, hq, hr⟩ := ih h'
      exact ⟨q, List.mem_cons_of_mem _ hq, hr⟩
    split at h
    · exact step h
    · split at h
      · exact step h
      · split at h
        · cases h
        · split at h
          · cases h
            refine ⟨p, List.mem_cons_self, rfl, by assumption, ?_, by assumption, ?_⟩
            · simpa using ‹¬ (!p.isEnabled) = true›
            · simpa using ‹¬ ownsAddress p a = true›
          · exact step h

theorem addrEq_unset {a b : Addr} (hb : b.isSet = true) (ha : a.isSet = false) : addrEq a b = false := by
  cases h : addrEq a b with
  | false => rfl
  | true => rw [addrEq_isSet h, hb] at ha; cases ha

/-- Who is affected by a claim. -/
def claimT (c : Ctx) (i : Nat) (rem : Addr) : Nat → Prop :=
  fun j => j = i ∨ ∃ q ∈ c.peers, q.id = j ∧ addrEq q.addr rem = true

theorem wp_claimAddress {c : Ctx} (h : Inv S nobody nobody z c) {p : Peer} (hp : p ∈ c.peers) {i : Nat}
    (hi : p.id = i) {sock : Option Sock} {loc : Option Addr} {rem : Addr} {force : Bool} (hset : rem.isSet = true)
    (hst : p.state ≠ .inactive) (hS : S → ∀ n, sock = some (.dyn n) → p.sock = some (.dyn n))
    {Q : Bool → Ctx → Prop}
    (hQt : ∀ c', Inv S nobody nobody z c' → claimed p sock loc rem ∈ c'.peers → (∀ k ∈ p.refs, c'.objs k = c.objs k) →
      (∀ E : Eff → Prop, (∀ j, E (.disestablished j)) → Fr (claimT c i rem) nobody E c c') → Q true c')
    (hQf : ∀ c' q, Inv S nobody nobody z c' → q ∈ c'.peers → q.stat = p.stat → q.lastSerial = p.lastSerial →
      q.addr.isSet = false → q.state ≠ .established → (p.state ≠ .established → q = { p with addr := .unspec 0 }) →
      (∀ E : Eff → Prop, (∀ j, E (.disestablished j)) → Fr (claimT c i rem) nobody E c c') → Q false c') :
    wp S (claimAddress i sock loc rem force) Q c := by
  unfold claimAddress
  have lift : ∀ {E : Eff → Prop} {a b : Ctx}, Fr (· = i) nobody E a b → Fr (claimT c i rem) nobody E a b :=
    fun hf => hf.mono (fun _ h => .inl h) (fun _ h => h) fun _ h => h
  have fails : wp S (do resetPeerAddress i; pure false) Q c := by
    rw [wp_bind]
    refine wp_resetPeerAddress h hp hi fun c' q h' hq h1 h2 h3 h4 _ h5 _ hfr => ?_
    rw [wp_pure]
    exact hQf c' q h' hq h1 h2 h3 h4 (fun hn => (h5 hn).1) fun E hE => lift (hfr E (hE _))
  rw [if_neg (by rw [hset]; simp), wp_bind, wp_get]
  have inact : ∀ q ∈ c.peers, q.isEnabled = false → addrEq q.addr rem = false := by
    intro q hq hen
    have := (h.act q hq id).2 hen
    exact addrEq_unset hset ((h.peer q hq).inact this).1
  cases hc : claimScan i rem c.peers with
  | free =>
    simp only []
    have hfree := claimScan_free hc
    refine wp_claimFinish h hp hi hset hst (fun r hr hne => ?_) hS fun c' ht n h' hm e' hfr => ?_
    · cases hen : r.isEnabled with
      | true => exact (hfree r hr hne hen).1
      | false => exact inact r hr hen
    · exact hQt c' h' hm (fun k _ => by rw [e']) fun E _ => lift (hfr E)
  | owned => exact fails
  | held j =>
    simp only []
    obtain ⟨q, hq, hqj, hji, hqen, hqa, _⟩ := claimScan_held hc
    rw [wp_bind, wp_getP' h.ids hq hqj]
    refine wp_ite (fun _ => fails) (fun _ => ?_)
    rw [wp_bind]
    refine wp_resetPeerAddress h hq hqj fun c1 q' h1 hq' hstat _ haddr hest hps _ _ hfr1 => ?_
    have hp1 : p ∈ c1.peers := by
      rw [hps]; exact mem_updPeers_other hp (by rw [hi]; exact fun h => hji h.symm)
    refine wp_claimFinish h1 hp1 hi hset hst (fun r hr hne => ?_) hS fun c' ht n h' hm e' hfr => ?_
    · rw [hps] at hr
      rcases mem_upd hr with rfl | ⟨hr, hrj⟩
      · exact addrEq_unset hset haddr
      · cases he : addrEq r.addr rem with
        | false => rfl
        | true =>
          have hrs : r.addr.isSet = true := by rw [addrEq_isSet he]; exact hset
          have := h.uniq r hr q hq hrs (addrEq_trans he (by rw [addrEq_comm]; exact hqa))
          exact absurd (this.trans hqj) hrj
    · refine hQt c' h' hm (fun k hk => ?_) fun E hE => ?_
      · rw [e']
        exact (hfr1 (fun _ => True) trivial).objs p hp (by rw [hi]; exact fun h => hji h.symm) k hk
      refine Fr.trans ?_ (lift (hfr E))
      exact (hfr1 E (hE _)).mono (fun k hk => .inr ⟨q, hq, hqj.trans hk.symm, hqa⟩) (fun _ h => h) fun _ h => h

/-! ### `fastd_peer_reset_socket` -/

theorem SocksOk.open {ps : List Peer} {socks : List (Nat × Nat)} {n : Nat} (h : SocksOk ps socks n) {p q : Peer}
    (hp : p ∈ ps) (hid : q.id = p.id) (hno : ∀ k, p.sock ≠ some (.dyn k)) (hq : q.sock = some (.dyn n))
    (hne : ¬ Equipped) : SocksOk (updPeers ps p.id fun _ => q) (socks ++ [(n, p.id)]) (n + 1) := by
  refine ⟨?_, ?_, fun r hr k => ?_, ?_, fun he => absurd he hne⟩
  · rw [List.map_append, List.nodup_append]
    refine ⟨h.nodup, by simp, ?_⟩
    intro a ha b hb
    obtain ⟨s, hs, rfl⟩ := List.mem_map.1 ha
    have := h.lt s hs
    simp only [List.map_cons, List.map_nil, List.mem_singleton] at hb
    omega
  · intro s hs
    rcases List.mem_append.1 hs with hs | hs
    · have := h.lt s hs; omega
    · rw [List.mem_singleton] at hs; rw [hs]; exact Nat.lt_succ_self n
  · rw [List.mem_append, List.mem_singleton]
    rcases mem_upd hr with rfl | ⟨hr, hne⟩
    · rw [hq, hid]
      constructor
      · intro he
        simp only [Option.some.injEq, Sock.dyn.injEq] at he
        rw [← he]; exact .inr rfl
      · rintro (hm | hm)
        · exact absurd ((h.own p hp k).2 hm) (hno k)
        · simp only [Prod.mk.injEq, and_true] at hm
          rw [hm]
    · rw [h.own r hr k]
      constructor
      · exact .inl
      · rintro (hm | hm)
        · exact hm
        · simp only [Prod.mk.injEq] at hm
          exact absurd hm.2 hne
  · intro s hs
    rcases List.mem_append.1 hs with hs | hs
    · obtain ⟨r, hr, he⟩ := h.live s hs
      by_cases hi : r.id = p.id
      · exact ⟨q, mem_upd_self hp, by rw [hid, ← hi, he]⟩
      · exact ⟨r, mem_updPeers_other hr hi, he⟩
    · rw [List.mem_singleton] at hs
      exact ⟨q, mem_upd_self hp, by rw [hs]; exact hid⟩

/-- The socket of a peer that is not established may change. -/
theorem Inv.sock {c : Ctx} (h : Inv S x y z c) {p : Peer} (hp : p ∈ c.peers) {s : Option Sock}
    {socks : List (Nat × Nat)} {next n : Nat} (he : p.state ≠ .established) (hin : p.state = .inactive → s = none)
    (hd : p.isDynamic = true → ∀ n, s ≠ some (.dyn n))
    (hk : SocksOk (updPeers c.peers p.id fun _ => { p with sock := s }) socks next) :
    Inv S x y z { c with
      peers := updPeers c.peers p.id fun _ => { p with sock := s }
      socks := socks, nextSock := next, pos := n } := by
  have hp' := h.peer p hp
  refine h.upd hp rfl rfl rfl rfl rfl (Nat.le_refl _) rfl rfl rfl rfl rfl rfl (fun _ _ => id) (fun _ _ => id)
    (fun _ _ => id) (h.ht.upd h.ids hp rfl rfl) (h.uniq.upd hp rfl (.inl rfl)) hk (h.refs.upd h.ids hp rfl)
    (h.eth.upd h.ids hp rfl id) (h.limits.upd h.ids hp rfl id) ?_ (h.act p hp) (h.timers p hp)
    (fun hz => h.sched p hp hz)
  exact { hp' with
    inact := fun hi => ⟨(hp'.inact hi).1, hin hi, (hp'.inact hi).2.2⟩
    sock := fun _ _ h => absurd h he
    dynr := fun hd' => ⟨(hp'.dynr hd').1, hd hd'⟩ }

theorem Fr.sock {t a : Nat → Prop} {E : Eff → Prop} {c : Ctx} (hs : Sorted c.peers) {p : Peer} (hp : p ∈ c.peers)
    (ht : t p.id) {s : Option Sock} {socks : List (Nat × Nat)} {next n : Nat} :
    Fr t a E c { c with
      peers := updPeers c.peers p.id fun _ => { p with sock := s }
      socks := socks, nextSock := next, pos := n } :=
  ⟨rfl, rfl, Nat.le_refl _, forall₂_updPeers (fun r hr hi => by
    rw [sorted_inj hs hr hp hi]; exact ⟨rfl, fun hn => absurd ht hn, .inl, .inl rfl⟩) fun _ _ _ => PFr.refl,
    fun _ _ _ _ _ => rfl, [], (List.append_nil _).symm, by simp⟩

theorem wp_resetSocket {c : Ctx} (h : Inv S x y z c) {p : Peer} (hp : p ∈ c.peers) {i : Nat} (hi : p.id = i)
    (he : p.state ≠ .established) (hin : p.state ≠ .inactive) (hd : p.isDynamic = false) {Q : Unit → Ctx → Prop}
    (hQ : ∀ c' s, Inv S x y z c' → { p with sock := s } ∈ c'.peers →
      (∀ E : Eff → Prop, Fr (· = i) nobody E c c') → Q () c') :
    wp S (resetSocket i) Q c := by
  subst hi
  have hs := h.ids
  -- all ends
  have fin : ∀ s socks next n, SocksOk (updPeers c.peers p.id fun _ => { p with sock := s }) socks next →
      Q () { c with
        peers := updPeers c.peers p.id fun _ => { p with sock := s }
        socks := socks, nextSock := next, pos := n } := by
    intro s socks next n hk
    refine hQ _ s (h.sock hp he (fun h => absurd h hin) (fun h => by rw [hd] at h; cases h) hk) (mem_upd_self hp) ?_
    intro E
    exact Fr.sock (t := fun j => j = p.id) hs hp rfl
  have hdrop : SocksOk (updPeers c.peers p.id fun _ => { p with sock := none }) (dropSock p.sock c.socks) c.nextSock :=
    h.socks.drop hp rfl fun _ h => (nomatch h)
  have free : wp S (freeSocket p.id) (fun _ c1 => c1 = { c with
      peers := updPeers c.peers p.id fun _ => { p with sock := none }
      socks := dropSock p.sock c.socks }) c := wp_freeSocket hs h.socks hp rfl
  unfold resetSocket
  rw [wp_bind, wp_getP hs hp]
  refine wp_ite (fun _ => ?_) (fun _ => wp_ite (fun _ => ?_) (fun _ => ?_))
  · refine wp_mono free ?_
    rintro _ c1 rfl
    exact fin none _ c.nextSock c.pos hdrop
  · have := fin p.sock c.socks c.nextSock c.pos (h.socks.upd hp rfl rfl)
    have e : ({ p with sock := p.sock } : Peer) = p := rfl
    rw [e, updPeers_self hs hp] at this
    exact this
  · rw [wp_bind]
    refine wp_mono free ?_
    rintro _ c1 e1
    have p1 : c1.peers = updPeers c.peers p.id fun _ => { p with sock := none } := by rw [e1]
    have hs1 : Sorted c1.peers := by
      rw [p1]; exact sorted_updPeers hs (by intro q _ hq; exact hq.symm)
    have hm1 : ({ p with sock := none } : Peer) ∈ c1.peers := by rw [p1]; exact mem_upd_self hp
    have new : ∀ dflt, (dflt = none → ¬ Equipped) → wp S (newSocket p.id dflt) Q c1 := by
      intro dflt hdf
      unfold newSocket
      cases dflt with
      | some k =>
        simp only []
        refine (wp_modP (p := { p with sock := none }) hs1 hm1 rfl).2 ?_
        have := fin (some (.bound k)) (dropSock p.sock c.socks) c.nextSock c.pos
          (h.socks.drop hp rfl fun n h => (by simp at h))
        rw [p1, updPeers_updPeers (by intro q _ hq; exact hq.symm), e1]
        exact this
      | none =>
        simp only []
        rw [wp_bind]
        unfold socketOpen
        rw [wp_bind, wp_draw]
        refine wp_ite (fun _ => ?_) (fun _ => wp_ite (fun _ => wp_exit.2 (hdf rfl)) (fun _ => ?_))
        · rw [wp_bind, wp_get, wp_bind, wp_modify, wp_pure]
          refine (wp_modP (p := { p with sock := none }) (by exact hs1) (by exact hm1) rfl).2 ?_
          simp only []
          have hk := hdrop.open (p := { p with sock := none }) (q := { p with sock := some (.dyn c.nextSock) })
            (mem_upd_self hp) rfl (fun _ h => (nomatch h)) rfl (hdf rfl)
          rw [updPeers_updPeers (by intro q _ hq; exact hq.symm)] at hk
          rw [p1, updPeers_updPeers (by intro q _ hq; exact hq.symm), e1]
          exact fin (some (.dyn c.nextSock)) _ (c.nextSock + 1) (c.pos + 1) hk
        · rw [wp_pure]
          refine (wp_modP (p := { p with sock := none }) (by exact hs1) (by exact hm1) rfl).2 ?_
          simp only []
          rw [p1, updPeers_updPeers (by intro q _ hq; exact hq.symm), e1]
          exact fin none _ c.nextSock (c.pos + 1) hdrop
    cases ha : p.addr with
    | v4 => exact new _ fun hn hc => by rw [Equipped, hn] at hc; exact absurd hc.2.1 (by decide)
    | v6 => exact new _ fun hn hc => by rw [Equipped, hn] at hc; exact absurd hc.2.2 (by decide)
    | unspec =>
      simp only []
      rw [wp_pure, e1]
      exact fin none _ c.nextSock c.pos hdrop

/-! ### `fastd_peer_add` -/

/-- A peer that has just been read from a configuration file or created for an unknown key. -/
structure NewOk (q : Peer) : Prop where
  state : q.state = .inactive
  addr : q.addr.isSet = false
  sock : q.sock = none
  task : q.task = none
  old : q.old = {}
  sess : q.sess = {}
  addrs : ∀ r ∈ q.remotes, (∀ a ∈ r.addrs, a.isSet = true) ∧ (r.hostname = none → r.address.isSet = true)
  dyn : q.isDynamic = true → q.remotes = []
  key : q.key.length = 32
  cache : q.cache = {}
  dynv : q.isDynamic = true → Env.onVerify ≠ none

theorem NewOk.ok {q : Peer} (h : NewOk q) (u : Prop) (i n : Nat) : PeerOk S u { q with id := i, lastSerial := n } where
  inact := fun _ => ⟨h.addr, h.sock, h.task⟩
  idle := fun _ _ => ⟨h.old, h.sess⟩
  est := fun _ he => by simp [h.state] at he
  sock := fun _ _ he => by simp [h.state] at he
  oldM := by simp [h.old]
  sessM := by simp [h.sess]
  rem := fun hn => absurd h.state hn
  addrs := h.addrs
  hs := fun _ _ _ hn => absurd h.state hn
  dynr := fun hd => ⟨h.dyn hd, fun n hn => by simp [h.sock] at hn⟩
  key := h.key
  ifc := fun _ hn => absurd h.state hn

/-- The state after adding a peer. -/
def addCtx (c : Ctx) (q : Peer) : Ctx :=
  { c with peers := c.peers ++ [{ q with id := c.nextId, lastSerial := c.keys.cur.serial }], nextId := c.nextId + 1 }

theorem HtOk.append {inc : Nat → Bool} {ps : List Peer} {t : HT} (h : HtOk inc ps t) {q : Peer}
    (hq : q.addr.isSet = false) : HtOk inc (ps ++ [q]) t := by
  refine ⟨h.pos, h.nodup, fun b l hl i => ?_, ?_, h.load⟩
  · rw [h.mem b l hl i]
    constructor
    · rintro ⟨p, hp, hr⟩
      exact ⟨p, List.mem_append_left _ hp, hr⟩
    · rintro ⟨p, hp, h1, h2, h3, h4⟩
      rcases List.mem_append.1 hp with hp | hp
      · exact ⟨p, hp, h1, h2, h3, h4⟩
      · rw [List.mem_singleton] at hp
        rw [hp, hq] at h3
        cases h3
  · rw [h.used, List.countP_append]
    simp [hq]

theorem Inv.add {c : Ctx} (h : Inv S x y z c) {q : Peer} (hq : NewOk q) (hkey : ∀ p ∈ c.peers, p.key ≠ q.key) :
    Inv S x (fun j => y j ∨ j = c.nextId) z (addCtx c q) := by
  have hmem : ∀ r ∈ (addCtx c q).peers, r ∈ c.peers ∨ r = { q with id := c.nextId, lastSerial := c.keys.cur.serial } := by
    intro r hr
    rcases List.mem_append.1 hr with hr | hr
    · exact .inl hr
    · exact .inr (List.mem_singleton.1 hr)
  have hrefs : ({ q with id := c.nextId, lastSerial := c.keys.cur.serial } : Peer).refs = [] := by
    unfold Peer.refs; simp [hq.old, hq.sess]
  have hfm : (addCtx c q).peers.flatMap Peer.refs = c.peers.flatMap Peer.refs := by
    show (c.peers ++ [_]).flatMap _ = _
    rw [List.flatMap_append, List.flatMap_singleton, hrefs, List.append_nil]
  constructor
  · show ((c.peers ++ [_]).map _).Pairwise _
    rw [List.map_append, List.pairwise_append]
    refine ⟨h.ids, List.pairwise_singleton _ _, fun a ha b hb => ?_⟩
    obtain ⟨p, hp, rfl⟩ := List.mem_map.1 ha
    simp only [List.map_cons, List.map_nil, List.mem_singleton] at hb
    rw [hb]
    exact h.idlt p hp
  · intro r hr
    show r.id < c.nextId + 1
    rcases hmem r hr with hr | rfl
    · have := h.idlt r hr; omega
    · exact Nat.lt_succ_self _
  · show ((c.peers ++ [_]).map _).Nodup
    rw [List.map_append, List.nodup_append]
    refine ⟨h.keys, by simp, fun a ha b hb => ?_⟩
    obtain ⟨p, hp, rfl⟩ := List.mem_map.1 ha
    simp only [List.map_cons, List.map_nil, List.mem_singleton] at hb
    rw [hb]
    exact hkey p hp
  · exact h.ht.append hq.addr
  · intro r hr s hs hset heq
    have hset' : s.addr.isSet = true := by rw [← addrEq_isSet heq]; exact hset
    rcases hmem r hr with hr | rfl
    · rcases hmem s hs with hs | rfl
      · exact h.uniq r hr s hs hset heq
      · rw [show ({ q with id := c.nextId, lastSerial := c.keys.cur.serial } : Peer).addr = q.addr from rfl, hq.addr] at hset'
        cases hset'
    · rw [show ({ q with id := c.nextId, lastSerial := c.keys.cur.serial } : Peer).addr = q.addr from rfl, hq.addr] at hset
      cases hset
  · refine ⟨h.socks.nodup, h.socks.lt, fun r hr n => ?_, fun s hs => ?_, h.socks.none⟩
    · rcases hmem r hr with hr | rfl
      · exact h.socks.own r hr n
      · constructor
        · intro hn; simp [hq.sock] at hn
        · intro hn
          obtain ⟨r, hr, hi⟩ := h.socks.live _ hn
          have := h.idlt r hr
          simp only [] at hi
          omega
    · obtain ⟨r, hr, hi⟩ := h.socks.live s hs
      exact ⟨r, List.mem_append_left _ hr, hi⟩
  · exact ⟨by rw [hfm]; exact h.refs.nodup, by rw [hfm]; exact h.refs.live, by rw [hfm]; exact h.refs.lt⟩
  · refine ⟨h.eth.sorted, fun e he i hi => ?_⟩
    obtain ⟨r, hr, hri, hre⟩ := h.eth.peer e he i hi
    exact ⟨r, List.mem_append_left _ hr, hri, hre⟩
  · intro g m hm
    refine Nat.le_trans ?_ (h.limits g m hm)
    show countEstablished (c.peers ++ [_]) g ≤ _
    unfold countEstablished
    rw [List.filter_append]
    simp [Peer.isEstablished, hq.state]
  · intro r hr
    rcases hmem r hr with hr | rfl
    · exact h.peer r hr
    · exact hq.ok _ _ _
  · intro r hr hn
    rcases hmem r hr with hr | rfl
    · exact h.act r hr fun h' => hn (.inl h')
    · exact absurd (.inr rfl) hn
  · intro r hr
    rcases hmem r hr with hr | rfl
    · exact h.timers r hr
    · intro he; simp [hq.state] at he
  · intro r hr hn
    rcases hmem r hr with hr | rfl
    · exact h.sched r hr hn
    · intro he; exact absurd hq.state he
  · intro v hv
    obtain ⟨h1, h2⟩ := h.resolves v hv
    refine ⟨Nat.lt_succ_of_lt h1, fun r hr hi => ?_⟩
    rcases hmem r hr with hr | rfl
    · exact h2 r hr hi
    · simp only [] at hi; omega
  · intro v hv
    obtain ⟨h1, h2, h3, h4, h5⟩ := h.verifs v hv
    refine ⟨Nat.lt_succ_of_lt h1, h2, h3, h4, fun r hr hi => ?_⟩
    rcases hmem r hr with hr | rfl
    · exact h5 r hr hi
    · simp only [] at hi; omega
  · exact h.serials
  · intro r hr
    rcases hmem r hr with hr | rfl
    · exact h.caches r hr
    · refine ⟨?_, fun k _ hk h0 => absurd ?_ h0⟩
      · show q.cache.serial ≤ _
        rw [hq.cache]; exact Nat.zero_le _
      · rw [hk]
        show q.cache.serial = 0
        rw [hq.cache]
  · refine ⟨fun s hs => ⟨Nat.lt_succ_of_lt (h.log.lt s hs).1, (h.log.lt s hs).2⟩, fun s hs r hr hi => ?_, h.log.inc,
      fun ho s hs r hr hk => ?_, h.log.incKey⟩
    · rcases hmem r hr with hr | rfl
      · exact h.log.last s hs r hr hi
      · have := (h.log.lt s hs).1
        simp only [] at hi; omega
    · rcases hmem r hr with hr | rfl
      · exact h.log.lastKey ho s hs r hr hk
      · exact (h.log.lt s hs).2
  · intro r hr
    rcases hmem r hr with hr | rfl
    · exact h.dynv r hr
    · exact hq.dynv

theorem wp_addNew {c : Ctx} {q : Peer} {Q : Added → Ctx → Prop} (hQ : Q (.added c.nextId) (addCtx c q)) :
    wp S (addNew q) Q c := hQ

theorem findKey_none {ps : List Peer} {k : Key} (h : findKey ps k = none) : ∀ p ∈ ps, p.key ≠ k := by
  intro p hp
  have := List.find?_eq_none.1 h p hp
  simpa using this

theorem findKey_some {ps : List Peer} {k : Key} {p : Peer} (h : findKey ps k = some p) : p ∈ ps ∧ p.key = k :=
  ⟨List.mem_of_find?_eq_some h, by simpa using List.find?_some h⟩

theorem keys_inj {ps : List Peer} (h : (ps.map (·.key)).Nodup) {p q : Peer} (hp : p ∈ ps) (hq : q ∈ ps)
    (he : p.key = q.key) : p = q := by
  induction ps with
  | nil => cases hp
  | cons a as ih =>
    rw [List.map_cons, List.nodup_cons] at h
    rcases List.mem_cons.1 hp with h1 | h1 <;> rcases List.mem_cons.1 hq with h2 | h2
    · rw [h1, h2]
    · exact absurd (List.mem_map.2 ⟨q, h2, by rw [← he, h1]⟩) h.1
    · exact absurd (List.mem_map.2 ⟨p, h1, by rw [he, h2]⟩) h.1
    · exact ih h.2 h1 h2

/-- The result of `fastd_peer_add`. -/
def addResult (ps : List Peer) (q : Peer) (n serial : Nat) : Added × List Peer :=
  match findKey ps q.key with
  | none => (.added n, ps ++ [{ q with id := n, lastSerial := serial }])
  | some o =>
    match o.cfg with
    | .new | .disabled => (.failed, updPeers ps o.id fun _ => { o with cfg := .disabled })
    | .static =>
      if configsEqual o q then (.unchanged, updPeers ps o.id fun _ => { o with name := q.name, cfg := .new })
      else (.added n, without' ps o.id ++ [{ q with id := n, lastSerial := serial }])
    | .dynamic => (.added n, without' ps o.id ++ [{ q with id := n, lastSerial := serial }])

/-- Changing the configuration state and the name of a peer that is not dynamic. -/
theorem Inv.cfg {y' : Nat → Prop} {c : Ctx} (h : Inv S x y z c) {p : Peer} (hp : p ∈ c.peers) (hd : p.isDynamic = false)
    {n : Option Bytes} {s : CfgState} (hs : s ≠ .dynamic) (hy : ∀ i, i ≠ p.id → y i → y' i)
    (hact : ¬ y' p.id → (p.state = .inactive ↔ ({ p with name := n, cfg := s } : Peer).isEnabled = false)) :
    Inv S x y' z { c with peers := updPeers c.peers p.id fun _ => { p with name := n, cfg := s } } := by
  have hd' : ({ p with name := n, cfg := s } : Peer).isDynamic = p.isDynamic := by
    rw [hd]; unfold Peer.isDynamic; exact decide_eq_false hs
  have hk := h.peer p hp
  refine h.upd hp rfl rfl rfl hd' rfl (Nat.le_refl _) rfl rfl rfl rfl rfl rfl (fun _ _ => id) hy
    (fun _ _ => id) (h.ht.upd h.ids hp rfl rfl) (h.uniq.upd hp rfl (.inl rfl)) (h.socks.upd hp rfl rfl)
    (h.refs.upd h.ids hp rfl) (h.eth.upd h.ids hp rfl id) (h.limits.upd h.ids hp rfl id) ?_ hact (h.timers p hp)
    (fun hz => h.sched p hp hz)
  exact { hk with dynr := fun hd'' => by rw [hd', hd] at hd''; cases hd'' }

theorem wp_peerAdd {y' : Nat → Prop} {c : Ctx} (h : Inv S x y z c) {q : Peer} (hq : NewOk q)
    (hS : S → findKey c.peers q.key = none ∨ q.cfg = .new) (hy : ∀ j, y j → y' j) (hyn : y' c.nextId)
    (hyo : ∀ o, findKey c.peers q.key = some o → o.isDynamic = false → y' o.id) {Q : Added → Ctx → Prop}
    (hQ : ∀ c', Inv S x y' z c' → c'.peers = (addResult c.peers q c.nextId c.keys.cur.serial).2 →
      c'.now = c.now → c.nextId ≤ c'.nextId → c'.keys = c.keys →
      (∃ l, c'.log = c.log ++ l ∧ ∀ e ∈ l, ∃ i, e = .disestablished i) →
      Q (addResult c.peers q c.nextId c.keys.cur.serial).1 c') : wp S (peerAdd q) Q c := by
  unfold peerAdd
  rw [wp_bind, wp_get]
  unfold addResult at hQ
  cases hf : findKey c.peers q.key with
  | none =>
    rw [hf] at hQ
    simp only [] at hQ ⊢
    refine wp_addNew ?_
    exact hQ _ ((h.add hq (findKey_none hf)).mono (fun _ h => h) (fun j hj => hj.elim (hy j) fun e => e ▸ hyn)
      fun _ h => h) rfl rfl (Nat.le_succ _) rfl ⟨[], (List.append_nil _).symm, by simp⟩
  | some o =>
    rw [hf] at hQ hS
    simp only [] at hQ ⊢
    obtain ⟨ho, hok⟩ := findKey_some hf
    refine wp_ite (fun hc => wp_bug.2 fun hs => ?_) (fun _ => ?_)
    · rcases hS hs with h1 | h1
      · cases h1
      · exact hc h1
    have dis : ∀ {Q : Added → Ctx → Prop}, o.cfg ≠ .dynamic → (∀ c', Inv S x y' z c' →
        c'.peers = updPeers c.peers o.id (fun _ => { o with cfg := .disabled }) → c'.now = c.now →
        c.nextId ≤ c'.nextId → c'.keys = c.keys → (∃ l, c'.log = c.log ++ l ∧ ∀ e ∈ l, ∃ i, e = .disestablished i) →
        Q .failed c') →
        wp S (do modP o.id (fun p => { p with cfg := .disabled }); pure .failed) Q c := by
      intro Q hd hQ
      have hyo' := hyo o hf (by simpa [Peer.isDynamic] using hd)
      rw [wp_bind]
      refine (wp_modP h.ids ho rfl).2 ?_
      rw [wp_pure, updPeers_const h.ids ho]
      exact hQ _ (h.cfg ho (by simpa [Peer.isDynamic] using hd) (by simp) (fun j _ hj => hy j hj)
        fun hn => absurd hyo' hn) rfl rfl (Nat.le_refl _) rfl ⟨[], (List.append_nil _).symm, by simp⟩
    have repl : ∀ {Q : Added → Ctx → Prop}, (∀ c', Inv S x y' z c' →
        c'.peers = without' c.peers o.id ++ [{ q with id := c.nextId, lastSerial := c.keys.cur.serial }] →
        c'.now = c.now → c.nextId ≤ c'.nextId → c'.keys = c.keys →
        (∃ l, c'.log = c.log ++ l ∧ ∀ e ∈ l, ∃ i, e = .disestablished i) → Q (.added c.nextId) c') →
        wp S (do peerDelete o.id; addNew q) Q c := by
      intro Q hQ
      rw [wp_bind]
      refine wp_peerDelete h ho rfl (fun _ _ h => h) (fun j _ hj => hy j hj) (fun _ _ h => h) fun c1 ht h1 e1 => ?_
      have p1 : c1.peers = without' c.peers o.id := by rw [e1]
      have n1 : c1.nextId = c.nextId := by rw [e1]
      have k1 : c1.keys = c.keys := by rw [e1]
      have w1 : c1.now = c.now := by rw [e1]
      have l1 : c1.log = c.log ++ (if o.isEstablished then [.disestablished o.id] else []) := by rw [e1]
      refine wp_addNew ?_
      rw [n1]
      have hkey : ∀ p ∈ c1.peers, p.key ≠ q.key := by
        intro p hp he
        rw [p1, mem_without'] at hp
        exact hp.2 (congrArg Peer.id (keys_inj h.keys hp.1 ho (he.trans hok.symm)))
      refine hQ _ ((h1.add hq hkey).mono (fun _ h => h) (fun j hj => hj.elim id fun e => ?_) fun _ h => h) ?_ ?_ ?_ ?_ ?_
      · rw [e, n1]; exact hyn
      · show c1.peers ++ _ = _
        rw [p1, n1, k1]
      · exact w1
      · show c.nextId ≤ c1.nextId + 1
        rw [n1]; exact Nat.le_succ _
      · exact k1
      · refine ⟨_, l1, ?_⟩
        intro e he
        split at he
        · rw [List.mem_singleton] at he; exact ⟨_, he⟩
        · cases he
    cases hcfg : o.cfg with
    | new => rw [hcfg] at hQ; exact dis (by rw [hcfg]; simp) hQ
    | disabled => rw [hcfg] at hQ; exact dis (by rw [hcfg]; simp) hQ
    | dynamic => rw [hcfg] at hQ; exact repl hQ
    | static =>
      rw [hcfg] at hQ
      simp only [] at hQ ⊢
      refine wp_ite (fun he => ?_) (fun he => ?_)
      · rw [if_pos he] at hQ
        have hyo' := hyo o hf (by simp [Peer.isDynamic, hcfg])
        rw [wp_bind]
        refine (wp_modP h.ids ho rfl).2 ?_
        rw [wp_pure, updPeers_const h.ids ho]
        exact hQ _ (h.cfg ho (by simp [Peer.isDynamic, hcfg]) (by simp) (fun j _ hj => hy j hj)
          fun hn => absurd hyo' hn) rfl rfl (Nat.le_refl _) rfl ⟨[], (List.append_nil _).symm, by simp⟩
      · rw [if_neg he] at hQ
        exact repl hQ

end Fastd.Daemon
