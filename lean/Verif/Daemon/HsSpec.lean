import Verif.Daemon.ProtoSpec

/-!
# The handshake and the invariant: establishing connections
-/

namespace Fastd.Daemon

set_option linter.unusedSectionVars false

variable [Env] {S : Prop} {x y z : Nat → Prop}

/-! ### `establish` -/

theorem wp_establishEnd {c : Ctx} (h : Inv S nobody y z c) {p : Peer} (hp : p ∈ c.peers) {i : Nat} (hi : p.id = i)
    (he : p.state = .established) (hS : S → EnvOk) {initiator : Bool} {Q : Unit → Ctx → Prop}
    (hQ : ∀ c' q, Inv S nobody y z c' → q ∈ c'.peers → q.stat = p.stat → q.state = .established → q.sock = p.sock →
      q.old = p.old → p.sess.like q.sess →
      (∀ E : Eff → Prop, (∀ e, e.plain = true → E e) → (∀ k, E (.encrypt i k [])) → Fr (· = i) nobody E c c') →
      Q () c') : wp S (establishEnd i initiator) Q c := by
  subst hi
  unfold establishEnd
  rw [wp_bind, wp_get, wp_bind]
  refine wp_modP_same h hp rfl rfl rfl rfl rfl ⟨rfl, rfl, fun _ => rfl⟩ rfl rfl rfl rfl rfl
    (fun h => h) (fun h => h) (fun _ _ _ => Int.le_refl _) fun c1 e1 h1 hm1 f1 => ?_
  refine wp_ite (fun _ => ?_) (fun _ => ?_)
  · unfold scheduleHandshakeDefault
    rw [wp_bind]
    refine wp_handshakeDefaultRand fun d _ _ => ?_
    refine wp_opaque fun c2 e2 => ?_
    have h2 : Inv S nobody y z c2 := by rw [e2]; exact h1.pos _
    have hm2 : ({ p with estHsTimeout := c.now + MIN_HANDSHAKE_INTERVAL } : Peer) ∈ c2.peers := by rw [e2]; exact hm1
    refine wp_scheduleHandshake (z' := z) h2 hm2 rfl (by simp [he]) (fun _ _ h => h) (fun _ _ => he)
      fun c3 e3 h3 hm3 f3 => ?_
    refine hQ c3 _ h3 hm3 ?_ ?_ ?_ ?_ ?_ fun E _ _ => (f1 E).trans (Fr.trans ?_ (f3 E))
    · rw [scheduled_eq]; rfl
    · rw [scheduled_eq]; exact he
    · rw [scheduled_eq]
    · rw [scheduled_eq]
    · rw [scheduled_eq]; exact ⟨rfl, rfl⟩
    · rw [e2]; exact Fr.pos _
  · refine wp_sendEmpty h1 hm1 rfl he hS fun c2 q h2 hq hs _ _ f2 => ?_
    exact hQ c2 q h2 hq hs.stat (hs.state.trans he) hs.sock hs.old hs.sess fun E hE hE' => (f1 E).trans (f2 E hE hE')

/-- The sessions after `establish`: the new one, and what is left of the former ones. -/
structure Rekeyed (m : Nat) (c : Ctx) (p q : Peer) : Prop where
  new : q.sess.method = some m ∧ ∃ k, q.sess.mstate = some k ∧ k ∉ p.refs
  keep : validNow c p.sess = true → validNow c p.old = false → p.sess.method = some m → q.old = p.sess
  stay : validNow c p.old = true → p.old.method = some m → q.old = p.old
  left : ∀ k, q.old.mstate = some k → q.old.method = some m ∧ k ∈ p.refs

/-- What `establish` may log. -/
def EstE (i : Nat) (key : Key) (serial hsKey m : Nat) (initiator : Bool) (E : Eff → Prop) : Prop :=
  (∀ e, e.plain = true → E e) ∧ E (.session i key serial hsKey m initiator) ∧ E (.established i) ∧
    ∀ k, E (.encrypt i k [])

theorem wp_establish {c : Ctx} (h : Inv S nobody nobody z c) {p : Peer} (hp : p ∈ c.peers) {i : Nat} (hi : p.id = i)
    {m : Nat} {sock : Sock} {loc rem : Addr} {initiator compat : Bool} {g : Agreement} (hset : rem.isSet = true)
    (hst : p.state ≠ .inactive) (hS : S → EnvOk ∧ ∀ n, sock = .dyn n → p.sock = some (.dyn n)) (hr : Room c.peers p)
    (hcur : g.hk.serial ≤ c.keys.cur.serial) {Q : Bool → Ctx → Prop}
    (hQf : ∀ c' q, Inv S nobody nobody z c' → q ∈ c'.peers → q.id = i →
      (∀ E, (p.lastSerial < g.hk.serial → EstE i p.key g.hk.serial g.hk.key m initiator E) →
        Fr (claimT c i rem) (· = i) E c c') → Q false c')
    (hQt : ∀ c' q, Inv S nobody nobody z c' → q ∈ c'.peers → q.stat = p.stat → q.state = .established →
      (S → q.sock = some sock) → p.lastSerial < g.hk.serial → Rekeyed m c p q →
      (∀ E, EstE i p.key g.hk.serial g.hk.key m initiator E → Fr (claimT c i rem) (· = i) E c c') → Q true c') :
    wp S (establish i m sock loc rem initiator compat g) Q c := by
  subst hi
  have lift : ∀ {a : Nat → Prop} {E : Eff → Prop} {b d : Ctx}, (∀ j, a j → j = p.id) → Fr (· = p.id) a E b d →
      Fr (claimT c p.id rem) (· = p.id) E b d := fun ha hf => hf.mono (fun _ h => .inl h) ha fun _ h => h
  have lift' : ∀ {E : Eff → Prop} {b d : Ctx}, Fr (claimT c p.id rem) nobody E b d →
      Fr (claimT c p.id rem) (· = p.id) E b d := fun hf => hf.mono (fun _ h => h) (fun _ h => h.elim) fun _ h => h
  have pl : ∀ {E : Eff → Prop} {a d f g h}, EstE a d f g h initiator E → ∀ j, E (.disestablished j) :=
    fun hE j => hE.1 _ rfl
  unfold establish
  rw [wp_bind, wp_getP h.ids hp]
  refine wp_ite (fun _ => ?_) (fun hge => ?_)
  · rw [wp_pure]; exact hQf c p h hp rfl fun E _ => Fr.refl
  have hlt : p.lastSerial < g.hk.serial := Nat.lt_of_not_le hge
  rw [wp_bind]
  refine wp_claimAddress h hp rfl hset hst (fun hs n hn => (hS hs).2 n (by simpa using hn)) (fun c1 h1 hm1 ob1 f1 => ?_)
    fun c1 q1 h1 hq1 hs1 _ _ _ _ f1 => ?_
  · -- the address is ours
    rw [if_neg (by simp), wp_bind]
    have k1 : g.hk.serial ≤ c1.keys.cur.serial := Nat.le_trans hcur (f1 (fun _ => True) fun _ => trivial).cur
    have r1 : Room c1.peers (claimed p (some sock) (some loc) rem) := hr.fr rfl id (f1 (fun _ => True) fun _ => trivial)
    refine wp_newSession h1 hm1 (i := p.id) rfl (by exact hlt) k1 (fun c2 q _ h2 hq hqs hqst f2 => ?_)
      fun c2 o objs hsup h2 p2 k2 _ _ _ f2 => ?_
    · rw [if_pos (by rfl), wp_bind]
      refine wp_peerReset (x' := nobody) (y' := nobody) (z' := z) h2 hq (stat_id hqs)
        (fun hin => absurd (hqst.symm.trans hin) hst) (fun j hj h => hj h) (fun _ _ h => h) (fun _ _ h => h)
        fun c3 q3 h3 hq3 hc3 _ f3 => ?_
      rw [wp_pure]
      refine hQf c3 q3 h3 hq3 (stat_id (hc3.stat.trans hqs)) fun E hE => ?_
      replace hE := hE hlt
      exact ((lift' (f1 E (pl hE))).trans (lift (fun _ h => h) (f2 E))).trans
        (lift (fun _ h => h.elim) (f3 E (pl hE _)))
    · have hm2 : sessed (claimed p (some sock) (some loc) rem) o c1.nextObj m g.hk.serial ∈ c2.peers := by
        rw [p2]; exact mem_upd_self (p := claimed p (some sock) (some loc) rem) hm1
      have r2 : Room c2.peers (sessed (claimed p (some sock) (some loc) rem) o c1.nextObj m g.hk.serial) := by
        refine r1.mono rfl id ?_
        rw [p2]
        refine forall₂_updPeers (fun r hr hi => ?_) fun _ _ _ => ⟨rfl, id⟩
        rw [h1.inj hr hm1 hi]
        exact ⟨rfl, id⟩
      have hsk : S → (claimed p (some sock) (some loc) rem).sock = some sock := by
        intro hs
        unfold claimed claimedSock
        cases sock with
        | bound k => rfl
        | dyn n => exact (hS hs).2 n rfl
      rw [if_neg (by simp), wp_bind]
      refine wp_setEstablished (i := p.id) h2 hm2 rfl hst hset rfl (fun hs => ?_) r2 (fun _ _ h3 => ?_)
        fun c3 q _ h3 hq hse _ _ _ f3 => ?_
      · show (claimed p (some sock) (some loc) rem).sock.isSome = true
        rw [hsk hs]; rfl
      · rw [if_pos (by rfl), wp_bind]
        refine wp_peerReset (x' := nobody) (y' := nobody) (z' := z)
          (p := sessed (claimed p (some sock) (some loc) rem) o c1.nextObj m g.hk.serial) h3 (by exact hm2) rfl
          (fun hin => absurd hin hst) (fun j hj h => hj h) (fun _ _ h => h) (fun _ _ h => h)
          fun c4 q4 h4 hq4 hc4 _ f4 => ?_
        rw [wp_pure]
        refine hQf c4 q4 h4 hq4 (stat_id hc4.stat) fun E hE => ?_
        replace hE := hE hlt
        exact (((lift' (f1 E (pl hE))).trans (lift (fun _ h => h) (f2 E hE.2.1))).trans (Fr.pos _)).trans
          (lift (fun _ h => h.elim) (f4 E (pl hE _)))
      · rw [if_neg (by simp), wp_bind]
        have hc := hse.core
        refine wp_establishEnd h3 hq (stat_id hc.1) hc.2.1 (fun hs => (hS hs).1) fun c4 q4 h4 hq4 hs4 he4 hk4 ho4 hl4 f4 => ?_
        rw [wp_pure]
        refine hQt c4 q4 h4 hq4 (hs4.trans hc.1) he4 (fun hs => ?_) hlt ?_ fun E hE => ?_
        · rw [hk4, hc.2.2.1]; exact hsk hs
        · have n1 : c1.now = c.now := (f1 (fun _ => True) fun _ => trivial).now
          have vS : validNow c1 p.sess = validNow c p.sess := validNow_congr (fun k hk => ob1 k (by simp [Peer.refs, hk])) n1
          have vO : validNow c1 p.old = validNow c p.old := validNow_congr (fun k hk => ob1 k (by simp [Peer.refs, hk])) n1
          have eo : q4.old = o := ho4.trans hc.2.2.2.2.1
          obtain ⟨l1, l2⟩ := hl4
          rw [hc.2.2.2.2.2.1] at l1 l2
          refine ⟨⟨l1, c1.nextObj, l2, fun hk => ?_⟩, fun h5 h6 h7 => ?_, fun h5 h6 => ?_, fun k hk => ?_⟩
          · exact absurd (h1.refs.lt _ (mem_refs_of_mem hm1 hk)) (Nat.lt_irrefl _)
          · exact eo.trans (hsup.keep (vS.trans h5) (vO.trans h6) h7).1
          · exact eo.trans (hsup.stay (vO.trans h5) h6)
          · rw [eo] at hk ⊢
            have := hsup.oldM
            rw [hk] at this
            obtain ⟨m', hm'⟩ := Option.isSome_iff_exists.1 this
            exact ⟨by rw [hm', hsup.meth m' hm'], (hsup.ref k hk).1⟩
        · exact (((lift' (f1 E (pl hE))).trans (lift (fun _ h => h) (f2 E hE.2.1))).trans
            (lift (fun _ h => h) (f3 E hE.2.2.1))).trans (lift (fun _ h => h.elim) (f4 E hE.1 hE.2.2.2))
  · -- it is not
    rw [if_pos (by rfl), wp_bind]
    refine wp_peerReset (x' := nobody) (y' := nobody) (z' := z) h1 hq1 (stat_id hs1)
      (fun _ h => h) (fun _ _ h => h) (fun _ _ h => h) (fun _ _ h => h) fun c3 q3 h3 hq3 hc3 _ f3 => ?_
    rw [wp_pure]
    refine hQf c3 q3 h3 hq3 (stat_id (hc3.stat.trans hs1)) fun E hE => ?_
    replace hE := hE hlt
    exact (lift' (f1 E (pl hE))).trans (lift (fun _ h => h.elim) (f3 E (pl hE _)))

/-! ### The cached key -/

theorem Inv.cache {c : Ctx} (h : Inv S x y z c) {p : Peer} (hp : p ∈ c.peers) {k : Cache}
    (hk : CacheOk c.keys { p with cache := k }) :
    Inv S x y z { c with peers := updPeers c.peers p.id fun _ => { p with cache := k } } := by
  have hpk := h.peer p hp
  exact h.upd hp rfl rfl rfl rfl rfl (Nat.le_refl _) rfl rfl rfl rfl rfl rfl (fun _ _ => id) (fun _ _ => id)
    (fun _ _ => id) (h.ht.upd h.ids hp rfl rfl) (h.uniq.upd hp rfl (.inl rfl)) (h.socks.upd hp rfl rfl)
    (h.refs.upd h.ids hp rfl) (h.eth.upd h.ids hp rfl id) (h.limits.upd h.ids hp rfl id) { hpk with } (h.act p hp)
    (h.timers p hp) (fun hz => h.sched p hp hz) (.inr hk)

theorem wp_clearShared {c : Ctx} (h : Inv S x y z c) {p : Peer} (hp : p ∈ c.peers) {i : Nat} (hi : p.id = i)
    {Q : Unit → Ctx → Prop}
    (hQ : ∀ c', c' = { c with peers := updPeers c.peers i fun _ => { p with cache := {} } } → Inv S x y z c' →
      (∀ E, Fr (· = i) nobody E c c') → Q () c') : wp S (clearShared i) Q c := by
  subst hi
  unfold clearShared
  rw [wp_modP h.ids hp rfl, updPeers_const h.ids hp]
  refine hQ _ rfl (h.cache hp ⟨Nat.zero_le _, fun k _ hs h0 => absurd hs h0⟩) fun E => ?_
  exact Fr.upd (t := fun j => j = p.id) h.ids hp ⟨rfl, fun hn => absurd rfl hn, .inl, .inl rfl⟩

theorem wp_updateShared {c : Ctx} (h : Inv S x y z c) {p : Peer} (hp : p ∈ c.peers) {i : Nat} (hi : p.id = i)
    {hk : Protocol.HKey Nat} (hhk : hk = c.keys.cur ∨ hk = c.keys.prev) {k : Key} {Q : Bool → Ctx → Prop}
    (hQf : Q false c)
    (hQt : ∀ c' s, c' = { c with peers := updPeers c.peers i fun _ => { p with cache := s } } → Inv S x y z c' →
      { p with cache := s } ∈ c'.peers → (hk.serial ≠ 0 → Env.shared false hk.key p.key k = some (s.sigma, s.shared)) →
      (∀ E, Fr (· = i) nobody E c c') → Q true c') : wp S (updateShared i hk k) Q c := by
  subst hi
  unfold updateShared
  rw [wp_bind, wp_getP h.ids hp]
  refine wp_ite (fun hc => ?_) (fun _ => ?_)
  · rw [wp_pure]
    have hc' : p.cache.serial = hk.serial ∧ p.cache.peerKey = k := by simpa using hc
    have e : ({ p with cache := p.cache } : Peer) = p := rfl
    refine hQt c p.cache ?_ h hp (fun h0 => ?_) fun E => Fr.refl
    · rw [e, updPeers_self h.ids hp]
    · rw [← hc'.2]
      exact (h.caches p hp).2 hk hhk hc'.1.symm h0
  · cases hsh : Env.shared false hk.key p.key k with
    | none => exact hQf
    | some a =>
      obtain ⟨sigma, sh⟩ := a
      simp only []
      rw [wp_bind]
      refine (wp_modP (p := p) h.ids hp rfl).2 ?_
      rw [updPeers_const h.ids hp, wp_pure]
      refine hQt _ ⟨hk.serial, k, sigma, sh⟩ rfl (h.cache hp ⟨?_, ?_⟩) (mem_upd_self hp) (fun _ => hsh) fun E => ?_
      · rcases hhk with rfl | rfl
        · exact Nat.le_refl _
        · exact h.serials.1
      · intro j hj hs h0
        have hs' : j.serial = hk.serial := hs
        have : j = hk := by
          rcases hj with rfl | rfl <;> rcases hhk with rfl | rfl
          · rfl
          · exact absurd (h.serials.2 hs'.symm) h0
          · exact absurd (hs'.trans (h.serials.2 hs')) h0
          · rfl
        rw [this]; exact hsh
      · exact Fr.upd (t := fun j => j = p.id) h.ids hp ⟨rfl, fun hn => absurd rfl hn, .inl, .inl rfl⟩

/-! ### Replies -/

theorem replyPacket_fits (hE : EnvOk) {type : UInt8} {mtu : Nat} {method : Option Bytes}
    {methods : Option (List Bytes)} {pk hk phk : Key} (hm : methods ≠ some [])
    (hfit : Handshake.reserved hsConf mtu method methods (5 * Handshake.recordLen 32) ≤ Handshake.MAX_HANDSHAKE_SIZE)
    (h1 : pk.length = 32) (h2 : hk.length = 32) (h3 : phk.length = 32) :
    (replyPacket type mtu method methods pk hk phk).isSome = true := by
  have hsp : Handshake.spaceOf (replyRecords pk hk phk) ≤ 5 * Handshake.recordLen 32 := by
    unfold replyRecords
    have h0 := hE.ownKey
    simp [Handshake.spaceOf, Handshake.recordLen, h0, h1, h2, h3]
  obtain ⟨pkt, avail, pkt', e1, e2, _⟩ := Handshake.C28_handshake_fits hsConf Env.maxBuffer type mtu method methods
    (5 * Handshake.recordLen 32) true (replyRecords pk hk phk) hm hfit hE.buf hsp
  unfold replyPacket
  simp only [if_true] at e1
  rw [e1]
  simp only [Option.bind_some]
  rw [e2]; rfl

theorem wp_respondHandshake {c : Ctx} (h : Inv S x y z c) {p : Peer} (hp : p ∈ c.peers) {i : Nat} (hi : p.id = i)
    (hst : p.state ≠ .inactive) {sock : Sock} {loc rem : Addr} {k : Key} (hk : k.length = 32) {flags : UInt8}
    (hS : S → EnvOk ∧ rem.isSet = true ∧ Live c sock) {Q : Unit → Ctx → Prop}
    (hQ : ∀ c', Inv S x y z c' →
      (∀ E : Eff → Prop, (∀ e, e.plain = true → E e) → Fr (· = i) nobody E c c') → Q () c') :
    wp S (respondHandshake sock loc rem i k flags) Q c := by
  subst hi
  unfold respondHandshake
  rw [wp_bind, wp_get, wp_bind]
  refine wp_updateShared h hp rfl (.inl rfl) ?_ fun c1 s e1 h1 hm1 _ f1 => ?_
  · rw [if_pos (by rfl), wp_pure]
    exact hQ c h fun E _ => Fr.refl
  · rw [if_neg (by simp), wp_bind, wp_getP' h1.ids hm1 (i := p.id) rfl, wp_bind]
    refine wp_bugIfNone (fun hs => ?_) fun pkt _ => ?_
    · have hE := (hS hs).1
      exact replyPacket_fits hE (fun h => hE.methods p.group (by simpa using h)) (hE.fitList _ _)
        (h.peer p hp).key (hE.pub _) hk
    · refine wp_sendHandshakePkt h1 (fun hs => ?_) ?_ fun c2 h2 m2 _ _ f2 => ?_
      · obtain ⟨a, b, d⟩ := hS hs
        exact ⟨a, b, d.of (by rw [e1])⟩
      · intro j hj
        cases hj
        exact ⟨_, hm1, rfl, hst⟩
      · refine hQ c2 h2 fun E hE => (f1 E).trans ((f2 E hE).mono (fun j hj => ?_) (fun _ h => h) fun _ h => h)
        cases hj; rfl

/-! ### Records -/

/-- The packet was parsed. -/
def RcvOk (r : Rcv) : Prop := Handshake.parseTlvs r.pkt = some r.hs.parsed

/-- A record of the given length and its value. -/
def Has (r : Rcv) (t n : Nat) (b : Bytes) : Prop :=
  (r.hs.parsed.recs t).length = n ∧ Handshake.recBytes r.pkt (r.hs.parsed.recs t) = some b

theorem recBytes_length {pkt : Bytes} {r : Handshake.Rec} {b : Bytes} (h : Handshake.recBytes pkt r = some b) :
    b.length = r.length := by
  unfold Handshake.recBytes at h
  cases hd : r.data with
  | none => rw [hd] at h; cases h
  | some off =>
    rw [hd] at h
    simp only [Option.bind_eq_bind, Option.bind_some] at h
    split at h
    · cases h
      simp; omega
    · cases h

theorem Has.length {r : Rcv} {t n : Nat} {b : Bytes} (h : Has r t n b) : b.length = n :=
  (recBytes_length h.2).trans h.1

theorem RcvOk.bytes {r : Rcv} (h : RcvOk r) {t : Nat}
    (hd : (r.hs.parsed.recs t).data ≠ none ∨ (r.hs.parsed.recs t).length ≠ 0) :
    (Handshake.recBytes r.pkt (r.hs.parsed.recs t)).isSome = true := by
  obtain ⟨p, h1, h2⟩ := Handshake.C25_parser_safe r.pkt
  rw [h] at h1
  cases h1
  rcases h2 t with ⟨a, b⟩ | ⟨off, a, _, b, _⟩
  · rcases hd with h | h
    · exact absurd a h
    · exact absurd b h
  · unfold Handshake.recBytes
    rw [a]
    simp only [Option.bind_eq_bind, Option.bind_some]
    rw [if_pos b]; rfl

theorem wp_field {c : Ctx} {r : Rcv} {t n : Nat} (hr : S → RcvOk r) (hn : n ≠ 0) {Q : Option Bytes → Ctx → Prop}
    (hQn : (r.hs.parsed.recs t).length ≠ n → Q none c) (hQs : ∀ b, Has r t n b → Q (some b) c) : wp S (field r t n) Q c := by
  unfold field
  refine wp_ite (fun hl => ?_) (fun hl => ?_)
  · rw [wp_pure]; exact hQn hl
  · have hl' : (r.hs.parsed.recs t).length = n := by simpa using hl
    rw [wp_bind]
    refine wp_memIfNone (fun hs => (hr hs).bytes (.inr (by rw [hl']; exact hn))) fun b hb => ?_
    rw [wp_pure]
    exact hQs b ⟨hl', hb⟩

/-- The value of a record. -/
def Val (r : Rcv) (t : Nat) (b : Option Bytes) : Prop :=
  if (r.hs.parsed.recs t).data = none then b = none
  else ∃ v, Handshake.recBytes r.pkt (r.hs.parsed.recs t) = some v ∧ b = some v

theorem wp_record {c : Ctx} {r : Rcv} {t : Nat} (hr : S → RcvOk r) {Q : Option Bytes → Ctx → Prop}
    (hQ : ∀ b, Val r t b → Q b c) : wp S (record r t) Q c := by
  unfold record
  refine wp_ite (fun h => ?_) (fun h => ?_)
  · rw [wp_pure]; exact hQ none (by unfold Val; rw [if_pos h])
  · rw [wp_bind]
    refine wp_memIfNone (fun hs => (hr hs).bytes (.inl h)) fun b hb => ?_
    rw [wp_pure]
    exact hQ _ (by unfold Val; rw [if_neg h]; exact ⟨b, hb, rfl⟩)

end Fastd.Daemon
