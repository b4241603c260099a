import Verif.Daemon.ConnectSpec

/-!
# A handshake between compatible peers: receiving the packets

Helper lemmas for C83.
-/

namespace Fastd.Daemon

set_option linter.unusedSectionVars false

open Handshake (pktOf parsedOf encAll Fits lastRec baseRecords controlHeader)

variable [Env]

/-- Handshake packets of peer `p` that arrive on a socket from an address are accepted: `p` is a configured peer, the
packets are attributed to it, no other peer claims the address, and another connection to `p` may be set up now. -/
structure Hears (c : Ctx) (p : Peer) (sock : Sock) (rem : Addr) : Prop where
  mem : p ∈ c.peers
  static : p.cfg = .static
  set : rem.isSet = true
  way : match sock with
    | .dyn n => p.sock = some (.dyn n) ∧ addrEq p.addr rem = true
    | .bound _ => addrEq p.addr rem = true ∨
        ((c.hasFloating = true ∨ Env.onVerify ≠ none) ∧ matchesAddress p rem = true)
  free : ∀ q ∈ c.peers, q.id ≠ p.id → q.isEnabled = true → addrEq q.addr rem = false ∧ ownsAddress q rem = false
  may : mayConnect c.peers p = true
  interval : timedOut p.estHsTimeout c.now = true

theorem Hears.enabled {c : Ctx} {p : Peer} {sock : Sock} {rem : Addr} (hh : Hears c p sock rem) : p.isEnabled = true := by
  unfold Peer.isEnabled; rw [hh.static]

theorem Hears.notDyn {c : Ctx} {p : Peer} {sock : Sock} {rem : Addr} (hh : Hears c p sock rem) : p.isDynamic = false := by
  unfold Peer.isDynamic; rw [hh.static]; rfl

theorem Hears.active {c : Ctx} {p : Peer} {sock : Sock} {rem : Addr} (hh : Hears c p sock rem) {x z : Nat → Prop}
    (h : Inv True x nobody z c) : p.state ≠ .inactive := by
  intro hs
  have := (h.act p hh.mem (fun h => h)).1 hs
  rw [hh.enabled] at this
  cases this

theorem Hears.dyn {c : Ctx} {p : Peer} {sock : Sock} {rem : Addr} (hh : Hears c p sock rem) :
    ∀ n, sock = .dyn n → p.sock = some (.dyn n) := by
  rintro n rfl
  exact hh.way.1

theorem Hears.live {c : Ctx} {p : Peer} {sock : Sock} {rem : Addr} (hh : Hears c p sock rem) {x y z : Nat → Prop}
    (h : Inv True x y z c) : Live c sock := by
  cases sock with
  | bound => trivial
  | dyn n => exact h.sockLive hh.mem (hh.dyn n rfl)

/-- The result of the first maintenance of the keys on receiving a packet. -/
def maintained (c : Ctx) : Ctx :=
  { c with keys := c.keys.maintenance c.now (Env.tape c.pos), pos := c.pos + 1 }

theorem Hears.maintained {c : Ctx} {p : Peer} {sock : Sock} {rem : Addr} (hh : Hears c p sock rem) :
    Hears (maintained c) p sock rem := ⟨hh.mem, hh.static, hh.set, hh.way, hh.free, hh.may, hh.interval⟩

theorem must_senderOf {c : Ctx} {z : Nat → Prop} (h : Inv True nobody nobody z c) {p : Peer} {sock : Sock} {rem : Addr}
    (hh : Hears c p sock rem) {Q : Option (Option Nat) → Ctx → Prop}
    (hQ : ∀ peer, (peer = some p.id ∨ (peer = none ∧ (∃ k, sock = .bound k) ∧
        (c.hasFloating = true ∨ Env.onVerify ≠ none) ∧ matchesAddress p rem = true)) → Q (some peer) c) :
    must (senderOf sock rem) Q c := by
  refine must_of_wp (ks_senderOf _ _) (wp_senderOf h hh.set (hh.live h) ?_ ?_)
  · rintro ⟨n, j, hs, hm, hno⟩
    have hw := hh.way
    rw [hs] at hw
    have e : j = p.id := h.sockInj hm ((h.socks.own p hh.mem n).1 hw.1)
    have := hno p hh.mem e.symm
    rw [hw.2] at this
    cases this
  · intro peer hs
    refine hQ peer ?_
    cases sock with
    | dyn n =>
      exact .inl (hs.own n p.id rfl ((h.socks.own p hh.mem n).1 (hh.dyn n rfl)))
    | bound k =>
      cases peer with
      | some i =>
        obtain ⟨q, hq, hqi, hst⟩ := hs.arg i rfl
        left
        by_cases hp : q.id = p.id
        · rw [← hqi, hp]
        · have hen : q.isEnabled = true := by
            cases he : q.isEnabled with
            | true => rfl
            | false => exact absurd ((h.act q hq (fun h => h)).2 he) hst
          have := (hh.free q hq hp hen).1
          rw [hs.addr q hq (by rw [hqi])] at this
          cases this
      | none =>
        right
        have hno := hs.bound k rfl rfl p hh.mem
        rcases hh.way with hw | hw
        · rw [hno] at hw; cases hw
        · exact ⟨rfl, ⟨k, rfl⟩, hw⟩

theorem must_recv {c : Ctx} (h : Inv True nobody nobody nobody c) (hE : EnvOk) {p : Peer} {sock : Sock} {loc rem : Addr}
    (hh : Hears c p sock rem) {rs : List (Nat × Bytes)} {type : UInt8} (hf : Fits rs)
    (t0 : lastRec rs 0 = some [type]) (t3 : lastRec rs 3 = some [1]) (t4 : lastRec rs 4 = some [hsConf.modeId])
    (t5 : lastRec rs 5 = some Env.protocolName) (t1 : 1 < type → lastRec rs 1 = some [0])
    (t6 : lastRec rs 6 = some p.key) {Q : Unit → Ctx → Prop}
    (hQ : Inv True nobody nobody nobody (maintained c) →
      must (hsKnown sock loc rem p.id (rcvOf type rs)) Q (maintained c)) :
    must (handle (.recv sock loc rem (controlHeader ++ pktOf rs))) Q c := by
  show must (socketReceive sock loc rem (controlHeader ++ pktOf rs)) Q c
  unfold socketReceive
  refine must_bind (must_senderOf h hh fun peer hpeer => ?_)
  simp only []
  refine must_bind (must_ok (a := PACKET_CONTROL) (c' := c) rfl ?_)
  rw [if_pos rfl]
  have hlen : ¬ (controlHeader ++ pktOf rs).length < 13 := by
    rw [List.length_append, Handshake.pktOf_length]
    simp only [controlHeader, List.length_cons, List.length_nil]
    omega
  rw [if_neg hlen, if_neg (by show ¬ ((some (3 : UInt8)).all fun v => v &&& (0x0f : UInt8) ≠ 3) = true; decide)]
  rw [show (controlHeader ++ pktOf rs).drop 12 = pktOf rs from List.drop_left' rfl]
  unfold classify
  refine must_bind (must_ok (a := 1) (c' := c) rfl ?_)
  refine must_bind (must_mono (Q := fun _ c' => c' = c) ?_ ?_)
  · unfold canReceive
    rcases hpeer with rfl | ⟨rfl, _⟩
    · exact must_bind (must_getP h.ids hh.mem rfl (must_pure rfl))
    · exact must_pure rfl
  rintro can c' rfl
  have hnd : isDataPacket 1 = false := by decide
  rw [hnd, Bool.false_and]
  have hpk : p.key.length = 32 := (h.peer p hh.mem).key
  have hcont : must (hsPacket sock loc rem peer (pktOf rs) true) Q c' := by
    unfold hsPacket
    rw [Handshake.handle_pkt hf hE.name rfl t0 t3 t4 t5 t1]
    simp only []
    show must (handshakeHandle sock loc rem peer (rcvOf type rs)) Q c'
    unfold handshakeHandle
    refine must_bind (must_of_wp ks_protoMaintenance (wp_protoMaintenance h fun c1 e1 h1 _ _ => ?_))
    rw [show maintained c' = c1 from e1.symm] at hQ
    have hh1 : Hears c1 p sock rem := by rw [e1]; exact hh.maintained
    refine must_bind (must_field hf (by decide) (by decide) t6 hpk ?_)
    simp only []
    refine must_bind (must_mono (Q := fun r c' => c' = c1 ∧ r = .peer p.id) ?_ ?_)
    · unfold matchSenderKey
      refine must_bind (must_of_wp (ks_sockPeer _) (wp_sockPeer (fun _ => hh1.live h1) (fun k hk => ?_) fun n i hn hm => ?_))
      · rw [if_neg (by simp)]
        refine must_bind (must_get ?_)
        rcases hpeer with rfl | ⟨rfl, _, _, hm⟩
        · simp only []
          refine must_bind (must_getP h1.ids hh1.mem rfl ?_)
          rw [if_pos rfl]
          exact must_pure ⟨rfl, rfl⟩
        · refine must_pure ⟨rfl, ?_⟩
          refine findKeyAddr_found h1.keys hh1.mem rfl hh1.enabled hm fun q hq hne hen => ?_
          exact (hh1.free q hq (fun hi => hne (h1.inj hq hh1.mem hi)) hen).2
      · have hi : i = p.id := h1.sockInj hm ((h1.socks.own p hh1.mem n).1 (hh1.dyn n hn))
        subst hi
        rcases hpeer with rfl | ⟨_, ⟨k, hk⟩, _⟩
        · rw [if_neg (by simp)]
          refine must_bind (must_get ?_)
          simp only []
          refine must_bind (must_getP h1.ids hh1.mem rfl ?_)
          rw [if_pos rfl]
          exact must_pure ⟨rfl, rfl⟩
        · rw [hn] at hk; cases hk
    · rintro r c2 ⟨rfl, rfl⟩
      exact hQ h1
  have hok : must allowUnknown (fun ok c1 => c1 = c' ∧ (peer = none → ok = true)) c' := by
    unfold allowUnknown
    refine must_bind (must_get (must_pure ⟨rfl, fun hn => ?_⟩))
    rcases hpeer with rfl | ⟨_, _, hw, _⟩
    · cases hn
    · rcases hw with hw | hw
      · rw [hw]; rfl
      · cases hv : Env.onVerify with
        | none => exact absurd hv hw
        | some => simp
  have fin : must (do
      let ok ← allowUnknown
      if peer = none && !ok then pure ()
      else if (1 : UInt8) = PACKET_HANDSHAKE then hsPacket sock loc rem peer (pktOf rs) true
      else if isDataPacket 1 then
        let b ← backoff rem
        if b then pure ()
        else handshakeInit sock loc rem none
      else pure ()) Q c' := by
    refine must_bind (must_mono hok ?_)
    rintro ok c1 ⟨rfl, hn⟩
    rw [if_neg (by
      cases peer with
      | none => rw [hn rfl]; simp
      | some => simp), if_pos (by rfl)]
    exact hcont
  exact fin

/-! ### The checks -/

theorem must_checkMtu {c : Ctx} {x y z : Nat → Prop} (h : Inv True x y z c) {p : Peer} (hp : p ∈ c.peers) {sock : Sock} {loc rem : Addr}
    {rs : List (Nat × Bytes)} {type : UInt8} (hf : Fits rs)
    (hm : lastRec rs 11 = none ∨ (lastRec rs 11 = some (Handshake.leBytes 2 p.getMtu) ∧ p.getMtu < 65536))
    {Q : Bool → Ctx → Prop} (hQ : Q true c) : must (checkMtu sock loc rem p.id (rcvOf type rs)) Q c := by
  unfold checkMtu
  refine must_bind (must_getP h.ids hp rfl ?_)
  rcases hm with hm | ⟨hm, hlt⟩
  · have : (((rcvOf type rs).hs.parsed).recs Handshake.RECORD_MTU).length = 0 := by
      show ((parsedOf rs).recs 11).length = 0
      rw [Handshake.recs_none hf (by decide) hm]
    rw [if_pos (by rw [this]; decide)]
    exact must_pure hQ
  · obtain ⟨h1, h2⟩ := rcvOf_mtu hf hlt hm
    have h1' : (((rcvOf type rs).hs.parsed).recs Handshake.RECORD_MTU).length = 2 := h1
    rw [if_neg (by rw [h1']; simp)]
    have h2' : Handshake.asUint16 (rcvOf type rs).pkt ((rcvOf type rs).hs.parsed.recs Handshake.RECORD_MTU) = some p.getMtu := h2
    rw [h2']
    refine must_bind (must_ok (a := p.getMtu) (c' := c) rfl ?_)
    rw [if_neg (by simp)]
    exact must_pure hQ

theorem must_hsKnown {c : Ctx} {z : Nat → Prop} (h : Inv True nobody nobody z c) {p : Peer} {sock : Sock}
    {loc rem : Addr} (hh : Hears c p sock rem) {rs : List (Nat × Bytes)} {type : UInt8} (hf : Fits rs)
    (hm : lastRec rs 11 = none ∨ (lastRec rs 11 = some (Handshake.leBytes 2 p.getMtu) ∧ p.getMtu < 65536))
    (hE : EnvOk) {k : Key} (hk : k.length = 32) (t8 : lastRec rs 8 = some k) (t7 : lastRec rs 7 = some Env.ownKey)
    {Q : Unit → Ctx → Prop}
    (hQ1 : type = 1 → must (hsInitial sock loc rem p.id k 1) Q c)
    (hQ2 : type ≠ 1 → must (hsReply sock loc rem p.id k (rcvOf type rs)) Q c) :
    must (hsKnown sock loc rem p.id (rcvOf type rs)) Q c := by
  unfold hsKnown
  refine must_bind (must_mono (Q := fun r c' => c' = c ∧ r = some k) ?_ ?_)
  · unfold hsCheck
    refine must_bind (must_checkMtu h hh.mem hf hm ?_)
    rw [if_neg (by simp)]
    refine must_bind (must_field hf (by decide) (by decide) t8 hk ?_)
    simp only []
    refine must_bind (must_getP h.ids hh.mem rfl (must_bind (must_get ?_)))
    rw [hh.may, hh.interval, if_neg (by simp), if_neg (by simp)]
    refine must_bind (must_field hf (by decide) (by decide) t7 hE.ownKey ?_)
    simp only [if_true]
    exact must_pure ⟨rfl, rfl⟩
  · rintro r c' ⟨rfl, rfl⟩
    simp only []
    refine must_bind (must_mono (Q := fun ok c1 => c1 = c' ∧ ok = true) ?_ ?_)
    · unfold hsVerified
      refine must_bind (must_getP h.ids hh.mem rfl ?_)
      rw [hh.notDyn, if_neg (by simp)]
      exact must_pure ⟨rfl, rfl⟩
    · rintro ok c1 ⟨rfl, rfl⟩
      rw [if_neg (by simp)]
      by_cases ht : type = 1
      · rw [if_pos (by exact ht)]; exact hQ1 ht
      · rw [if_neg (by exact ht)]; exact hQ2 ht

/-! ### The first packet -/

/-- A peer after it was sent a reply: only the memory of recent handshakes has changed. -/
def Replied (p q : Peer) : Prop :=
  q = { p with lastRespTimeout := q.lastRespTimeout, lastRespAddr := q.lastRespAddr, cache := q.cache, nextHs := q.nextHs, task := q.task }

theorem Replied.trans {p q r : Peer} (h : Replied p q) (h' : Replied q r) : Replied p r := by
  unfold Replied at *
  rw [h', h]

theorem must_updateShared {c : Ctx} {x y z : Nat → Prop} (h : Inv True x y z c) {p : Peer} (hp : p ∈ c.peers) {hk : Protocol.HKey Nat}
    (hhk : hk = c.keys.cur ∨ hk = c.keys.prev) (h0 : hk.serial ≠ 0) {k : Key} {sigma sh : Bytes}
    (hs : Env.shared false hk.key p.key k = some (sigma, sh)) {Q : Bool → Ctx → Prop}
    (hQ : ∀ c' s, c' = { c with peers := updPeers c.peers p.id fun _ => { p with cache := s } } → Inv True x y z c' →
      { p with cache := s } ∈ c'.peers → s.sigma = sigma → s.shared = sh → Q true c') : must (updateShared p.id hk k) Q c := by
  have hne : must (updateShared p.id hk k) (fun a _ => a = true) c := by
    unfold updateShared
    refine must_bind (must_getP h.ids hp rfl ?_)
    split
    · exact must_pure rfl
    · rw [hs]
      exact must_bind (must_of_wp Ks.modP ((wp_modP h.ids hp rfl).2 (must_pure rfl)))
  have hw : must (updateShared p.id hk k) (fun a c' => a = true → Q true c') c := by
    refine must_of_wp (ks_updateShared _ _ _) (wp_updateShared h hp rfl hhk (fun h => by cases h) fun c1 s e1 h1 m1 hs1 _ => ?_)
    have := hs1 h0
    rw [hs] at this
    cases this
    exact fun _ => hQ c1 s e1 h1 m1 rfl rfl
  obtain ⟨a, c1, e1, h1⟩ := hne
  obtain ⟨b, c2, e2, h2⟩ := hw
  rw [e1] at e2
  cases e2
  subst h1
  exact ⟨_, _, e1, h2 rfl⟩

theorem must_hsInitial {c : Ctx} {z : Nat → Prop} (h : Inv True nobody nobody z c) (hE : EnvOk)
    (hmac : ∀ k d, (Env.hmac k d).length = 32) {p : Peer} {sock : Sock}
    {loc rem : Addr} (hh : Hears c p sock rem) (h0 : c.keys.cur.serial ≠ 0) {k : Key} (hk : k.length = 32)
    {sigma sh : Bytes} (hs : Env.shared false c.keys.cur.key p.key k = some (sigma, sh))
    (ht : timedOut p.lastRespTimeout c.now = true ∨ addrEq rem p.lastRespAddr = false) {Q : Unit → Ctx → Prop}
    (hQ : ∀ c' q, Inv True nobody nobody z c' → c'.keys = c.keys → c'.now = c.now → c'.hasFloating = c.hasFloating →
      List.Forall₂ Replied c.peers c'.peers → q ∈ c'.peers → Replied p q →
      Fits (replyRecs 2 p.getMtu none (some (Env.groupMethods p.group)) p.key (Env.pub c.keys.cur.key) k sh) →
      c'.log = c.log ++ [.send sock loc rem (some p.id) (controlHeader ++ pktOf (replyRecs 2 p.getMtu none
        (some (Env.groupMethods p.group)) p.key (Env.pub c.keys.cur.key) k sh))] →
      (∀ E : Eff → Prop, (∀ e, e.plain = true → E e) → Fr (· = p.id) nobody E c c') →
      Q () c') : must (hsInitial sock loc rem p.id k 1) Q c := by
  unfold hsInitial
  refine must_bind (must_getP h.ids hh.mem rfl (must_bind (must_get ?_)))
  rw [if_neg (by
    rcases ht with ht | ht
    · rw [ht]; simp
    · rw [ht]; simp)]
  refine must_bind (must_of_wp Ks.modP (wp_modP_same h hh.mem rfl rfl rfl rfl rfl ⟨rfl, rfl, fun _ => rfl⟩ rfl rfl rfl rfl rfl
    (fun h => h) (fun h => h) (fun _ _ _ => Int.le_refl _) fun c1 e1 h1 hm1 f1 => ?_))
  have k1 : c1.keys = c.keys := by rw [e1]
  unfold respondHandshake
  refine must_bind (must_get (must_bind ?_))
  generalize hp1 : ({ p with lastRespTimeout := c.now + MIN_HANDSHAKE_INTERVAL, lastRespAddr := rem } : Peer) = p1 at hm1
  have i1 : p1.id = p.id := by rw [← hp1]
  have key1 : p1.key = p.key := by rw [← hp1]
  have hst := hh.active h
  rw [← i1]
  refine must_updateShared h1 hm1 (.inl rfl) (by rw [k1]; exact h0) (sigma := sigma) (sh := sh)
    (by rw [k1, key1]; exact hs) fun c2 s e2 h2 hm2 hs1 hs2 => ?_
  rw [if_neg (by simp)]
  refine must_bind (must_getP h2.ids hm2 rfl ?_)
  have mtu : Peer.getMtu { p1 with cache := s } = p.getMtu := by rw [← hp1]; rfl
  have grp : p1.group = p.group := by rw [← hp1]
  have hpk : p.key.length = 32 := (h.peer p hh.mem).key
  rw [mtu]
  simp only [grp, key1, k1, hs2]
  have hfit := replyPacket_fits hE (type := 2) (mtu := p.getMtu) (method := none) (methods := some (Env.groupMethods p.group))
    (pk := p.key) (hk := Env.pub c.keys.cur.key) (phk := k) (fun h => hE.methods p.group (by simpa using h)) (hE.fitList _ _) hpk (hE.pub _) hk
  obtain ⟨pkt, hpkt⟩ := Option.isSome_iff_exists.1 hfit
  rw [hpkt]
  refine must_bind (must_ok (a := pkt) (c' := c2) rfl ?_)
  obtain ⟨hfill, hfits⟩ := replyPacket_of hE hmac (fun h => hE.methods p.group (by simpa using h)) (hE.fitList _ _) hpk (hE.pub _) hk
    hpkt sh
  rw [hfill]
  refine must_of_wp (ks_sendHandshakePkt _ _ _ _ _ _) (wp_sendHandshakePkt h2 (fun _ => ⟨hE, hh.set, ?_⟩) ?_ fun c3 h3 m3 k3 l3 f3 => ?_)
  · exact (hh.live h).of (by rw [e2, e1])
  · intro j hj
    cases hj
    exact ⟨_, hm2, rfl, by rw [← hp1]; exact hst⟩
  · obtain ⟨q, hq, hr⟩ := m3.mem hm2
    refine hQ c3 q h3 ?_ ?_ ?_ ?_ hq ?_ hfits ?_ fun E hE' => ?_
    · rw [k3, e2]; exact k1
    · rw [m3.now, e2, e1]
    · rw [m3.hasFloating, e2, e1]
    · have f1 : List.Forall₂ Replied c.peers c1.peers := by
        rw [e1]
        refine forall₂_updPeers (fun r hr hi => ?_) fun _ _ _ => rfl
        rw [h.inj hr hh.mem hi]
        rfl
      have f2 : List.Forall₂ Replied c1.peers c2.peers := by
        rw [e2]
        refine forall₂_updPeers (fun r hr hi => ?_) fun _ _ _ => rfl
        rw [h1.inj hr hm1 hi]
        rfl
      have f3 : List.Forall₂ Replied c2.peers c3.peers := m3.peers.imp fun a b hab => by
        unfold Replied
        rw [hab]
      have tr : ∀ a b c : Peer, Replied a b → Replied b c → Replied a c := fun _ _ _ => Replied.trans
      exact forall₂_trans tr (forall₂_trans tr f1 f2) f3
    · unfold Replied
      rw [hr, ← hp1]
    · rw [l3, e2, e1, i1]; rfl
    · refine (f1 E).trans (Fr.trans ?_ ((f3 E hE').mono (fun j hj => ?_) (fun _ h => h) fun _ h => h))
      · rw [e2]
        refine (Fr.upd (t := fun j => j = p.id) h1.ids hm1 ⟨rfl, fun hn => absurd i1 hn, .inl, .inl rfl⟩)
      · cases hj; exact i1

/-! ### Establishing the connection -/

/-- The key of the session. -/
def Agreement.sessKey (g : Agreement) (m : Nat) : Bytes := Env.deriveKey m g.A g.B g.X g.Y g.sigma g.salt

/-- A connection that has been set up from `c`. `k` is the session, `o` its state when it was made. -/
structure Estab (c c' : Ctx) (p q : Peer) (sock : Sock) (loc rem : Addr) (m : Nat) (init : Bool) (g : Agreement) (k : Nat)
    (o : Env.Sess) : Prop where
  mem : q ∈ c'.peers
  stat : q.stat = p.stat
  state : q.state = .established
  addr : q.addr = rem
  own : q.localAddr = loc
  link : q.sock = some sock
  iface : q.iface ≠ none
  method : q.sess.method = some m
  mstate : q.sess.mstate = some k
  serial : q.lastSerial = g.hk.serial
  new : ∃ n, Env.sessInit m (g.sessKey m) init false n c.now = some o
  keys : c'.keys = c.keys
  now : c'.now = c.now
  first : init = true → c'.objs k = some o ∧ c'.log = c.log ++ ([.session p.id p.key g.hk.serial g.hk.key m init] ++
    if p.state = .established then [] else [.established p.id])
  second : init = false → (Env.encrypt m o [] = none ∧ c'.log = c.log ++ ([.session p.id p.key g.hk.serial g.hk.key m init] ++
      if p.state = .established then [] else [.established p.id])) ∨
    ∃ pkt o', Env.encrypt m o [] = some (pkt, o') ∧ c'.objs k = some o' ∧
      c'.log = c.log ++ ([.session p.id p.key g.hk.serial g.hk.key m init] ++
        if p.state = .established then [] else [.established p.id]) ++
        [.encrypt p.id k [], .send sock loc rem (some p.id) pkt]

theorem noExit_setEstablished {c : Ctx} (hs : Sorted c.peers) {p : Peer} (hp : p ∈ c.peers) {i : Nat} (hi : p.id = i)
    (hif : p.iface ≠ none ∨ ∀ n, Env.tape n % 2 = 1) : NoExit (setEstablished i) c := by
  unfold setEstablished
  refine noExit_bind ?_ fun ok c' _ => noExit_of_ks (by ks [ks_seen _, ks_clearKeepalive _, ks_schedulePeerTask _]) c'
  unfold openIface
  have hg : getP i c = .ok (p, c) := by
    obtain ⟨a, c', h, h1, h2⟩ := must_getP (Q := fun a c' => a = p ∧ c' = c) hs hp hi ⟨rfl, rfl⟩
    rw [h, h1, h2]
  refine noExit_bind (by unfold NoExit; rw [hg]; intro _ h; cases h) fun q c' h => ?_
  rw [hg] at h
  cases h
  split
  · rename_i hn
    have ht : ∀ n, Env.tape n % 2 = 1 := hif.resolve_left fun h => h hn
    refine noExit_bind (noExit_of_ks Ks.draw _) fun n c' h => ?_
    have hn : n % 2 = 1 := by
      cases h
      exact ht _
    rw [if_pos hn]
    exact noExit_of_ks (by ks [Ks.unit]) _
  · exact noExit_of_ks Ks.pure _

theorem must_establish {c : Ctx} {z : Nat → Prop} (h : Inv True nobody nobody z c) (hE : EnvOk) {p : Peer} {sock : Sock}
    {loc rem : Addr} (hh : Hears c p sock rem) {m : Nat} {init : Bool} {g : Agreement} (hlt : p.lastSerial < g.hk.serial)
    (hcur : g.hk.serial ≤ c.keys.cur.serial) (hs : ∀ n, (Env.sessInit m (g.sessKey m) init false n c.now).isSome = true)
    (hif : p.iface ≠ none ∨ ∀ n, Env.tape n % 2 = 1) {Q : Bool → Ctx → Prop}
    (hQ : ∀ c' q k o, Inv True nobody nobody z c' → Estab c c' p q sock loc rem m init g k o →
      (∀ E : Eff → Prop, EstE p.id p.key g.hk.serial g.hk.key m init E → Fr (· = p.id) (· = p.id) E c c') → Q true c') :
    must (establish p.id m sock loc rem init false g) Q c := by
  have hst := hh.active h
  have lift : ∀ {E : Eff → Prop} {b d : Ctx}, Fr (· = p.id) nobody E b d → Fr (· = p.id) (· = p.id) E b d :=
    fun hf => hf.mono (fun _ h => h) (fun _ h => h.elim) fun _ h => h
  unfold establish
  refine must_bind (must_getP h.ids hh.mem rfl ?_)
  rw [if_neg (by omega)]
  refine must_bind ?_
  unfold claimAddress
  rw [hh.set, if_neg (by simp)]
  refine must_bind (must_get ?_)
  rw [claimScan_free_of hh.free]
  simp only []
  have hfree : ∀ r ∈ c.peers, r.id ≠ p.id → addrEq r.addr rem = false := by
    intro r hr hne
    cases he : r.isEnabled with
    | true => exact (hh.free r hr hne he).1
    | false =>
      have hin := (h.act r hr (fun h => h)).2 he
      exact addrEq_unset hh.set ((h.peer r hr).inact hin).1
  refine must_of_wp (ks_claimFinish _ _ _ _) (wp_claimFinish h hh.mem rfl hh.set hst hfree
    (fun _ n hn => hh.dyn n (by simpa using hn)) fun c1 ht n h1 hm1 e1 f1 => ?_)
  rw [if_neg (by simp)]
  have k1 : c1.keys = c.keys := by rw [e1]
  have n1 : c1.now = c.now := by rw [e1]
  have l1 : c1.log = c.log := by rw [e1]
  have r1 : Room c1.peers (claimed p (some sock) (some loc) rem) := (room_of_mayConnect hh.may).fr rfl id (f1 (fun _ => True))
  have hsk : (claimed p (some sock) (some loc) rem).sock = some sock := by
    unfold claimed claimedSock
    cases hsock : sock with
    | bound k => rfl
    | dyn n => exact hh.dyn n hsock
  refine must_bind (must_of_wp (ks_newSession _ _ _ _ _) (wp_newSession h1 hm1 (i := p.id) rfl (by exact hlt) (by rw [k1]; exact hcur)
    (fun c2 q hno _ _ _ _ _ => ?_) fun c2 o objs hsup h2 p2 k2 ob2 new2 l2 f2 => ?_))
  · have := hs (Env.tape c1.pos)
    rw [n1] at hno
    unfold Agreement.sessKey at this
    rw [hno] at this
    cases this
  rw [if_neg (by simp)]
  have hm2 : sessed (claimed p (some sock) (some loc) rem) o c1.nextObj m g.hk.serial ∈ c2.peers := by
    rw [p2]; exact mem_upd_self (p := claimed p (some sock) (some loc) rem) hm1
  have r2 : Room c2.peers (sessed (claimed p (some sock) (some loc) rem) o c1.nextObj m g.hk.serial) := by
    refine r1.mono rfl id ?_
    rw [p2]
    refine forall₂_updPeers (fun r hr hi => ?_) fun _ _ _ => ⟨rfl, id⟩
    rw [h1.inj hr hm1 hi]
    exact ⟨rfl, id⟩
  refine must_bind (must_of_wp_at (noExit_setEstablished h2.ids hm2 rfl hif) (wp_setEstablished (i := p.id) h2 hm2 rfl hst hh.set rfl (fun _ => ?_) r2
    (fun hno hodd _ => ?_) fun c3 q hqi h3 hq hse k3 o3 l3 f3 => ?_))
  · show (claimed p (some sock) (some loc) rem).sock.isSome = true
    rw [hsk]; rfl
  · rcases hif with hif | hif
    · exact absurd hno hif
    · exact absurd (hif _) hodd
  rw [if_neg (by simp)]
  have hc := hse.core
  have n2 : c2.now = c1.now := (f2 (fun _ => True) trivial).now
  have n3 : c3.now = c2.now := (f3 (fun _ => True) trivial).now
  obtain ⟨o0, ho0⟩ := Option.isSome_iff_exists.1 (hs (Env.tape c1.pos))
  have ob0 : c3.objs c1.nextObj = some o0 := by
    rw [o3, new2, n1]; exact ho0
  have lg : c3.log = c.log ++ ([.session p.id p.key g.hk.serial g.hk.key m init] ++
      if p.state = .established then [] else [.established p.id]) := by
    rw [l3, l2, l1, List.append_assoc]; rfl
  have fr3 : ∀ E : Eff → Prop, EstE p.id p.key g.hk.serial g.hk.key m init E → Fr (· = p.id) (· = p.id) E c c3 :=
    fun E hE' => ((lift (f1 E)).trans (f2 E hE'.2.1)).trans (f3 E hE'.2.2.1)
  unfold establishEnd
  refine must_bind (must_bind (must_get ?_))
  refine must_bind (must_of_wp Ks.modP (wp_modP_same h3 hq (stat_id hc.1) rfl rfl rfl rfl ⟨rfl, rfl, fun _ => rfl⟩ rfl rfl rfl rfl rfl
    (fun h => h) (fun h => h) (fun _ _ _ => Int.le_refl _) fun c4 e4 h4 hm4 f4 => ?_))
  have qs : q.sess = ⟨false, false, some m, some c1.nextObj⟩ := hc.2.2.2.2.2.1
  cases init with
  | true =>
    rw [if_pos rfl]
    unfold scheduleHandshakeDefault
    refine must_bind (must_of_wp Ks.rand (wp_handshakeDefaultRand fun d _ _ => ?_))
    refine must_of_wp (ks_scheduleHandshake _ _) (wp_opaque fun c5 e5 => ?_)
    have h5 : Inv True nobody nobody z c5 := by rw [e5]; exact h4.pos _
    have hm5 : ({ q with estHsTimeout := c3.now + MIN_HANDSHAKE_INTERVAL } : Peer) ∈ c5.peers := by rw [e5]; exact hm4
    refine wp_scheduleHandshake (z' := z) h5 hm5 (stat_id hc.1) (by simp [hc.2.1]) (fun _ _ h => h) (fun _ _ => hc.2.1)
      fun c6 e6 h6 hm6 f6 => must_pure (hQ c6 (scheduled { q with estHsTimeout := c3.now + MIN_HANDSHAKE_INTERVAL, nextHs := c5.now + d }) c1.nextObj o0 h6 ?_ fun E hE' => ?_)
    · refine ⟨hm6, ?_, ?_, ?_, ?_, ?_, ?_, ?_, ?_, ?_, ⟨_, ho0⟩, ?_, ?_, fun _ => ⟨?_, ?_⟩, fun h => by cases h⟩
      · rw [scheduled_eq]; exact hc.1
      · rw [scheduled_eq]; exact hc.2.1
      · rw [scheduled_eq]; exact hc.2.2.2.1
      · rw [scheduled_eq]; exact hc.2.2.2.2.2.2.2.2.1
      · rw [scheduled_eq]; exact hc.2.2.1.trans hsk
      · rw [scheduled_eq]; exact hqi
      · rw [scheduled_eq]; show q.sess.method = _; rw [qs]
      · rw [scheduled_eq]; show q.sess.mstate = _; rw [qs]
      · rw [scheduled_eq]; exact hc.2.2.2.2.2.2.1
      · rw [e6, e5, e4]; exact (k3.trans k2).trans k1
      · rw [e6, e5, e4]; exact (n3.trans n2).trans n1
      · rw [e6, e5, e4]; exact ob0
      · rw [e6, e5, e4]; exact lg
    · refine (fr3 E hE').trans ((lift (f4 E)).trans (Fr.trans ?_ (lift (f6 E))))
      rw [e5]; exact Fr.pos _
  | false =>
    rw [if_neg (by simp)]
    refine must_of_wp (ks_sendEmpty _) (wp_sendEmpty h4 hm4 (stat_id hc.1) hc.2.1 (fun _ => hE) fun c5 r h5 hr hs5 kp5 sent5 f5 =>
      must_pure (hQ c5 r c1.nextObj o0 h5 ?_ fun E hE' => ?_))
    · have rs : r.sess.method = some m ∧ r.sess.mstate = some c1.nextObj := by
        have := hs5.sess
        unfold Session.like at this
        rw [this.1, this.2]
        show q.sess.method = _ ∧ q.sess.mstate = _
        rw [qs]; exact ⟨rfl, rfl⟩
      refine ⟨hr, hs5.stat.trans hc.1, hs5.state.trans hc.2.1, hs5.addr.trans hc.2.2.2.1, hs5.localAddr.trans hc.2.2.2.2.2.2.2.2.1,
        hs5.sock.trans (hc.2.2.1.trans hsk), ?_, rs.1, rs.2, ?_, ⟨_, ho0⟩, ?_, ?_, fun h => (by cases h), fun _ => ?_⟩
      · rw [hs5]; exact hqi
      · rw [hs5]; exact hc.2.2.2.2.2.2.1
      · rw [kp5.keys, e4]; exact (k3.trans k2).trans k1
      · rw [kp5.now, e4]; exact (n3.trans n2).trans n1
      · obtain ⟨m', k', o', e1', e2', e3', hsent⟩ := sent5
        have e1'' : q.sess.method = some m' := e1'
        have e2'' : q.sess.mstate = some k' := e2'
        rw [qs] at e1'' e2''
        cases e1''
        cases e2''
        rw [e4] at e3'
        have : some o0 = some o' := ob0.symm.trans e3'
        cases this
        have l4 : c4.log = c3.log := by rw [e4]
        rw [l4, lg] at hsent
        rcases hsent with ⟨hn, hl⟩ | ⟨pkt, o', sk, he, hsk', ho', hl⟩
        · exact .inl ⟨hn, hl⟩
        · refine .inr ⟨pkt, o', he, ho', ?_⟩
          have hsk'' : q.sock = some sk := hsk'
          rw [hc.2.2.1] at hsk''
          have : some sock = some sk := hsk.symm.trans hsk''
          cases this
          rw [hl]
          have a1 : q.localAddr = loc := hc.2.2.2.2.2.2.2.2.1
          have a2 : q.addr = rem := hc.2.2.2.1
          show _ ++ [_, Eff.send sock q.localAddr q.addr _ pkt] = _
          rw [a1, a2]
          rfl
    · exact (fr3 E hE').trans ((lift (f4 E)).trans (lift (f5 E hE'.1 hE'.2.2.2)))

/-! ### The second packet -/

theorem Estab.mtu {c c' : Ctx} {p q : Peer} {sock : Sock} {loc rem : Addr} {m : Nat} {init : Bool} {g : Agreement} {k : Nat}
    {o : Env.Sess} (h : Estab c c' p q sock loc rem m init g k o) : q.getMtu = p.getMtu ∧ q.key = p.key ∧ q.id = p.id := by
  refine ⟨?_, stat_key h.stat, stat_id h.stat⟩
  have : q.mtu = p.mtu := congrArg Stat.mtu h.stat
  unfold Peer.getMtu
  rw [this]

theorem must_finishHandshake {c : Ctx} {z : Nat → Prop} (h : Inv True nobody nobody z c) (hE : EnvOk)
    (hmac : ∀ k d, (Env.hmac k d).length = 32) {p : Peer} {sock : Sock}
    {loc rem : Addr} (hh : Hears c p sock rem) {rs : List (Nat × Bytes)} (hf : Fits rs) {k : Key} (hk32 : k.length = 32)
    {hk : Protocol.HKey Nat} (hlt : p.lastSerial < hk.serial) (hcur : hk.serial ≤ c.keys.cur.serial) {l : Bytes} {m : Nat}
    (t14 : lastRec rs 14 = some l)
    (hm : Handshake.methodByNameList (Env.groupMethods p.group) Env.methodByName (some l) = .some m)
    {sigma sh mac : Bytes} (hs : Env.shared true hk.key p.key k = some (sigma, sh))
    (hv : Env.hmac sh (zeroedTlv (rcvOf 2 rs)) = mac)
    (hi : ∀ n, (Env.sessInit m (Env.deriveKey m (Env.pub hk.key) k Env.ownKey p.key sigma sh) true false n c.now).isSome = true)
    (hif : p.iface ≠ none ∨ ∀ n, Env.tape n % 2 = 1) {Q : Unit → Ctx → Prop}
    (hQ : ∀ c1 c' q0 q k' o, Inv True nobody nobody z c' →
      Estab c c1 p q0 sock loc rem m true ⟨hk, Env.pub hk.key, k, Env.ownKey, p.key, sigma, sh⟩ k' o →
      Mild c1 c' → c'.keys = c.keys → q ∈ c'.peers → Resched q0 q →
      Fits (replyRecs 3 p.getMtu (some (Env.methodName m)) none p.key (Env.pub hk.key) k sh) →
      c'.log = c1.log ++ [.send sock loc rem (some p.id) (controlHeader ++ pktOf (replyRecs 3 p.getMtu
        (some (Env.methodName m)) none p.key (Env.pub hk.key) k sh))] →
      Q () c') : must (finishHandshake sock loc rem p.id hk k mac (rcvOf 2 rs)) Q c := by
  unfold finishHandshake
  refine must_bind (must_getP h.ids hh.mem rfl (must_bind (must_record hf (by decide) ?_)))
  rw [show lastRec rs Handshake.RECORD_METHOD_LIST = some l from t14, hm]
  simp only []
  rw [hs]
  simp only []
  rw [if_neg (by rw [hv]; simp), show isCompat (rcvOf 2 rs).hs.flags = false from (by decide : isCompat 1 = false)]
  refine must_bind (must_establish h hE hh hlt hcur (fun n => hi n) hif fun c1 q0 k' o h1 he f1 => ?_)
  rw [if_neg (by simp)]
  obtain ⟨e1, e2, e3⟩ := he.mtu
  have hpk : p.key.length = 32 := (h.peer p hh.mem).key
  unfold sendFinish
  refine must_bind (must_getP h1.ids he.mem e3 ?_)
  rw [e1, e2]
  obtain ⟨n, hn, hnm⟩ := methodByNameList_some hm
  have hfit := replyPacket_fits hE (type := 3) (mtu := p.getMtu) (method := some (Env.methodName m)) (methods := none)
    (pk := p.key) (hk := Env.pub hk.key) (phk := k) (fun h => by cases h) (hE.fitName _ n hn m hnm _) hpk (hE.pub _) hk32
  obtain ⟨pkt, hpkt⟩ := Option.isSome_iff_exists.1 hfit
  rw [hpkt]
  refine must_bind (must_ok (a := pkt) (c' := c1) rfl ?_)
  obtain ⟨hfill, hfits⟩ := replyPacket_of hE hmac (fun h => by cases h) (hE.fitName _ n hn m hnm _) hpk (hE.pub _) hk32
    hpkt sh
  rw [hfill]
  refine must_of_wp (ks_sendHandshakePkt _ _ _ _ _ _) (wp_sendHandshakePkt h1 (fun _ => ⟨hE, hh.set, ?_⟩) ?_ fun c3 h3 m3 k3 l3 f3 => ?_)
  · cases hsk : sock with
    | bound => trivial
    | dyn n => exact h1.sockLive he.mem (by rw [he.link, hsk])
  · intro j hj
    cases hj
    exact ⟨_, he.mem, e3, by rw [he.state]; simp⟩
  · obtain ⟨q, hq, hr⟩ := m3.mem he.mem
    refine hQ c1 c3 q0 q k' o h3 he m3 (k3.trans he.keys) hq hr hfits ?_
    rw [l3]
    show _ ++ List.map _ (Handshake.sendFree _ (some 1)) = _
    rfl

/-! ### The third packet -/

theorem must_handleFinish {c : Ctx} {z : Nat → Prop} (h : Inv True nobody nobody z c) (hE : EnvOk) {p : Peer} {sock : Sock}
    {loc rem : Addr} (hh : Hears c p sock rem) {rs : List (Nat × Bytes)} (hf : Fits rs) {k : Key}
    {hk : Protocol.HKey Nat} (hhk : hk = c.keys.cur ∨ hk = c.keys.prev) (h0 : hk.serial ≠ 0)
    (hlt : p.lastSerial < hk.serial) (hcur : hk.serial ≤ c.keys.cur.serial) {n : Bytes} {m : Nat}
    (t12 : lastRec rs 12 = some n)
    (hm : Handshake.methodByName (Env.groupMethods p.group) Env.methodByName (some n) = some m)
    {sigma sh mac : Bytes} (hs : Env.shared false hk.key p.key k = some (sigma, sh))
    (hv : Env.hmac sh (zeroedTlv (rcvOf 3 rs)) = mac)
    (hi : ∀ n, (Env.sessInit m (Env.deriveKey m k (Env.pub hk.key) p.key Env.ownKey sigma sh) false false n c.now).isSome = true)
    (hif : p.iface ≠ none ∨ ∀ n, Env.tape n % 2 = 1) {Q : Unit → Ctx → Prop}
    (hQ : ∀ c0 c1 c' p0 q0 k' o, Inv True nobody nobody z c' → c0.now = c.now → c0.keys = c.keys → c0.log = c.log →
      p0 = { p with cache := p0.cache } →
      Estab c0 c1 p0 q0 sock loc rem m false ⟨hk, k, Env.pub hk.key, p.key, Env.ownKey, sigma, sh⟩ k' o →
      c' = { c1 with peers := updPeers c1.peers p.id fun _ => { q0 with cache := {} } } →
      { q0 with cache := {} } ∈ c'.peers → Q () c') :
    must (handleFinish sock loc rem p.id hk k mac (rcvOf 3 rs)) Q c := by
  unfold handleFinish
  refine must_bind (must_getP h.ids hh.mem rfl (must_bind (must_record hf (by decide) ?_)))
  rw [show lastRec rs Handshake.RECORD_METHOD_NAME = some n from t12, hm]
  simp only []
  refine must_bind (must_updateShared h hh.mem hhk h0 hs fun c2 s e2 h2 hm2 hs1 hs2 => ?_)
  rw [if_neg (by simp)]
  refine must_bind (must_getP h2.ids hm2 rfl ?_)
  rw [if_neg (by rw [hs2, hv]; simp)]
  have hh2 : Hears c2 { p with cache := s } sock rem := by
    refine ⟨hm2, hh.static, hh.set, ?_, ?_, ?_, ?_⟩
    · rw [e2]; exact hh.way
    · intro q hq hne
      rw [e2] at hq
      rcases mem_upd hq with rfl | ⟨hq, _⟩
      · exact absurd rfl hne
      · exact hh.free q hq hne
    · rw [e2]
      exact (mayConnect_upd (q := { p with cache := s }) h.ids hh.mem rfl rfl).trans hh.may
    · rw [e2]; exact hh.interval
  have k2 : c2.keys = c.keys := by rw [e2]
  have n2 : c2.now = c.now := by rw [e2]
  rw [hs1, hs2, show isCompat (rcvOf 3 rs).hs.flags = false from (by decide : isCompat 1 = false)]
  refine must_bind (must_establish (p := { p with cache := s }) h2 hE hh2 (by exact hlt) (by rw [k2]; exact hcur)
    (fun n => by rw [n2]; exact hi n) hif fun c3 q0 k' o h3 he f3 => ?_)
  have e3 : q0.id = p.id := he.mtu.2.2
  refine must_of_wp (ks_clearShared _) (wp_clearShared h3 he.mem e3 fun c4 e4 h4 _ => ?_)
  refine hQ c2 c3 c4 _ q0 k' o h4 n2 k2 (by rw [e2]) rfl he e4 ?_
  rw [e4]
  exact mem_updPeers_self' he.mem e3 (f := fun _ => { q0 with cache := {} })

end Fastd.Daemon
