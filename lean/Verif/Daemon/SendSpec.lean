import Verif.Daemon.AddSpec
import Verif.Props.Handshake

/-!
# Sending and the invariant: datagrams, handshake packets
-/

namespace Fastd.Daemon

set_option linter.unusedSectionVars false

/-- Assumptions on the configuration under which the daemon is shown not to abort. -/
structure EnvOk [Env] : Prop where
  /-- `sendmsg` does not refuse packet info -/
  noErr : ∀ n, Env.pktinfoErr n = false
  buf : 1232 ≤ Env.maxBuffer
  name : (0 : UInt8) ∉ Env.protocolName
  ownKey : Env.ownKey.length = 32
  pub : ∀ n, (Env.pub n).length = 32
  methods : ∀ g, Env.groupMethods g ≠ []
  resolv : ∀ g, ∀ n ∈ Env.groupMethods g, ∃ m, Env.methodByName n = some m
  fitInit : Handshake.reserved hsConf 0 none none (3 * Handshake.recordLen 32) ≤ Handshake.MAX_HANDSHAKE_SIZE
  fitList : ∀ g mtu, Handshake.reserved hsConf mtu none (some (Env.groupMethods g)) (5 * Handshake.recordLen 32) ≤
    Handshake.MAX_HANDSHAKE_SIZE
  fitName : ∀ g, ∀ n ∈ Env.groupMethods g, ∀ m, Env.methodByName n = some m → ∀ mtu,
    Handshake.reserved hsConf mtu (some (Env.methodName m)) none (5 * Handshake.recordLen 32) ≤
      Handshake.MAX_HANDSHAKE_SIZE

variable [Env] {S : Prop} {x y z : Nat → Prop}

/-! ### Steps that only touch schedules -/

/-- A peer whose handshake schedule may have changed. -/
def Resched (p q : Peer) : Prop := q = { p with nextHs := q.nextHs, task := q.task }

theorem Resched.refl (p : Peer) : Resched p p := rfl

theorem Resched.trans {p q r : Peer} (h : Resched p q) (h' : Resched q r) : Resched p r := by
  unfold Resched at *
  rw [h', h]

/-- A step that only logs, draws random numbers and may change handshake schedules. -/
structure Mild (c c' : Ctx) : Prop where
  peers : List.Forall₂ Resched c.peers c'.peers
  socks : c'.socks = c.socks
  objs : c'.objs = c.objs
  nextObj : c'.nextObj = c.nextObj
  eth : c'.eth = c.eth
  ht : c'.ht = c.ht
  now : c'.now = c.now
  resolves : c'.resolves = c.resolves
  verifs : c'.verifs = c.verifs
  unknown : c'.unknown = c.unknown
  hasFloating : c'.hasFloating = c.hasFloating

theorem Mild.refl (c : Ctx) : Mild c c :=
  ⟨forall₂_refl' fun p _ => Resched.refl p, rfl, rfl, rfl, rfl, rfl, rfl, rfl, rfl, rfl, rfl⟩

theorem Mild.trans {c c' c'' : Ctx} (h : Mild c c') (h' : Mild c' c'') : Mild c c'' :=
  ⟨forall₂_trans (R := Resched) (fun _ _ _ h1 h2 => Resched.trans h1 h2) h.peers h'.peers, h'.socks.trans h.socks,
    h'.objs.trans h.objs, h'.nextObj.trans h.nextObj, h'.eth.trans h.eth, h'.ht.trans h.ht, h'.now.trans h.now,
    h'.resolves.trans h.resolves, h'.verifs.trans h.verifs, h'.unknown.trans h.unknown,
    h'.hasFloating.trans h.hasFloating⟩

theorem Mild.of {c c' : Ctx} (h1 : c'.peers = c.peers) (h2 : c'.socks = c.socks) (h3 : c'.objs = c.objs)
    (h4 : c'.nextObj = c.nextObj) (h5 : c'.eth = c.eth) (h6 : c'.ht = c.ht) (h7 : c'.now = c.now)
    (h8 : c'.resolves = c.resolves) (h9 : c'.verifs = c.verifs) (h10 : c'.unknown = c.unknown)
    (h11 : c'.hasFloating = c.hasFloating) : Mild c c' :=
  ⟨by rw [h1]; exact forall₂_refl' fun p _ => Resched.refl p, h2, h3, h4, h5, h6, h7, h8, h9, h10, h11⟩

theorem Mild.mem {c c' : Ctx} (h : Mild c c') {p : Peer} (hp : p ∈ c.peers) : ∃ q ∈ c'.peers, Resched p q :=
  forall₂_mem h.peers hp

/-- A socket that exists. -/
def Live (c : Ctx) : Sock → Prop
  | .bound _ => True
  | .dyn n => ∃ i, (n, i) ∈ c.socks

theorem Live.of {c c' : Ctx} {s : Sock} (h : Live c s) (he : c'.socks = c.socks) : Live c' s := by
  cases s with
  | bound => trivial
  | dyn n => unfold Live at *; rw [he]; exact h

theorem wp_sockLive {c : Ctx} {s : Sock} {Q : Unit → Ctx → Prop} (h : S → Live c s) (hQ : Q () c) :
    wp S (sockLive s) Q c := by
  unfold sockLive
  cases s with
  | bound => exact hQ
  | dyn n =>
    simp only []
    rw [wp_bind, wp_get]
    cases hf : c.socks.find? (·.1 = n) with
    | none =>
      simp only []
      rw [wp_mem]
      intro hs
      obtain ⟨i, hi⟩ := h hs
      have := List.find?_eq_none.1 hf _ hi
      simp at this
    | some a => exact hQ

theorem wp_sockPeer {c : Ctx} {s : Sock} {Q : Option Nat → Ctx → Prop} (h : S → Live c s)
    (hb : ∀ k, s = .bound k → Q none c) (hd : ∀ n i, s = .dyn n → (n, i) ∈ c.socks → Q (some i) c) :
    wp S (sockPeer s) Q c := by
  unfold sockPeer
  cases s with
  | bound k => exact hb k rfl
  | dyn n =>
    simp only []
    rw [wp_bind, wp_get]
    cases hf : c.socks.find? (·.1 = n) with
    | none =>
      simp only []
      rw [wp_mem]
      intro hs
      obtain ⟨i, hi⟩ := h hs
      have := List.find?_eq_none.1 hf _ hi
      simp at this
    | some a =>
      have h1 := List.mem_of_find?_eq_some hf
      have h2 : a.1 = n := by simpa using List.find?_some hf
      subst h2
      exact hd a.1 a.2 rfl h1

/-- The socket of a peer exists. -/
theorem Inv.sockLive {c : Ctx} (h : Inv S x y z c) {p : Peer} (hp : p ∈ c.peers) {s : Sock} (hs : p.sock = some s) :
    Live c s := by
  cases s with
  | bound => trivial
  | dyn n => exact ⟨p.id, (h.socks.own p hp n).1 hs⟩

/-! ### `fastd_send` -/

/-- The peer a datagram is sent for, which must not be disabled. -/
def PeerArg (c : Ctx) (peer : Option Nat) : Prop := ∀ i, peer = some i → ∃ p ∈ c.peers, p.id = i ∧ p.state ≠ .inactive

theorem PeerArg.mild {c c' : Ctx} {peer : Option Nat} (h : PeerArg c peer) (hm : Mild c c') : PeerArg c' peer := by
  intro i hi
  obtain ⟨p, hp, hpi, hst⟩ := h i hi
  obtain ⟨q, hq, hr⟩ := hm.mem hp
  have h1 := congrArg Peer.id hr
  have h2 := congrArg Peer.state hr
  exact ⟨q, hq, h1.trans hpi, by rw [show q.state = p.state from h2]; exact hst⟩

theorem wp_send {c : Ctx} (h : Inv S x y z c) {sock : Option Sock} {loc rem : Addr} {peer : Option Nat} {data : Bytes}
    (hS : S → EnvOk ∧ rem.isSet = true ∧ ∃ s, sock = some s ∧ Live c s) (hp : PeerArg c peer) {Q : Unit → Ctx → Prop}
    (hQ : ∀ c' s, Inv S x y z c' → Mild c c' → sock = some s → c'.log = c.log ++ [.send s loc rem peer data] →
      c'.keys = c.keys →
      (∀ E : Eff → Prop, (∀ e, e.plain = true → E e) → Fr (fun j => peer = some j) nobody E c c') → Q () c') :
    wp S (send sock loc rem peer data) Q c := by
  unfold send
  cases sock with
  | none =>
    simp only []
    rw [wp_bug]
    intro hs
    obtain ⟨_, _, s, h1, _⟩ := hS hs
    cases h1
  | some s =>
    simp only []
    refine wp_ite (fun hr => wp_bug.2 fun hs => ?_) (fun _ => ?_)
    · rw [(hS hs).2.1] at hr; simp at hr
    rw [wp_bind]
    refine wp_sockLive (fun hs => by obtain ⟨_, _, s', h1, h2⟩ := hS hs; cases h1; exact h2) ?_
    rw [wp_bind, wp_get, wp_bind, wp_modify, wp_bind]
    have fin : ∀ c1, Inv S x y z c1 → Mild c c1 → c1.log = c.log → c1.keys = c.keys →
        (∀ E : Eff → Prop, Fr (fun j => peer = some j) nobody E c c1) → wp S (emit (.send s loc rem peer data)) Q c1 := by
      intro c1 h1 m1 l1 k1 f1
      rw [wp_emit]
      refine hQ _ s (h1.emit rfl) (m1.trans (Mild.of rfl rfl rfl rfl rfl rfl rfl rfl rfl rfl rfl)) rfl ?_ k1 ?_
      · show c1.log ++ _ = _
        rw [l1]
      · intro E hE
        exact (f1 E).trans (Fr.emit (hE _ rfl))
    have skip : wp S (pure () : M Unit) (fun _ c' => wp S (emit (.send s loc rem peer data)) Q c')
        { c with pos := c.pos + 1 } := by
      rw [wp_pure]
      exact fin _ (h.pos _) (Mild.of rfl rfl rfl rfl rfl rfl rfl rfl rfl rfl rfl) rfl rfl fun E => Fr.pos _
    unfold send.sendRetry
    split
    · rename_i i herr
      obtain ⟨p, hpm, hpi, hst⟩ := hp i rfl
      have noS : ¬ S := by
        intro hs
        rw [(hS hs).1.noErr] at herr
        simp at herr
      rw [wp_bind]
      refine (wp_getP' (p := p) (by exact h.ids) (by exact hpm) hpi).2 ?_
      refine wp_ite (fun hn => ?_) (fun _ => skip)
      unfold scheduleHandshakeDefault
      rw [wp_bind]
      refine wp_handshakeDefaultRand fun d hd _ => ?_
      refine wp_opaque fun c1 e1 => ?_
      have h1 : Inv S x y z c1 := by rw [e1]; exact (h.pos (c.pos + 1)).pos _
      have hp1 : p ∈ c1.peers := by rw [e1]; exact hpm
      refine wp_scheduleHandshake (z' := z) h1 hp1 hpi hst (fun _ _ h => h) (fun hs => absurd hs noS)
        fun c2 e2 h2 hp2 f2 => ?_
      have hl : c2.log = c.log := by rw [e2, e1]
      have hk : c2.keys = c.keys := by rw [e2, e1]
      refine fin c2 h2 ?_ hl hk ?_
      · refine ⟨?_, by rw [e2, e1], by rw [e2, e1], by rw [e2, e1], by rw [e2, e1], by rw [e2, e1], by rw [e2, e1],
          by rw [e2, e1], by rw [e2, e1], by rw [e2, e1], by rw [e2, e1]⟩
        have : c2.peers = updPeers c.peers i fun _ => scheduled { p with nextHs := c1.now + d } := by rw [e2, e1]
        rw [this]
        refine forall₂_updPeers (fun r hr hi => ?_) fun r _ _ => Resched.refl r
        rw [h.inj hr hpm (hi.trans hpi.symm)]
        unfold Resched
        rw [scheduled_eq]
      · intro E
        have a1 : Fr (fun j => some i = some j) nobody E c c1 := by rw [e1]; exact Fr.pos (c.pos + 1 + 1)
        exact a1.trans ((f2 E).mono (fun j hj => by rw [hj]) (fun _ h => h) fun _ h => h)
    · exact skip

/-! ### Handshake packets -/

theorem wp_sendHandshakePkt {c : Ctx} (h : Inv S x y z c) {sock : Sock} {loc rem : Addr} {peer : Option Nat}
    {pkt : Bytes} {flags : Option UInt8} (hS : S → EnvOk ∧ rem.isSet = true ∧ Live c sock) (hp : PeerArg c peer)
    {Q : Unit → Ctx → Prop}
    (hQ : ∀ c', Inv S x y z c' → Mild c c' → c'.keys = c.keys →
      c'.log = c.log ++ (Handshake.sendFree pkt flags).map (.send sock loc rem peer) →
      (∀ E : Eff → Prop, (∀ e, e.plain = true → E e) → Fr (fun j => peer = some j) nobody E c c') → Q () c') :
    wp S (sendHandshakePkt sock loc rem peer pkt flags) Q c := by
  unfold sendHandshakePkt
  generalize Handshake.sendFree pkt flags = l at hQ ⊢
  induction l generalizing c with
  | nil =>
    unfold forEach
    rw [wp_pure]
    exact hQ c h (Mild.refl c) rfl (List.append_nil _).symm fun E _ => Fr.refl
  | cons d ds ih =>
    unfold forEach
    rw [wp_bind]
    refine wp_send h (fun hs => ?_) hp fun c1 s h1 m1 hs1 l1 k1 f1 => ?_
    · obtain ⟨a, b, d⟩ := hS hs
      exact ⟨a, b, sock, rfl, d⟩
    cases hs1
    refine ih h1 (fun hs => ?_) (hp.mild m1) fun c2 h2 m2 k2 l2 f2 => ?_
    · obtain ⟨a, b, d⟩ := hS hs
      exact ⟨a, b, d.of m1.socks⟩
    · refine hQ c2 h2 (m1.trans m2) (k2.trans k1) ?_ fun E hE => (f1 E hE).trans (f2 E hE)
      rw [l2, l1, List.append_assoc]
      rfl

theorem wp_sendError {c : Ctx} (h : Inv S x y z c) {sock : Sock} {loc rem : Addr} {peer : Option Nat}
    {type flags code : UInt8} {detail : Nat} (hd : S → detail < 16) (hS : S → EnvOk ∧ rem.isSet = true ∧ Live c sock)
    (hp : PeerArg c peer) {Q : Unit → Ctx → Prop}
    (hQ : ∀ c' pkt, Inv S x y z c' → Mild c c' → c'.keys = c.keys →
      Handshake.errorPacket Env.maxBuffer type code detail = some pkt →
      c'.log = c.log ++ (Handshake.sendFree pkt (some flags)).map (.send sock loc rem peer) →
      (∀ E : Eff → Prop, (∀ e, e.plain = true → E e) → Fr (fun j => peer = some j) nobody E c c') → Q () c') :
    wp S (sendError sock loc rem peer type flags code detail) Q c := by
  unfold sendError
  rw [wp_bind]
  refine wp_bugIfNone (fun hs => ?_) fun pkt hpkt => ?_
  · obtain ⟨pkt, h1, _⟩ := Handshake.C28_error_fits Env.maxBuffer type code detail (hS hs).1.buf (hd hs)
    rw [h1]; rfl
  · exact wp_sendHandshakePkt h hS hp fun c' h' m' k' l' f' => hQ c' pkt h' m' k' hpkt l' f'

/-! ### Handshake keys -/

theorem Inv.newKeys {c : Ctx} (h : Inv S x y z c) {k : Protocol.HKeys Nat}
    (h1 : k.prev.serial ≤ k.cur.serial ∧ (k.prev.serial = k.cur.serial → k.cur.serial = 0))
    (h2 : c.keys.cur.serial ≤ k.cur.serial) (h3 : k = c.keys ∨ (k.prev = c.keys.cur ∧ c.keys.cur.serial < k.cur.serial))
    {n : Nat} : Inv S x y z { c with keys := k, pos := n } :=
  { h with
    serials := h1
    caches := fun p hp => by
      have := h.caches p hp
      refine ⟨Nat.le_trans this.1 h2, fun j hj hs h0 => ?_⟩
      rcases h3 with rfl | ⟨h3, h4⟩
      · exact this.2 j hj hs h0
      · rcases hj with rfl | rfl
        · have := this.1
          show _ = _
          have e : k.cur.serial = p.cache.serial := hs
          omega
        · rw [show ({ c with keys := k, pos := n } : Ctx).keys.prev = c.keys.cur from h3] at hs h0 ⊢
          exact this.2 _ (.inl rfl) hs h0
    log := ⟨fun s hs => ⟨(h.log.lt s hs).1, Nat.le_trans (h.log.lt s hs).2 h2⟩, h.log.last, h.log.inc, h.log.lastKey,
      h.log.incKey⟩ }

theorem wp_protoMaintenance {c : Ctx} (h : Inv S x y z c) {Q : Unit → Ctx → Prop}
    (hQ : ∀ c', c' = { c with keys := c.keys.maintenance c.now (Env.tape c.pos), pos := c.pos + 1 } →
      Inv S x y z c' → Mild c c' → (∀ t a (E : Eff → Prop), Fr t a E c c') → Q () c') : wp S protoMaintenance Q c := by
  unfold protoMaintenance
  rw [wp_bind, wp_draw, wp_modify]
  have hle : c.keys.cur.serial ≤ (c.keys.maintenance c.now (Env.tape c.pos)).cur.serial := by
    unfold Protocol.HKeys.maintenance
    split
    · exact Nat.le_succ _
    · exact Nat.le_refl _
  refine hQ _ rfl (h.newKeys ?_ hle ?_) (Mild.of rfl rfl rfl rfl rfl rfl rfl rfl rfl rfl rfl) fun t a E => ?_
  · unfold Protocol.HKeys.maintenance
    split
    · exact ⟨Nat.le_succ _, fun h => by simp at h⟩
    · exact h.serials
  · unfold Protocol.HKeys.maintenance
    split
    · exact .inr ⟨rfl, Nat.lt_succ_self _⟩
    · exact .inl rfl
  · exact ⟨rfl, rfl, hle, forall₂_refl' fun _ _ => PFr.refl, fun _ _ _ _ _ => rfl, [], (List.append_nil _).symm, by simp⟩

theorem initPacket_fits (hE : EnvOk) {k : Option Key} (hk : ∀ a, k = some a → a.length = 32) (n : Nat) :
    (initPacket k (Env.pub n)).isSome = true := by
  have hsp : Handshake.spaceOf (initRecords k (Env.pub n)) ≤ 3 * Handshake.recordLen 32 := by
    unfold initRecords
    have h1 := hE.ownKey
    have h2 := hE.pub n
    cases k with
    | none => simp [Handshake.spaceOf, Handshake.recordLen, h1, h2]
    | some a =>
      have h3 := hk a rfl
      simp [Handshake.spaceOf, Handshake.recordLen, h1, h2, h3]
  obtain ⟨pkt, avail, pkt', h1, h2, _⟩ := Handshake.C28_handshake_fits hsConf Env.maxBuffer 1 0 none none
    (3 * Handshake.recordLen 32) false (initRecords k (Env.pub n)) (by simp) hE.fitInit hE.buf hsp
  unfold initPacket Handshake.newInit
  simp only [Bool.false_eq_true, if_false] at h1
  rw [h1]
  simp only [Option.bind_some]
  rw [h2]; rfl

theorem wp_handshakeInit {c : Ctx} (h : Inv S x y z c) {sock : Sock} {loc rem : Addr} {peer : Option Nat}
    (hS : S → EnvOk ∧ rem.isSet = true ∧ Live c sock) (hp : PeerArg c peer) {Q : Unit → Ctx → Prop}
    (hQ : ∀ c', Inv S x y z c' → Mild c c' →
      (∃ pkt, c'.log = c.log ++ .hsInit peer rem :: (Handshake.sendFree pkt none).map (.send sock loc rem peer)) →
      (∀ E : Eff → Prop, (∀ e, e.plain = true → E e) → E (.hsInit peer rem) → Fr (fun j => peer = some j) nobody E c c') → Q () c') :
    wp S (handshakeInit sock loc rem peer) Q c := by
  unfold handshakeInit
  rw [wp_bind]
  refine wp_protoMaintenance h fun c1 e1 h1 m1 f1 => ?_
  have main : ∀ k : Option Key, (∀ a, k = some a → a.length = 32) → wp S (do
      let c ← get
      let pkt ← bugIfNone (initPacket k (Env.pub c.keys.cur.key))
      emit (.hsInit peer rem)
      sendHandshakePkt sock loc rem peer pkt none) Q c1 := by
    intro k hk
    rw [wp_bind, wp_get, wp_bind]
    refine wp_bugIfNone (fun hs => initPacket_fits (hS hs).1 hk _) fun pkt hpkt => ?_
    rw [wp_bind, wp_emit]
    refine wp_opaque fun c2 e2 => ?_
    have h2 : Inv S x y z c2 := by rw [e2]; exact h1.emit rfl
    have m2 : Mild c1 c2 := by rw [e2]; exact Mild.of rfl rfl rfl rfl rfl rfl rfl rfl rfl rfl rfl
    have m12 := m1.trans m2
    refine wp_sendHandshakePkt h2 (fun hs => ?_) (hp.mild m12) fun c3 h3 m3 k3 l3 f3 => ?_
    · obtain ⟨a, b, d⟩ := hS hs
      exact ⟨a, b, d.of m12.socks⟩
    · refine hQ c3 h3 (m12.trans m3) ⟨pkt, ?_⟩ fun E hE hE' => ?_
      · rw [l3]
        have : c2.log = c.log ++ [.hsInit peer rem] := by rw [e2, e1]
        rw [this, List.append_assoc]
        rfl
      · refine (f1 _ _ E).trans (Fr.trans ?_ (f3 E hE))
        rw [e2]
        exact Fr.emit hE'
  rw [wp_bind]
  unfold peerKeyOf
  cases peer with
  | none =>
    simp only []
    rw [wp_pure]
    exact main none (fun a h => (nomatch h))
  | some i =>
    obtain ⟨p, hpm, hpi, _⟩ := (hp.mild m1) i rfl
    simp only []
    rw [wp_bind, wp_getP' h1.ids hpm hpi, wp_pure]
    refine main (some p.key) fun a ha => ?_
    cases ha
    exact (h1.peer p hpm).key

end Fastd.Daemon
