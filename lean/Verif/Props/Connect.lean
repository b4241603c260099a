import Verif.Daemon.ConnectTask
import Verif.Props.Abort

/-!
# C83: compatible peers connect

Two daemons, `a` and `b`, each with its own configuration and its own history. `a` has sent the first packet of a
handshake. If the packets arrive, in whatever way the addresses and ports are rewritten on the way, and each daemon
is free to do anything else in between as long as it takes less than 15 s, then both end up with an established
connection whose keys and methods agree.
-/

namespace Fastd.Connect

open Daemon
open Handshake (controlHeader)

/-! ### Statement -/

/-- The clock, the record of effects and the current handshake key of a daemon. -/
abbrev nowOf (E : Env) (c : @Ctx E) : Time := c.now
abbrev logOf (E : Env) (c : @Ctx E) : List Eff := c.log
abbrev keyOf (E : Env) (c : @Ctx E) : Protocol.HKey Nat := c.keys.cur

/-- The number of the handshake key for the next packet: a key is replaced 15 s after it was made. -/
def nextSerial (E : Env) (c : @Ctx E) : Nat :=
  if c.keys.cur.preferredTill ≤ c.now then c.keys.cur.serial + 1 else c.keys.cur.serial

/-- Handling an event succeeds and leads to a state with a property. -/
def After (E : Env) (e : Event) (c : @Ctx E) (Q : @Ctx E → Prop) : Prop := ∃ c', @handle E e c = .ok ((), c') ∧ Q c'

/-- Two daemons have matching configurations: `pB` is the peer section for `b` at `a`, `pA` the one for `a` at `b`. -/
structure Compatible (a b : Env) (pB pA : Peer) : Prop where
  /-- each is configured with the public key of the other -/
  keyB : pB.key = b.ownKey
  keyA : pA.key = a.ownKey
  /-- protocol, mode and MTU are the same -/
  protocol : a.protocolName = b.protocolName
  mode : a.mode = .tun ↔ b.mode = .tun
  mtu : @Peer.getMtu a pB = @Peer.getMtu b pA
  mtuLt : @Peer.getMtu a pB < 65536
  /-- there is a method allowed at both ends; names are not empty and do not contain NUL -/
  common : ∃ n ∈ b.groupMethods pA.group, n ∈ a.groupMethods pB.group
  names : ∀ n ∈ b.groupMethods pA.group, n ≠ [] ∧ (0 : UInt8) ∉ n
  named : ∀ n ∈ a.groupMethods pB.group, ∀ m, a.methodByName n = some m → a.methodName m = n
  /-- both compute the same HMAC and derive the same keys for a method -/
  hmac : a.hmac = b.hmac
  hmacLen : ∀ k d, (a.hmac k d).length = 32
  derive : ∀ n m m', a.methodByName n = some m → b.methodByName n = some m' → a.deriveKey m = b.deriveKey m'
  /-- the key exchange works (see C31) -/
  agree : ∀ x y, ∃ r, a.shared true x b.ownKey (b.pub y) = some r ∧ b.shared false y a.ownKey (a.pub x) = some r
  /-- sessions can be created with the keys that are derived -/
  opensA : ∀ n m, a.methodByName n = some m → ∀ x y sigma sh, a.shared true x b.ownKey (b.pub y) = some (sigma, sh) → ∀ rnd now,
    (a.sessInit m (a.deriveKey m (a.pub x) (b.pub y) a.ownKey b.ownKey sigma sh) true false rnd now).isSome = true
  opensB : ∀ n m, b.methodByName n = some m → ∀ x y sigma sh, b.shared false y a.ownKey (a.pub x) = some (sigma, sh) → ∀ rnd now,
    (b.sessInit m (b.deriveKey m (a.pub x) (b.pub y) a.ownKey b.ownKey sigma sh) false false rnd now).isSome = true

/-- The settings of a peer are unchanged. -/
structure Same (p q : Peer) : Prop where
  id : q.id = p.id
  key : q.key = p.key
  group : q.group = p.group
  mtu : q.mtu = p.mtu

/-- The connection to peer `i` is up: where packets are sent, the method, and the session, which was made at `now`.
Unlike the initiator the responder has sent an empty packet already. -/
def Up (E : Env) (c : @Ctx E) (i : Nat) (sock : Sock) (loc rem : Addr) (m : Nat) (key : Bytes) (init : Bool) (now : Time) : Prop :=
  ∃ q ∈ c.peers, q.id = i ∧ q.state = .established ∧ q.sock = some sock ∧ q.localAddr = loc ∧ q.addr = rem ∧
    q.sess.method = some m ∧ ∃ k n o, q.sess.mstate = some k ∧ E.sessInit m key init false n now = some o ∧
      if init then c.objs k = some o else ∀ pkt o', E.encrypt m o [] = some (pkt, o') → c.objs k = some o'

/-- The interface of a peer exists or can be created. -/
def HasIface (E : Env) (p : Peer) : Prop := p.iface ≠ none ∨ ∀ n, E.tape n % 2 = 1

/-- The state of `a` when it has just sent `d1` to `b`, with the current handshake key. -/
def Sent1 (a : Env) (ca : @Ctx a) (pB : Peer) (d1 : Bytes) : Prop :=
  ∃ pkt, @initPacket a (some pB.key) (a.pub ca.keys.cur.key) = some pkt ∧ d1 = controlHeader ++ pkt ∧
    ca.keys.cur.serial ≠ 0 ∧ ca.now < ca.keys.cur.preferredTill

theorem modeId_eq {a b : Env} (h : a.mode = .tun ↔ b.mode = .tun) : (@hsConf a).modeId = (@hsConf b).modeId := by
  unfold hsConf Handshake.Conf.modeId
  simp only [decide_eq_true_eq, h]

theorem Harmless.steps [Env] {c c' : Ctx} (h : Steps Harmless c c') : Steps fineEvent c c' := by
  induction h with
  | refl => exact .refl
  | step _ hp hh he ih => exact .step ih hp hh.fine he

theorem Harmless.reach [Env] {c : Ctx} (h : Reach Harmless c) : Reach fineEvent c := by
  induction h with
  | start h1 h2 h3 => exact .start h1 h2 h3
  | step _ hp hh he ih => exact .step ih hp hh.fine he

theorem Harmless.any [Env] {c : Ctx} (h : Reach Harmless c) : Reach anyEvent c := by
  induction h with
  | start h1 h2 h3 => exact .start h1 h2 h3
  | step _ hp _ he ih => exact .step ih hp trivial he

theorem header_ne (l : Bytes) : controlHeader ++ l ≠ [] := by unfold controlHeader; simp

/-- What is heard may arrive. -/
theorem Hears.possible [Env] {c : Ctx} {p : Peer} {sock : Sock} {loc rem : Addr} (hh : Hears c p sock rem) (h : Reach anyEvent c) {d : Bytes} (hd : d ≠ []) :
    (Event.recv sock loc rem d).possible c := by
  have hI : Inv False nobody nobody nobody c := Reach.inv (fun s => s.elim) h
  refine ⟨hd, hh.set, ?_⟩
  cases sock with
  | bound => trivial
  | dyn n => exact ⟨p.id, (hI.socks.own p hh.mem n).1 (hh.dyn n rfl)⟩

theorem C83_connect (a b : Env) (ha : @Sane a) (hb : @Sane b) {pB pA : Peer} (hc : Compatible a b pB pA)
    {ca : @Ctx a} (ra : @Reach a (@Harmless a) ca) {d1 : Bytes} (h1 : Sent1 a ca pB d1)
    {cb : @Ctx b} (rb : @Reach b (@Harmless b) cb) {sB : Sock} {lB rA : Addr} (hB : @Hears b cb pA sB rA)
    (hresp : timedOut pA.lastRespTimeout (nowOf b cb) = true ∨ addrEq rA pA.lastRespAddr = false) :
    After b (.recv sB lB rA d1) cb fun cb1 => ∃ d2, d2 ≠ [] ∧ logOf b cb1 = logOf b cb ++ [.send sB lB rA (some pA.id) d2] ∧
      nowOf b cb1 = nowOf b cb ∧ (keyOf b cb1).serial = nextSerial b cb ∧
      (∃ pA1, @Hears b cb1 pA1 sB rA ∧ Same pA pA1 ∧ pA1.lastSerial = pA.lastSerial ∧ pA1.iface = pA.iface ∧ pA1.state = pA.state) ∧
      ∀ ca1 pB1 sA lA rB, @Steps a (@Harmless a) ca ca1 → nowOf a ca1 < nowOf a ca + 15000 → @Hears a ca1 pB1 sA rB → Same pB pB1 →
        pB1.lastSerial < (keyOf a ca).serial → HasIface a pB1 →
      After a (.recv sA lA rB d2) ca1 fun ca2 => ∃ n mA mB key d3 l, d3 ≠ [] ∧ a.methodByName n = some mA ∧ b.methodByName n = some mB ∧
        (b.groupMethods pA.group).find? (· ∈ a.groupMethods pB.group) = some n ∧
        logOf a ca2 = logOf a ca1 ++ l ∧ .send sA lA rB (some pB.id) d3 ∈ l ∧
        (pB1.state ≠ .established → .established pB.id ∈ l) ∧ Up a ca2 pB.id sA lA rB mA key true (nowOf a ca1) ∧
        ∀ cb2 pA2 sB2 lB2 rA2, @Steps b (@Harmless b) cb1 cb2 → nowOf b cb2 < nowOf b cb + 15000 → @Hears b cb2 pA2 sB2 rA2 →
          Same pA pA2 → pA2.lastSerial < (keyOf b cb1).serial → HasIface b pA2 →
        After b (.recv sB2 lB2 rA2 d3) cb2 fun cb3 => ∃ l, logOf b cb3 = logOf b cb2 ++ l ∧
          (pA2.state ≠ .established → .established pA.id ∈ l) ∧ Up b cb3 pA.id sB2 lB2 rA2 mB key false (nowOf b cb2) := by
  replace ra := @Harmless.reach a _ ra
  replace rb := @Harmless.reach b _ rb
  replace ha := @Sane.ok a ha
  replace hb := @Sane.ok b hb
  obtain ⟨pkt, hpkt, rfl, hser, hpref⟩ := h1
  have hmode := modeId_eq hc.mode
  have hmacB : ∀ k d, (b.hmac k d).length = 32 := fun k d => by rw [← hc.hmac]; exact hc.hmacLen k d
  have lB32 : b.ownKey.length = 32 := @EnvOk.ownKey b hb
  have lA32 : a.ownKey.length = 32 := @EnvOk.ownKey a ha
  -- the first packet
  obtain ⟨rfl, fit1⟩ := @initPacket_of a ha pB.key _ (by rw [hc.keyB]; exact lB32) (@EnvOk.pub a ha _) _ hpkt
  obtain ⟨i0, i3, i4, i5, i6, i7, i8, i11⟩ := @init_recs a pB.key (a.pub (keyOf a ca).key)
  obtain ⟨cb1, q1, K, sigma, sh, e1, rb1, fl1, all1, hq1, rep1, n1, k1, ser1, pref1, next1, shr1, fit2, log1⟩ :=
    @must_first b cb rb hb hmacB pA sB lB rA hB _ fit1 _ (@EnvOk.pub a ha _) i0 i3 (by rw [i4, hmode])
      (by rw [i5, hc.protocol]) (by rw [i6, hc.keyA]) (by rw [i7, hc.keyB]) i8 (.inl i11)
      (fun y => by
        obtain ⟨r, _, h⟩ := hc.agree (keyOf a ca).key y
        rw [hc.keyA]
        exact Option.isSome_iff_exists.2 ⟨r, h⟩) hresp
  refine ⟨cb1, e1, _, header_ne _, log1, n1, by rw [keyOf, k1]; exact next1, ⟨q1, @Hears.replied b cb cb1 pA q1 sB rA hB fl1 all1 n1 hq1 rep1, ?_⟩, ?_⟩
  · rw [Replied] at rep1
    rw [rep1]
    exact ⟨⟨rfl, rfl, rfl, rfl⟩, rfl, rfl, rfl⟩
  intro ca1 pB1 sA lA rB st1' hn1 hA same1 hlast1 if1
  have st1 := @Harmless.steps a _ _ st1'
  -- the keys
  have ra1 : @Reach a (@fineEvent a) ca1 := @Reach.steps a _ _ _ ra st1
  have kin1 : KeyIn (keyOf a ca) (nowOf a ca) (@Ctx.keys a ca1) :=
    @Steps.keyIn a _ _ _ _ _ st1 (.inl rfl) hpref hn1
  have kv1 : (keyOf a ca).validTill = (keyOf a ca).preferredTill + 15000 := (@Reach.keysOk a _ _ ra).2 hser
  -- the method
  obtain ⟨nc, hnb, hna⟩ := hc.common
  obtain ⟨n, hfind⟩ : ∃ n, (b.groupMethods pA.group).find? (· ∈ a.groupMethods pB.group) = some n := by
    cases hf : (b.groupMethods pA.group).find? (· ∈ a.groupMethods pB.group) with
    | some n => exact ⟨n, rfl⟩
    | none =>
      have := List.find?_eq_none.1 hf nc hnb
      simp [hna] at this
  have hn_b : n ∈ b.groupMethods pA.group := List.mem_of_find?_eq_some hfind
  have hn_a : n ∈ a.groupMethods pB.group := by simpa using List.find?_some hfind
  obtain ⟨mA, hmA⟩ := @EnvOk.resolv a ha _ n hn_a
  obtain ⟨mB, hmB⟩ := @EnvOk.resolv b hb _ n hn_b
  obtain ⟨l, hl⟩ : ∃ l, Handshake.createMethodList (b.groupMethods pA.group) = some l := by
    unfold Handshake.createMethodList
    rw [if_neg (@EnvOk.methods b hb _)]
    exact ⟨_, rfl⟩
  have hml : Handshake.methodByNameList (a.groupMethods pB.group) a.methodByName (some l) = .some mA := by
    rw [Handshake.C27_first_common_method _ _ _ l (@EnvOk.resolv a ha _) (fun m hm => ⟨(hc.names m hm).2, (hc.names m hm).1⟩) hl, hfind]
    simp only [hmA]
  -- the second packet
  obtain ⟨mac2, r2, mac2e, rec2⟩ := @second_recs b (@Peer.getMtu b pA) (b.groupMethods pA.group) pA.key (b.pub K.key)
    (a.pub (keyOf a ca).key) sh
  obtain ⟨i0, i1, i3, i4, i5, i6, i7, i8, i9, i11, i14, i15⟩ := rec2 _ rfl
  rw [r2] at i0 i1 i3 i4 i5 i6 i7 i8 i9 i11 i14 i15 fit2
  have shA : ∀ x, a.pub x = a.pub (keyOf a ca).key → a.shared true x pB1.key (b.pub K.key) = some (sigma, sh) := by
    intro x hx
    obtain ⟨r, h1, h2⟩ := hc.agree x K.key
    rw [hx, ← hc.keyA, shr1] at h2
    rw [same1.key, hc.keyB, h1, ← h2]
  have mtu1 : @Peer.getMtu a pB1 = @Peer.getMtu b pA := by
    rw [← hc.mtu]
    unfold Peer.getMtu
    rw [same1.mtu]
  obtain ⟨ca2, c1, q0, q, hk, k', o, e2, hpub, est, mild, hq, res, fit3, log2⟩ :=
    @must_second a ca1 ra1 ha hc.hmacLen pB1 sA lA rB hA _ mac2 (by rw [mac2e]; exact hmacB _ _) fit2 _ (@EnvOk.pub b hb _)
      (keyOf a ca) (nowOf a ca) kin1 hpref kv1 hn1 l i0 i1 i3 (by rw [i4, hmode]) (by rw [i5, hc.protocol])
      (by rw [i6, same1.key, hc.keyB]) (by rw [i7, hc.keyA]) i8 i9
      (by
        unfold MtuRec
        rw [i11, mtu1]
        by_cases h0 : @Peer.getMtu b pA = 0
        · exact .inl (if_pos h0)
        · exact .inr ⟨if_neg h0, by rw [← hc.mtu]; exact hc.mtuLt⟩)
      (by rw [i14, hl]; rfl) mA (by rw [same1.group]; exact hml) sigma sh shA (by rw [hc.hmac, mac2e]) hlast1
      (fun r now => by
        rw [same1.key, hc.keyB]
        refine hc.opensA n mA hmA (keyOf a ca).key K.key sigma sh ?_ r now
        rw [← hc.keyB, ← same1.key]
        exact shA _ rfl) if1
  rw [r2]
  have hs0 := @Estab.stat a _ _ _ _ _ _ _ _ _ _ _ _ est
  have sId : q0.id = pB.id := (stat_id hs0).trans same1.id
  have log3 : logOf a c1 = logOf a ca1 ++ ([.session pB1.id pB1.key hk.serial hk.key mA true] ++
      if pB1.state = .established then [] else [.established pB1.id]) := (@Estab.first a _ _ _ _ _ _ _ _ _ _ _ _ est rfl).2
  refine ⟨ca2, e2, n, mA, mB, a.deriveKey mA (a.pub (keyOf a ca).key) (b.pub K.key) a.ownKey b.ownKey sigma sh, controlHeader ++ Handshake.pktOf (@replyRecs a 3 (@Peer.getMtu a pB1) (some (a.methodName mA)) none
      pB1.key (a.pub (keyOf a ca).key) (b.pub K.key) sh), _, header_ne _, hmA, hmB, hfind,
    by
      show @Ctx.log a ca2 = _
      rw [log2]
      show logOf a c1 ++ _ = _
      rw [log3, List.append_assoc], ?_, ?_, ?_, ?_⟩
  · rw [same1.id]
    exact List.mem_append_right _ (List.mem_singleton.2 rfl)
  · intro hne
    rw [if_neg hne, same1.id]
    simp
  · obtain ⟨n0, hn0⟩ := @Estab.new a _ _ _ _ _ _ _ _ _ _ _ _ est
    have hn0' : a.sessInit mA (a.deriveKey mA (a.pub (keyOf a ca).key) (b.pub K.key) a.ownKey pB1.key sigma sh) true false n0 (nowOf a ca1) = some o := hn0
    rw [same1.key, hc.keyB] at hn0'
    refine ⟨q, hq, by rw [res]; exact sId, ?_, ?_, ?_, ?_, ?_, k', n0, o, ?_, hn0', ?_⟩
    · have := @Estab.state a _ _ _ _ _ _ _ _ _ _ _ _ est
      rw [res]; exact this
    · have := @Estab.link a _ _ _ _ _ _ _ _ _ _ _ _ est
      rw [res]; exact this
    · have := @Estab.own a _ _ _ _ _ _ _ _ _ _ _ _ est
      rw [res]; exact this
    · have := @Estab.addr a _ _ _ _ _ _ _ _ _ _ _ _ est
      rw [res]; exact this
    · have := @Estab.method a _ _ _ _ _ _ _ _ _ _ _ _ est
      rw [res]; exact this
    · have := @Estab.mstate a _ _ _ _ _ _ _ _ _ _ _ _ est
      rw [res]; exact this
    · rw [if_pos rfl, @Mild.objs a _ _ mild]
      exact (@Estab.first a _ _ _ _ _ _ _ _ _ _ _ _ est rfl).1
  -- the third packet
  intro cb2 pA2 sB2 lB2 rA2 st2' hn2 hB2 same2 hlast2 if2
  have st2 := @Harmless.steps b _ _ st2'
  have rb2 : @Reach b (@fineEvent b) cb2 := @Reach.steps b _ _ _ rb1 st2
  have hn1' : nowOf b cb1 = nowOf b cb := n1
  have kin2 : KeyIn K (nowOf b cb1) (@Ctx.keys b cb2) :=
    @Steps.keyIn b _ _ _ _ _ st2 (.inl k1) (by rw [hn1']; exact pref1) (by rw [hn1']; exact hn2)
  have kv2 : K.validTill = K.preferredTill + 15000 := by
    have := (@Reach.keysOk b _ _ rb1).2
    rw [k1] at this
    exact this ser1
  obtain ⟨mac3, r3, mac3e, rec3⟩ := @third_recs a (@Peer.getMtu a pB1) (a.methodName mA) pB1.key (a.pub (keyOf a ca).key)
    (b.pub K.key) sh
  obtain ⟨i0, i1, i3, i4, i5, i6, i7, i8, i9, i11, i12, i15⟩ := rec3 _ rfl
  rw [r3] at i0 i1 i3 i4 i5 i6 i7 i8 i9 i11 i12 i15 fit3 ⊢
  have shB : ∀ y, b.pub y = b.pub K.key → b.shared false y pA2.key (a.pub (keyOf a ca).key) = some (sigma, sh) := by
    intro y hy
    obtain ⟨r, h1, h2⟩ := hc.agree (keyOf a ca).key y
    have := shA _ rfl
    rw [same1.key, hc.keyB, ← hy, h1] at this
    rw [same2.key, hc.keyA, h2, this]
  have mtu2 : @Peer.getMtu b pA2 = @Peer.getMtu b pA := by
    unfold Peer.getMtu
    rw [same2.mtu]
  obtain ⟨cb3, c0, c4, p0, q4, hk4, k4, o4, e3, hpub4, n4, log4, p0e, est4, c4e, hq4⟩ :=
    @must_third b cb2 rb2 hb pA2 sB2 lB2 rA2 hB2 _ mac3 (by rw [mac3e]; exact hc.hmacLen _ _) fit3 _ (@EnvOk.pub a ha _)
      K (nowOf b cb1) kin2 (by rw [hn1']; exact pref1) kv2 (by rw [hn1']; exact hn2) _ i0 i1 i3 (by rw [i4, hmode]) (by rw [i5, hc.protocol])
      (by rw [i6, same2.key, hc.keyA]) (by rw [i7, same1.key, hc.keyB]) i8 i9
      (by
        unfold MtuRec
        rw [i11, mtu1, mtu2]
        by_cases h0 : @Peer.getMtu b pA = 0
        · exact .inl (if_pos h0)
        · exact .inr ⟨if_neg h0, by rw [← hc.mtu]; exact hc.mtuLt⟩)
      i12 mB (by
        rw [same2.group, hc.named n hn_a mA hmA]
        unfold Handshake.methodByName
        simp only []
        rw [Handshake.takeWhile_self n (hc.names n hn_b).2, if_pos hn_b]
        exact hmB) sigma sh shB (by rw [← hc.hmac, mac3e]) (by rw [← k1]; exact hlast2)
      (fun r now => by
        rw [same2.key, hc.keyA]
        refine hc.opensB n mB hmB (keyOf a ca).key K.key sigma sh ?_ r now
        rw [← hc.keyA, ← same2.key]
        exact shB _ rfl) if2
  have hs4 := @Estab.stat b _ _ _ _ _ _ _ _ _ _ _ _ est4
  have p0id : p0.id = pA2.id := by rw [p0e]
  have p0st : p0.state = pA2.state := by rw [p0e]
  have sId4 : q4.id = pA.id := (stat_id hs4).trans (p0id.trans same2.id)
  obtain ⟨n0, hn0⟩ := @Estab.new b _ _ _ _ _ _ _ _ _ _ _ _ est4
  have hn0' : b.sessInit mB (b.deriveKey mB (a.pub (keyOf a ca).key) (b.pub K.key) pA2.key b.ownKey sigma sh) false false n0
      (nowOf b cb2) = some o4 := by rw [← show @Ctx.now b c0 = nowOf b cb2 from n4]; exact hn0
  rw [same2.key, hc.keyA, ← hc.derive n mA mB hmA hmB] at hn0'
  have up : (∀ pkt o', b.encrypt mB o4 [] = some (pkt, o') → @Ctx.objs b cb3 k4 = some o') →
      Up b cb3 pA.id sB2 lB2 rA2 mB (a.deriveKey mA (a.pub (keyOf a ca).key) (b.pub K.key) a.ownKey b.ownKey sigma sh) false (nowOf b cb2) := by
    intro ho
    refine ⟨_, hq4, sId4, ?_, ?_, ?_, ?_, ?_, k4, n0, o4, ?_, hn0', ?_⟩
    · have := @Estab.state b _ _ _ _ _ _ _ _ _ _ _ _ est4
      exact this
    · have := @Estab.link b _ _ _ _ _ _ _ _ _ _ _ _ est4
      exact this
    · have := @Estab.own b _ _ _ _ _ _ _ _ _ _ _ _ est4
      exact this
    · have := @Estab.addr b _ _ _ _ _ _ _ _ _ _ _ _ est4
      exact this
    · have := @Estab.method b _ _ _ _ _ _ _ _ _ _ _ _ est4
      exact this
    · have := @Estab.mstate b _ _ _ _ _ _ _ _ _ _ _ _ est4
      exact this
    · rw [if_neg (by simp)]; exact ho
  have hlog3 : logOf b cb3 = logOf b c4 := by
    show @Ctx.log b cb3 = _
    rw [c4e]
  have hobj3 : @Ctx.objs b cb3 = @Ctx.objs b c4 := by rw [c4e]
  have hl0 : logOf b c0 = logOf b cb2 := log4
  rcases @Estab.second b _ _ _ _ _ _ _ _ _ _ _ _ est4 rfl with ⟨hno, hl4⟩ | ⟨pkt', o', he', ho', hl4⟩
  · have hl4' : logOf b c4 = logOf b c0 ++ _ := hl4
    refine ⟨cb3, e3, _, by rw [hlog3, hl4', hl0], fun hne => ?_, up fun pkt o' h => by rw [hno] at h; cases h⟩
    rw [if_neg (by rw [p0st]; exact hne), p0id, same2.id]
    simp
  · have hl4' : logOf b c4 = logOf b c0 ++ _ ++ _ := hl4
    refine ⟨cb3, e3, _, by rw [hlog3, hl4', hl0, List.append_assoc], fun hne => ?_, up fun pkt o'' h => ?_⟩
    · rw [if_neg (by rw [p0st]; exact hne), p0id, same2.id]
      simp
    · rw [he'] at h
      cases h
      rw [hobj3]
      exact ho'

/-- **C83**, without delays: three packets connect both daemons. All conditions are about the states before the first
packet arrives. -/
theorem C83_immediately (a b : Env) (ha : @Sane a) (hb : @Sane b) {pB pA : Peer} (hc : Compatible a b pB pA)
    {ca : @Ctx a} (ra : @Reach a (@Harmless a) ca) {d1 : Bytes} (h1 : Sent1 a ca pB d1)
    {sA : Sock} {lA rB : Addr} (hA : @Hears a ca pB sA rB) (lastA : pB.lastSerial < (keyOf a ca).serial) (ifA : HasIface a pB)
    {cb : @Ctx b} (rb : @Reach b (@Harmless b) cb) {sB : Sock} {lB rA : Addr} (hB : @Hears b cb pA sB rA)
    (hresp : timedOut pA.lastRespTimeout (nowOf b cb) = true ∨ addrEq rA pA.lastRespAddr = false)
    (lastB : pA.lastSerial < nextSerial b cb) (ifB : HasIface b pA) :
    After b (.recv sB lB rA d1) cb fun cb1 => ∃ d2, .send sB lB rA (some pA.id) d2 ∈ logOf b cb1 ∧
    After a (.recv sA lA rB d2) ca fun ca2 => ∃ d3, .send sA lA rB (some pB.id) d3 ∈ logOf a ca2 ∧
    After b (.recv sB lB rA d3) cb1 fun cb3 => ∃ n mA mB key, @Reach a (@anyEvent a) ca2 ∧ @Reach b (@anyEvent b) cb3 ∧
      a.methodByName n = some mA ∧ b.methodByName n = some mB ∧
      (b.groupMethods pA.group).find? (· ∈ a.groupMethods pB.group) = some n ∧
      Up a ca2 pB.id sA lA rB mA key true (nowOf a ca) ∧ Up b cb3 pA.id sB lB rA mB key false (nowOf b cb) := by
  obtain ⟨cb1, e1, d2, ne2, log1, n1, s1, ⟨pA1, hB1, same1, last1, if1, _⟩, h2⟩ := C83_connect a b ha hb hc ra h1 (lB := lB) rb hB hresp
  obtain ⟨ca2, e2, n, mA, mB, key, d3, l, ne3, hmA, hmB, hn, log2, send2, _, upA, h3⟩ := h2 ca pB sA lA rB (@Steps.refl a _ _)
    (by show nowOf a ca < nowOf a ca + 15000; omega) hA ⟨rfl, rfl, rfl, rfl⟩ lastA ifA
  obtain ⟨cb3, e3, l3, _, _, upB⟩ := h3 cb1 pA1 sB lB rA (@Steps.refl b _ _) (by rw [n1]; omega) hB1 same1 (by rw [last1, s1]; exact lastB)
    (by unfold HasIface; rw [if1]; exact ifB)
  rw [n1] at upB
  obtain ⟨_, _, rfl, _⟩ := id h1
  have ra0 := @Harmless.any a _ ra
  have rb0 := @Harmless.any b _ rb
  have r1 := @Reach.step b _ _ _ _ rb0 (@Hears.possible b _ _ _ lB _ hB rb0 _ (header_ne _)) trivial e1
  have r3 := @Reach.step b _ _ _ _ r1 (@Hears.possible b _ _ _ lB _ hB1 r1 _ ne3) trivial e3
  have r2 := @Reach.step a _ _ _ _ ra0 (@Hears.possible a _ _ _ lA _ hA ra0 _ ne2) trivial e2
  exact ⟨cb1, e1, d2, by rw [log1]; exact List.mem_append_right _ (List.mem_singleton.2 rfl), ca2, e2, d3,
    by rw [log2]; exact List.mem_append_right _ send2, cb3, e3, n, mA, mB, key, r2, r3, hmA, hmB, hn, upA, upB⟩

/-- A handshake to the configured address `rB` of `b` is due at `a`. -/
structure Due (a : Env) (ca : @Ctx a) (pB : Peer) (k : Nat) (rB : Addr) (s : Nat) : Prop where
  target : @Target a ca pB k rB s
  /-- neither the time to give up nor that of a keepalive has come -/
  reset : nowOf a ca < pB.resetTimeout
  keepalive : nowOf a ca < pB.keepalive
  due : pB.nextHs ≤ nowOf a ca
  may : mayConnect (@Ctx.peers a ca) pB = true
  interval : timedOut pB.estHsTimeout (nowOf a ca) = true
  finite : nowOf a ca < timeoutInv

theorem Compatible.same {a b : Env} {pB pA q : Peer} (h : Compatible a b pB pA) (hs : Same pB q) : Compatible a b q pA := by
  have hm : @Peer.getMtu a q = @Peer.getMtu a pB := by unfold Peer.getMtu; rw [hs.mtu]
  exact { h with
    keyB := hs.key.trans h.keyB
    mtu := hm.trans h.mtu
    mtuLt := by rw [hm]; exact h.mtuLt
    common := by rw [hs.group]; exact h.common
    named := by rw [hs.group]; exact h.named }

/-- **C83**: when a handshake is due, the task of the peer runs and sends the first packet; the answer to it will be heard. -/
theorem C83_first (a : Env) (ha : @Sane a) {pB : Peer} {ca : @Ctx a} (ra : @Reach a (@Harmless a) ca) {k s : Nat} {rB : Addr}
    (hd : Due a ca pB k rB s) :
    @Event.possible a ca (.task pB.id) ∧ After a (.task pB.id) ca fun ca1 => ∃ pB1 d0 d1, @Reach a (@Harmless a) ca1 ∧ Sent1 a ca1 pB1 d1 ∧
      logOf a ca1 = logOf a ca ++ [.hsInit (some pB.id) rB, .send (.bound s) pB.localAddr rB (some pB.id) d0,
        .send (.bound s) pB.localAddr rB (some pB.id) d1] ∧
      nowOf a ca1 = nowOf a ca ∧ (keyOf a ca1).serial = nextSerial a ca ∧
      @Hears a ca1 pB1 (.bound s) rB ∧ Same pB pB1 ∧ pB1.lastSerial = pB.lastSerial ∧ pB1.iface = pB.iface ∧ pB1.state = .handshake := by
  obtain ⟨hp, c', pkt, q, he, _, h1, h2, h3, h4, h5, h6, h7, h8⟩ := @must_task a ca (@Harmless.reach a _ ra) (@Sane.ok a ha) pB k rB s hd.target
    hd.reset hd.keepalive hd.due hd.may hd.interval hd.finite
  have hq := h6.eq
  have hn : nowOf a c' = nowOf a ca := h5
  refine ⟨hp, c', he, q, pkt, controlHeader ++ pkt, @Reach.step a _ _ _ _ ra hp ⟨fun _ _ => hd.finite, fun _ _ _ _ _ h => by cases h⟩ he,
    ⟨pkt, ?_, rfl, h2, ?_⟩, h8, hn, h4, h7, ?_, ?_, ?_, ?_⟩
  · rw [hq]; exact h1
  · show nowOf a c' < _
    rw [hn]; exact h3
  · rw [hq]; exact ⟨rfl, rfl, rfl, rfl⟩
  · rw [hq]; rfl
  · rw [hq]; rfl
  · rw [hq]

/-- **C83**, from the beginning and without delays: a handshake that is due is sent, and if its packets arrive both daemons are
connected. -/
theorem C83_start (a b : Env) (ha : @Sane a) (hb : @Sane b) {pB pA : Peer} (hc : Compatible a b pB pA)
    {ca : @Ctx a} (ra : @Reach a (@Harmless a) ca) {k s : Nat} {lA rB : Addr} (hd : Due a ca pB k rB s)
    (lastA : pB.lastSerial < nextSerial a ca) (ifA : HasIface a pB)
    {cb : @Ctx b} (rb : @Reach b (@Harmless b) cb) {sB : Sock} {lB rA : Addr} (hB : @Hears b cb pA sB rA)
    (hresp : timedOut pA.lastRespTimeout (nowOf b cb) = true ∨ addrEq rA pA.lastRespAddr = false)
    (lastB : pA.lastSerial < nextSerial b cb) (ifB : HasIface b pA) :
    @Event.possible a ca (.task pB.id) ∧
    After a (.task pB.id) ca fun ca1 => ∃ d1, .send (.bound s) pB.localAddr rB (some pB.id) d1 ∈ logOf a ca1 ∧
    After b (.recv sB lB rA d1) cb fun cb1 => ∃ d2, .send sB lB rA (some pA.id) d2 ∈ logOf b cb1 ∧
    After a (.recv (.bound s) lA rB d2) ca1 fun ca2 => ∃ d3, .send (.bound s) lA rB (some pB.id) d3 ∈ logOf a ca2 ∧
    After b (.recv sB lB rA d3) cb1 fun cb3 => ∃ n mA mB key, @Reach a (@anyEvent a) ca2 ∧ @Reach b (@anyEvent b) cb3 ∧
      a.methodByName n = some mA ∧ b.methodByName n = some mB ∧
      (b.groupMethods pA.group).find? (· ∈ a.groupMethods pB.group) = some n ∧
      Up a ca2 pB.id (.bound s) lA rB mA key true (nowOf a ca) ∧ Up b cb3 pA.id sB lB rA mB key false (nowOf b cb) := by
  obtain ⟨hp, ca1, e0, pB1, d0, d1, ra1, h1, log1, n1, s1, hA, same, last, hif, _⟩ := C83_first a ha ra hd
  have := C83_immediately a b ha hb (hc.same same) ra1 h1 (lA := lA) hA (by rw [last, s1]; exact lastA)
    (by unfold HasIface; rw [hif]; exact ifA) rb (lB := lB) hB hresp lastB ifB
  rw [same.id, same.group, n1] at this
  exact ⟨hp, ca1, e0, d1, by rw [log1]; simp, this⟩

/-! ### Example -/

namespace Example

open Daemon.Demo (addrOf peer)

/-- The environment of the other examples, with key exchange that works: both ends compute the sequence of the first
bytes of the two handshake keys. -/
@[reducible] def node (own : UInt8) : Env :=
  { Demo.env { own := own } with
    shared := fun initiator n _ k =>
      let mine := (100 : UInt8) + UInt8.ofNat n
      some ([7], if initiator then [mine, k.headD 0] else [k.headD 0, mine]) }

def conf : Handshake.Conf := { protocolName := [101, 99], version := [118], modeTun := false }

theorem sane (own : UInt8) : @Sane (node own) := by
  have fit : ∀ mtu, Handshake.reserved conf mtu none (some [[109], [110]]) (5 * Handshake.recordLen 32) ≤ Handshake.MAX_HANDSHAKE_SIZE ∧
      ∀ n ∈ ([[109], [110]] : List Bytes), Handshake.reserved conf mtu (some n) none (5 * Handshake.recordLen 32) ≤
        Handshake.MAX_HANDSHAKE_SIZE := by
    intro mtu
    by_cases h : mtu = 0
    · subst h; decide +kernel
    · have : Handshake.reserved conf mtu = Handshake.reserved conf 1 := by
        funext a b c
        unfold Handshake.reserved
        simp only [if_pos h, ne_eq, one_ne_zero, not_false_eq_true, if_true]
      rw [this]; decide +kernel
  refine @Sane.mk (node own) (fun _ => rfl) (by show 1232 ≤ 2000; decide) (by show (0 : UInt8) ∉ ([101, 99] : Bytes); decide) (List.length_replicate ..)
    (fun _ => List.length_replicate ..) (fun _ => ⟨(by intro h; cases h), ?_⟩)
    ⟨by show Handshake.reserved conf _ _ _ _ ≤ _; decide +kernel, fun g mtu => ⟨(fit mtu).1, fun n hn m hm => ?_⟩⟩
  · intro n hn
    change n ∈ [[109], [110]] at hn
    simp only [List.mem_cons, List.not_mem_nil, or_false] at hn
    rcases hn with rfl | rfl
    · exact ⟨0, rfl⟩
    · exact ⟨1, rfl⟩
  · change n ∈ [[109], [110]] at hn
    simp only [List.mem_cons, List.not_mem_nil, or_false] at hn
    rcases hn with rfl | rfl
    · cases hm; exact (fit mtu).2 [109] (by decide)
    · cases hm; exact (fit mtu).2 [110] (by decide)

theorem compatible {pB pA : Peer} (hB : pB.key = Demo.keyOf 2 ∧ pB.mtu = 0) (hA : pA.key = Demo.keyOf 1 ∧ pA.mtu = 0) :
    Compatible (node 1) (node 2) pB pA where
  keyB := hB.1
  keyA := hA.1
  protocol := rfl
  mode := Iff.rfl
  mtu := by unfold Peer.getMtu; rw [hB.2, hA.2]; rfl
  mtuLt := by unfold Peer.getMtu; rw [hB.2]; decide
  common := ⟨[109], List.mem_cons_self, List.mem_cons_self⟩
  names := by
    intro n hn
    change n ∈ [[109], [110]] at hn
    simp only [List.mem_cons, List.not_mem_nil, or_false] at hn
    rcases hn with rfl | rfl <;> decide
  named := by
    intro n hn m hm
    change n ∈ [[109], [110]] at hn
    simp only [List.mem_cons, List.not_mem_nil, or_false] at hn
    rcases hn with rfl | rfl <;> (cases hm; rfl)
  hmac := rfl
  hmacLen := fun _ _ => List.length_replicate ..
  derive := fun n m m' h h' => by
    have : some m = some m' := h.symm.trans h'
    cases this
    rfl
  agree := fun x y => by
    have h : ∀ n, 100 + UInt8.ofNat n = UInt8.ofNat (100 + n) := fun n => by simp
    refine ⟨_, rfl, ?_⟩
    show some (([7] : Bytes), ([UInt8.ofNat (100 + x), 100 + UInt8.ofNat y] : Bytes)) = some ([7], [100 + UInt8.ofNat x, UInt8.ofNat (100 + y)])
    rw [h, h]
  opensA := fun _ _ _ _ _ _ _ _ _ _ => rfl
  opensB := fun _ _ _ _ _ _ _ _ _ _ => rfl

/-- The only peer of a state can be heard from an address, and nothing was negotiated before. -/
def ready [Env] (a : Addr) (key : Bytes) (fresh : Nat) (c : Ctx) : Bool :=
  match c.peers with
  | [p] => decide (p.key = key) && decide (p.mtu = 0) && decide (p.cfg = .static) && a.isSet && addrEq p.addr a &&
      mayConnect c.peers p && timedOut p.estHsTimeout c.now && decide (p.lastSerial < fresh) && p.iface.isSome && timedOut p.lastRespTimeout c.now
  | _ => false

theorem ready_of [Env] {a : Addr} {key : Bytes} {fresh : Nat} {c : Ctx} (h : ready a key fresh c = true) :
    ∃ p, (p.key = key ∧ p.mtu = 0) ∧ Hears c p (.bound 0) a ∧ p.lastSerial < fresh ∧ p.iface ≠ none ∧
      timedOut p.lastRespTimeout c.now = true := by
  unfold ready at h
  split at h
  · rename_i p hp
    simp only [Bool.and_eq_true, decide_eq_true_eq] at h
    obtain ⟨⟨⟨⟨⟨⟨⟨⟨⟨h1, h2⟩, h3⟩, h4⟩, h5⟩, h6⟩, h7⟩, h8⟩, h9⟩, h10⟩ := h
    have hm : p ∈ c.peers := by rw [hp]; exact List.mem_singleton.2 rfl
    refine ⟨p, ⟨h1, h2⟩, ⟨hm, h3, h4, .inl h5, fun q hq hne => ?_, h6, h7⟩, h8, (fun h => by rw [h] at h9; cases h9), h10⟩
    rw [hp, List.mem_singleton] at hq
    exact absurd (by rw [hq]) hne
  · cases h

/-- The state of node 1. -/
def sent [Env] (c : Ctx) : Bool :=
  ready (addrOf 2) (Demo.keyOf 2) c.keys.cur.serial c && decide (c.keys.cur.serial ≠ 0) && decide (c.now < c.keys.cur.preferredTill) &&
    match initPacket (some (Demo.keyOf 2)) (Env.pub c.keys.cur.key) with
    | some pkt => c.log.any fun e => decide (e = .send (.bound 0) (.unspec 0) (addrOf 2) (some 0) (controlHeader ++ pkt))
    | none => false

/-- Node 1 has sent its first handshake to node 2, and node 2 one to node 1, which was lost. -/
example : ∃ (pB pA : Peer) (ca : @Ctx (node 1)) (cb : @Ctx (node 2)) (d1 : Bytes), Compatible (node 1) (node 2) pB pA ∧
    @Reach (node 1) (@Harmless (node 1)) ca ∧ Sent1 (node 1) ca pB d1 ∧
    (∃ loc, .send (.bound 0) loc (addrOf 2) (some 0) d1 ∈ logOf (node 1) ca) ∧
    @Hears (node 1) ca pB (.bound 0) (addrOf 2) ∧ pB.lastSerial < (keyOf (node 1) ca).serial ∧
    @Reach (node 2) (@Harmless (node 2)) cb ∧ @Hears (node 2) cb pA (.bound 0) (addrOf 1) ∧
    After (node 2) (.recv (.bound 0) (addrOf 2) (addrOf 1) d1) cb fun cb1 => ∃ d2,
      After (node 1) (.recv (.bound 0) (addrOf 1) (addrOf 2) d2) ca fun ca2 => ∃ d3,
      After (node 2) (.recv (.bound 0) (addrOf 2) (addrOf 1) d3) cb1 fun cb3 => ∃ key now now',
        Up (node 1) ca2 pB.id (.bound 0) (addrOf 1) (addrOf 2) 0 key true now ∧
        Up (node 2) cb3 pA.id (.bound 0) (addrOf 2) (addrOf 1) 0 key false now' := by
  obtain ⟨ca, ra, ha⟩ := @Demo.safeRun_reach (node 1) [peer 2 [addrOf 2]] [.tick 5000, .task 0] (@sent (node 1)) (by decide +kernel)
  obtain ⟨cb, rb, hb⟩ := @Demo.safeRun_reach (node 2) [peer 1 [addrOf 1]] [.tick 5000, .task 0] (fun c => @ready (node 2) (addrOf 1) (Demo.keyOf 1) (nextSerial (node 2) c) c)
    (by decide +kernel)
  unfold sent at ha
  simp only [Bool.and_eq_true, decide_eq_true_eq] at ha
  obtain ⟨⟨⟨h1, h2⟩, h3⟩, h4⟩ := ha
  obtain ⟨pB, kB, hearB, lastB, ifB, _⟩ := @ready_of (node 1) _ _ _ _ h1
  obtain ⟨pA, kA, hearA, lastA, ifA, respA⟩ := @ready_of (node 2) _ _ _ _ hb
  split at h4
  · rename_i pkt hpkt
    have hs : Sent1 (node 1) ca pB (controlHeader ++ pkt) := ⟨pkt, by rw [kB.1]; exact hpkt, rfl, h2, h3⟩
    rw [List.any_eq_true] at h4
    obtain ⟨e, he, heq⟩ := h4
    rw [of_decide_eq_true heq] at he
    obtain ⟨cb1, e1, d2, _, ca2, e2, d3, _, cb3, e3, n, mA, mB, key, _, _, hmA, hmB, hn, upA, upB⟩ :=
      C83_immediately (node 1) (node 2) (sane 1) (sane 2) (compatible kB kA) ra hs (lA := addrOf 1) hearB lastB (.inl ifB) rb
        (lB := addrOf 2) hearA (.inl respA) lastA (.inl ifA)
    have hn' : some ([109] : Bytes) = some n := hn
    cases hn'
    cases hmA
    cases hmB
    exact ⟨pB, pA, ca, cb, _, compatible kB kA, ra, hs, ⟨_, he⟩, hearB, lastB, rb, hearA, cb1, e1, d2, ca2, e2, d3, cb3, e3, key, _, _, upA, upB⟩
  · cases h4

/-- A handshake with the only peer is due. -/
def due [Env] (a : Addr) (key : Bytes) (c : Ctx) : Bool :=
  match c.peers with
  | [p] => decide (p.id = 0) && decide (p.key = key) && decide (p.mtu = 0) && decide (p.cfg = .static) && decide (p.state ≠ .established) &&
      decide (p.nextRemote = some 0) && decide ((p.remotes[0]?.bind fun r => r.addrs[r.cur]?) = some a) &&
      decide (sockFor p a = some 0) && timedOut p.lastHsTimeout c.now && decide (c.now < p.resetTimeout) && decide (c.now < p.keepalive) &&
      decide (p.nextHs ≤ c.now) && mayConnect c.peers p && timedOut p.estHsTimeout c.now && decide (c.now < timeoutInv) &&
      decide (p.lastSerial < nextSerial _ c) && p.iface.isSome
  | _ => false

theorem due_of {E : Env} {a : Addr} {key : Bytes} {c : @Ctx E} (h : @due E a key c = true) :
    ∃ p, p.id = 0 ∧ (p.key = key ∧ p.mtu = 0) ∧ Due E c p 0 a 0 ∧ p.lastSerial < nextSerial E c ∧ p.iface ≠ none := by
  unfold due at h
  split at h
  · rename_i p hp
    simp only [Bool.and_eq_true, decide_eq_true_eq] at h
    obtain ⟨⟨⟨⟨⟨⟨⟨⟨⟨⟨⟨⟨⟨⟨⟨⟨h0, h1⟩, h2⟩, h3⟩, h4⟩, h5⟩, h6⟩, h7⟩, h8⟩, h9⟩, h10⟩, h11⟩, h12⟩, h13⟩, h14⟩, h15⟩, h16⟩ := h
    have hm : p ∈ c.peers := by rw [hp]; exact List.mem_singleton.2 rfl
    rw [Option.bind_eq_some_iff] at h6
    refine ⟨p, h0, ⟨h1, h2⟩, ⟨⟨hm, h3, h4, h5, h6, fun q hq hne => ?_, h7, .inl h8⟩, h9, h10, h11, h12, h13, h14⟩, h15,
      fun h => by rw [h] at h16; cases h16⟩
    rw [hp, List.mem_singleton] at hq
    exact absurd (by rw [hq]) hne
  · cases h

/-- Five seconds after its start node 1 connects to node 2, which has tried to connect to node 1 before. -/
example : ∃ (ca : @Ctx (node 1)) (cb : @Ctx (node 2)), @Reach (node 1) (@Harmless (node 1)) ca ∧ @Reach (node 2) (@Harmless (node 2)) cb ∧
    After (node 1) (.task 0) ca fun ca1 => ∃ loc d1, .send (.bound 0) loc (addrOf 2) (some 0) d1 ∈ logOf (node 1) ca1 ∧
    After (node 2) (.recv (.bound 0) (addrOf 2) (addrOf 1) d1) cb fun cb1 => ∃ i d2, .send (.bound 0) (addrOf 2) (addrOf 1) (some i) d2 ∈ logOf (node 2) cb1 ∧
    After (node 1) (.recv (.bound 0) (addrOf 1) (addrOf 2) d2) ca1 fun ca2 => ∃ d3,
    After (node 2) (.recv (.bound 0) (addrOf 2) (addrOf 1) d3) cb1 fun cb3 => ∃ key now now',
      Up (node 1) ca2 0 (.bound 0) (addrOf 1) (addrOf 2) 0 key true now ∧ Up (node 2) cb3 i (.bound 0) (addrOf 2) (addrOf 1) 0 key false now' := by
  obtain ⟨ca, ra, ha⟩ := @Demo.safeRun_reach (node 1) [peer 2 [addrOf 2]] [.tick 5000] (@due (node 1) (addrOf 2) (Demo.keyOf 2)) (by decide +kernel)
  obtain ⟨cb, rb, hb⟩ := @Demo.safeRun_reach (node 2) [peer 1 [addrOf 1]] [.tick 5000, .task 0] (fun c => @ready (node 2) (addrOf 1) (Demo.keyOf 1) (nextSerial (node 2) c) c)
    (by decide +kernel)
  obtain ⟨pB, idB, kB, dueB, lastB, ifB⟩ := due_of ha
  obtain ⟨pA, kA, hearA, lastA, ifA, respA⟩ := @ready_of (node 2) _ _ _ _ hb
  obtain ⟨_, ca1, e0, d1, s1, cb1, e1, d2, s2, ca2, e2, d3, _, cb3, e3, n, mA, mB, key, _, _, hmA, hmB, hn, upA, upB⟩ :=
    C83_start (node 1) (node 2) (sane 1) (sane 2) (compatible kB kA) ra (lA := addrOf 1) dueB lastB (.inl ifB) rb
      (lB := addrOf 2) hearA (.inl respA) lastA (.inl ifA)
  have hn' : some ([109] : Bytes) = some n := hn
  cases hn'
  cases hmA
  cases hmB
  rw [idB] at e0 s1 upA
  exact ⟨ca, cb, ra, rb, ca1, e0, _, d1, s1, cb1, e1, _, d2, s2, ca2, e2, d3, cb3, e3, key, _, _, upA, upB⟩

end Example

end Fastd.Connect
