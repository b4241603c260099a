import Verif.Daemon.HsSpec

/-!
# The handshake and the invariant: handling handshake packets
-/

namespace Fastd.Daemon

set_option linter.unusedSectionVars false

variable [Env] {S : Prop} {x y z : Nat → Prop}

/-! ### The last two packets of a handshake -/

/-- The method negotiated by a packet. -/
def Negotiated (r : Rcv) (group m : Nat) : Bool → Prop
  | true => r.hs.type = 2 ∧ ∃ l, Val r Handshake.RECORD_METHOD_LIST l ∧
      Handshake.methodByNameList (Env.groupMethods group) Env.methodByName l = .some m
  | false => r.hs.type = 3 ∧ ∃ n, Val r Handshake.RECORD_METHOD_NAME n ∧
      Handshake.methodByName (Env.groupMethods group) Env.methodByName n = some m

/-- The MAC of a packet is the one of the peer. -/
def MacOk (r : Rcv) (initiator : Bool) (hsKey : Nat) (key peerHsKey mac : Key) : Prop :=
  ∃ sigma sh, Env.shared initiator hsKey key peerHsKey = some (sigma, sh) ∧ Env.hmac sh (zeroedTlv r) = mac

theorem chooseLoop_some {allowed : List Bytes} {lookup : Bytes → Option Nat} :
    ∀ {l : List Bytes} {cur : Option Nat} {m : Nat}, Handshake.chooseLoop allowed lookup l cur = .some m →
      cur = some m ∨ ∃ n ∈ allowed, lookup n = some m
  | [], none, m, h => by cases h
  | [], some m', m, h => by cases h; exact .inl rfl
  | n :: rest, cur, m, h => by
    unfold Handshake.chooseLoop at h
    split at h
    · rename_i hn
      split at h
      · cases h
      · rename_i m' hm'
        rcases chooseLoop_some h with h1 | h1
        · cases h1; exact .inr ⟨n, hn, hm'⟩
        · exact .inr h1
    · exact chooseLoop_some h

theorem chooseLoop_bug {allowed : List Bytes} {lookup : Bytes → Option Nat} (ha : ∀ n ∈ allowed, ∃ m, lookup n = some m) :
    ∀ {l : List Bytes} {cur : Option Nat}, Handshake.chooseLoop allowed lookup l cur ≠ .bug
  | [], none, h => by cases h
  | [], some m', h => by cases h
  | n :: rest, cur, h => by
    unfold Handshake.chooseLoop at h
    split at h
    · rename_i hn
      split at h
      · rename_i hm'
        obtain ⟨m, hm⟩ := ha n hn
        rw [hm] at hm'; cases hm'
      · exact chooseLoop_bug ha h
    · exact chooseLoop_bug ha h

theorem methodByNameList_some {allowed : List Bytes} {lookup : Bytes → Option Nat} {l : Option Bytes} {m : Nat}
    (h : Handshake.methodByNameList allowed lookup l = .some m) : ∃ n ∈ allowed, lookup n = some m := by
  unfold Handshake.methodByNameList at h
  split at h
  · cases h
  · cases h
  · rcases chooseLoop_some h with h1 | h1
    · cases h1
    · exact h1

theorem methodByNameList_bug {allowed : List Bytes} {lookup : Bytes → Option Nat}
    (ha : ∀ n ∈ allowed, ∃ m, lookup n = some m) {l : Option Bytes} :
    Handshake.methodByNameList allowed lookup l ≠ .bug := by
  unfold Handshake.methodByNameList
  split
  · exact fun h => by cases h
  · exact fun h => by cases h
  · exact chooseLoop_bug ha

theorem find_valid {ks : Protocol.HKeys Nat} {now : Time} {f : Nat → Bool} {hk : Protocol.HKey Nat}
    (h : ks.find now f = some hk) : (hk = ks.cur ∨ hk = ks.prev) ∧ hk.valid now = true ∧ f hk.key = true := by
  unfold Protocol.HKeys.find at h
  split at h
  · rename_i hc
    cases h
    rw [Bool.and_eq_true] at hc
    exact ⟨.inl rfl, hc⟩
  · split at h
    · rename_i hc
      cases h
      rw [Bool.and_eq_true] at hc
      exact ⟨.inr rfl, hc⟩
    · cases h

/-- What is needed to handle a packet that refers to a handshake key. -/
structure HsArgs (S : Prop) (z : Nat → Prop) (c : Ctx) (p : Peer) (sock : Sock) (rem : Addr) (r : Rcv) (k : Key) :
    Prop where
  inv : Inv S nobody nobody z c
  mem : p ∈ c.peers
  set : rem.isSet = true
  state : p.state ≠ .inactive
  room : Room c.peers p
  key : k.length = 32
  env : S → EnvOk
  live : S → Live c sock
  dyn : S → ∀ n, sock = .dyn n → p.sock = some (.dyn n)
  rcv : S → RcvOk r

theorem HsArgs.arg {c : Ctx} {p : Peer} {sock : Sock} {rem : Addr} {r : Rcv} {k : Key}
    (h : HsArgs S z c p sock rem r k) : PeerArg c (some p.id) := by
  intro j hj
  cases hj
  exact ⟨p, h.mem, rfl, h.state⟩

theorem HsArgs.send {c : Ctx} {p : Peer} {sock : Sock} {rem : Addr} {r : Rcv} {k : Key}
    (h : HsArgs S z c p sock rem r k) : S → EnvOk ∧ rem.isSet = true ∧ Live c sock :=
  fun hs => ⟨h.env hs, h.set, h.live hs⟩

/-- The result of handling a packet that may set up a session. -/
def HsPost (S : Prop) (z : Nat → Prop) (c : Ctx) (p : Peer) (rem : Addr) (r : Rcv) (k mac : Key)
    (hk : Protocol.HKey Nat) (init : Bool) (c' : Ctx) : Prop :=
  Inv S nobody nobody z c' ∧
    ∀ E : Eff → Prop, (∀ e, e.plain = true → E e) →
      (∀ m, Negotiated r p.group m init → MacOk r init hk.key p.key k mac → p.lastSerial < hk.serial →
        EstE p.id p.key hk.serial hk.key m init E) →
      Fr (claimT c p.id rem) (· = p.id) E c c'

theorem fr_peer {c c1 c2 : Ctx} {i : Nat} {rem : Addr} {E : Eff → Prop} {t : Nat → Prop}
    (h : Fr t nobody E c1 c2) (ht : ∀ j, t j → j = i) : Fr (claimT c i rem) (· = i) E c1 c2 :=
  h.mono (fun j hj => .inl (ht j hj)) (fun _ h => h.elim) fun _ h => h

theorem wp_finishHandshake {c : Ctx} {p : Peer} {sock : Sock} {loc rem : Addr} {r : Rcv} {k mac : Key}
    {hk : Protocol.HKey Nat} (ha : HsArgs S z c p sock rem r k) (hhk : hk = c.keys.cur ∨ hk = c.keys.prev)
    (ht : r.hs.type = 2) {Q : Unit → Ctx → Prop} (hQ : ∀ c', HsPost S z c p rem r k mac hk true c' → Q () c') :
    wp S (finishHandshake sock loc rem p.id hk k mac r) Q c := by
  have h := ha.inv
  have nothing : Q () c := hQ c ⟨h, fun E _ _ => Fr.refl⟩
  unfold finishHandshake
  rw [wp_bind, wp_getP h.ids ha.mem, wp_bind]
  refine wp_record ha.rcv fun l hl => ?_
  cases hm : Handshake.methodByNameList (Env.groupMethods p.group) Env.methodByName l with
  | bug =>
    simp only []
    rw [wp_bug]
    exact fun hs => methodByNameList_bug ((ha.env hs).resolv p.group) hm
  | none =>
    simp only []
    refine wp_sendError h (fun _ => by decide) ha.send ha.arg fun c1 pkt h1 _ _ _ _ f1 => ?_
    refine hQ c1 ⟨h1, fun E hE _ => fr_peer (f1 E hE) fun j hj => ?_⟩
    cases hj; rfl
  | some m =>
    simp only []
    cases hsh : Env.shared true hk.key p.key k with
    | none => exact nothing
    | some a =>
      obtain ⟨sigma, sh⟩ := a
      simp only []
      refine wp_ite (fun _ => nothing) (fun hmac => ?_)
      have hmac' : Env.hmac sh (zeroedTlv r) = mac := by simpa using hmac
      rw [wp_bind]
      have hcur : hk.serial ≤ c.keys.cur.serial := by
        rcases hhk with rfl | rfl
        · exact Nat.le_refl _
        · exact h.serials.1
      have hne : Negotiated r p.group m true := ⟨ht, l, hl, hm⟩
      have hok : MacOk r true hk.key p.key k mac := ⟨sigma, sh, hsh, hmac'⟩
      refine wp_establish h ha.mem rfl ha.set ha.state (fun hs => ⟨ha.env hs, ha.dyn hs⟩) ha.room hcur ?_ ?_
      · intro c1 q h1 hq hqi f1
        rw [if_pos (by rfl), wp_pure]
        exact hQ c1 ⟨h1, fun E hE hE' => f1 E (hE' m hne hok)⟩
      · intro c1 q h1 hq hqs hqe hqk hlt _ f1
        rw [if_neg (by simp)]
        unfold sendFinish
        rw [wp_bind, wp_getP' h1.ids hq (stat_id hqs), wp_bind]
        refine wp_bugIfNone (fun hs => ?_) fun pkt _ => ?_
        · have hE := ha.env hs
          obtain ⟨n, hn, hnm⟩ := methodByNameList_some hm
          exact replyPacket_fits hE (fun h => by cases h) (hE.fitName p.group n hn m hnm _) (h1.peer q hq).key
            (hE.pub _) ha.key
        · refine wp_sendHandshakePkt h1 (fun hs => ?_) ?_ fun c2 h2 m2 _ _ f2 => ?_
          · exact ⟨ha.env hs, ha.set, h1.sockLive hq (hqk hs)⟩
          · intro j hj
            cases hj
            exact ⟨q, hq, stat_id hqs, by rw [hqe]; simp⟩
          · refine hQ c2 ⟨h2, fun E hE hE' => (f1 E (hE' m hne hok hlt)).trans (fr_peer (f2 E hE) fun j hj => ?_)⟩
            cases hj; rfl

theorem wp_handleFinish {c : Ctx} {p : Peer} {sock : Sock} {loc rem : Addr} {r : Rcv} {k mac : Key}
    {hk : Protocol.HKey Nat} (ha : HsArgs S z c p sock rem r k) (hhk : hk = c.keys.cur ∨ hk = c.keys.prev)
    (ht : r.hs.type = 3) {Q : Unit → Ctx → Prop} (hQ : ∀ c', HsPost S z c p rem r k mac hk false c' → Q () c') :
    wp S (handleFinish sock loc rem p.id hk k mac r) Q c := by
  have h := ha.inv
  unfold handleFinish
  rw [wp_bind, wp_getP h.ids ha.mem, wp_bind]
  refine wp_record ha.rcv fun n hn => ?_
  cases hm : Handshake.methodByName (Env.groupMethods p.group) Env.methodByName n with
  | none =>
    simp only []
    refine wp_sendError h (fun _ => by decide) ha.send ha.arg fun c1 pkt h1 _ _ _ _ f1 => ?_
    refine hQ c1 ⟨h1, fun E hE _ => fr_peer (f1 E hE) fun j hj => ?_⟩
    cases hj; rfl
  | some m =>
    simp only []
    rw [wp_bind]
    refine wp_updateShared h ha.mem rfl hhk ?_ fun c1 s e1 h1 hm1 hsh f1 => ?_
    · rw [if_pos (by rfl), wp_pure]
      exact hQ c ⟨h, fun E _ _ => Fr.refl⟩
    · rw [if_neg (by simp), wp_bind, wp_getP' h1.ids hm1 (i := p.id) rfl]
      refine wp_ite (fun _ => ?_) (fun hmac => ?_)
      · rw [wp_pure]
        exact hQ c1 ⟨h1, fun E _ _ => fr_peer (f1 E) fun _ h => h⟩
      · have hmac' : Env.hmac s.shared (zeroedTlv r) = mac := by simpa using hmac
        have k1 : c1.keys = c.keys := by rw [e1]
        have hcur : hk.serial ≤ c1.keys.cur.serial := by
          rw [k1]
          rcases hhk with rfl | rfl
          · exact Nat.le_refl _
          · exact h.serials.1
        have hok : p.lastSerial < hk.serial → MacOk r false hk.key p.key k mac := fun hlt =>
          ⟨s.sigma, s.shared, hsh (Nat.ne_of_gt (Nat.lt_of_le_of_lt (Nat.zero_le _) hlt)), hmac'⟩
        have hne : Negotiated r p.group m false := ⟨ht, n, hn, hm⟩
        have r1 : Room c1.peers { p with cache := s } := ha.room.fr rfl id (f1 fun _ => True)
        have cl : ∀ j, claimT c1 p.id rem j → claimT c p.id rem j := by
          rintro j (hj | ⟨q, hq, hqj, hqa⟩)
          · exact .inl hj
          · rw [e1] at hq
            rcases mem_upd hq with rfl | ⟨hq, _⟩
            · exact .inl hqj.symm
            · exact .inr ⟨q, hq, hqj, hqa⟩
        have fin : ∀ c2 q, Inv S nobody nobody z c2 → q ∈ c2.peers → q.id = p.id →
            (∀ E, (p.lastSerial < hk.serial → EstE p.id p.key hk.serial hk.key m false E) →
              Fr (claimT c1 p.id rem) (· = p.id) E c1 c2) → wp S (clearShared p.id) Q c2 := by
          intro c2 q h2 hq hqi f2
          refine wp_clearShared h2 hq hqi fun c3 e3 h3 f3 => ?_
          refine hQ c3 ⟨h3, fun E hE hE' => ?_⟩
          refine (fr_peer (f1 E) fun _ h => h).trans (Fr.trans ?_ (fr_peer (f3 E) fun _ h => h))
          exact (f2 E fun hlt => hE' m hne (hok hlt) hlt).mono cl (fun _ h => h) fun _ h => h
        rw [wp_bind]
        refine wp_establish h1 hm1 rfl ha.set ha.state (fun hs => ⟨ha.env hs, ha.dyn hs⟩) r1 hcur ?_ ?_
        · intro c2 q h2 hq hqi f2
          exact fin c2 q h2 hq hqi f2
        · intro c2 q h2 hq hqs _ _ hlt _ f2
          exact fin c2 q h2 hq (stat_id hqs) fun E hE => f2 E (hE hlt)

/-! ### A handshake from a known peer -/

theorem recByte_some {pkt : Bytes} {r : Handshake.Rec} {b : Bytes} (h : Handshake.recBytes pkt r = some b) {i : Nat}
    (hi : i < r.length) : (Handshake.recByte pkt r i).isSome = true := by
  unfold Handshake.recBytes at h
  unfold Handshake.recByte
  cases hd : r.data with
  | none => rw [hd] at h; cases h
  | some off =>
    rw [hd] at h
    simp only [Option.bind_eq_bind, Option.bind_some] at h ⊢
    split at h
    · rw [List.getElem?_eq_getElem (by omega)]; rfl
    · cases h

/-- The MTU record of a handshake has the value `mtu`, if it has the length of one. -/
def MtuOk (r : Rcv) (mtu : Nat) : Prop :=
  (r.hs.parsed.recs Handshake.RECORD_MTU).length = 2 →
    Handshake.asUint16 r.pkt (r.hs.parsed.recs Handshake.RECORD_MTU) = some mtu

theorem wp_checkMtu {c : Ctx} {p : Peer} (h : Inv S x y z c) (hp : p ∈ c.peers) {sock : Sock} {loc rem : Addr} {r : Rcv}
    (hst : p.state ≠ .inactive) (hS : S → EnvOk ∧ rem.isSet = true ∧ Live c sock) (hr : S → RcvOk r)
    {Q : Bool → Ctx → Prop} (hQt : MtuOk r p.getMtu → Q true c)
    (hQf : ∀ c', Inv S x y z c' →
      (∀ E : Eff → Prop, (∀ e, e.plain = true → E e) → Fr (· = p.id) nobody E c c') → Q false c') :
    wp S (checkMtu sock loc rem p.id r) Q c := by
  unfold checkMtu
  rw [wp_bind, wp_getP h.ids hp]
  refine wp_ite (fun hl => ?_) (fun hl => ?_)
  · rw [wp_pure]; exact hQt fun hl' => absurd hl' hl
  · have hl' : (r.hs.parsed.recs Handshake.RECORD_MTU).length = 2 := by simpa using hl
    rw [wp_bind]
    refine wp_memIfNone (fun hs => ?_) fun v hv => ?_
    · have hb := (hr hs).bytes (t := Handshake.RECORD_MTU) (.inr (by rw [hl']; decide))
      obtain ⟨b, hb⟩ := Option.isSome_iff_exists.1 hb
      obtain ⟨b1, h1⟩ := Option.isSome_iff_exists.1 (recByte_some hb (i := 1) (by rw [hl']; decide))
      obtain ⟨b0, h0⟩ := Option.isSome_iff_exists.1 (recByte_some hb (i := 0) (by rw [hl']; decide))
      unfold Handshake.asUint16 Handshake.asUint8
      rw [h1, h0]; rfl
    · refine wp_ite (fun _ => ?_) (fun he => ?_)
      · rw [wp_bind]
        refine wp_sendError h (fun _ => by decide) hS (fun j hj => by cases hj; exact ⟨p, hp, rfl, hst⟩)
          fun c1 pkt h1 _ _ _ _ f1 => ?_
        rw [wp_pure]
        refine hQf c1 h1 fun E hE => (f1 E hE).mono (fun j hj => ?_) (fun _ h => h) fun _ h => h
        cases hj; rfl
      · rw [wp_pure]
        refine hQt fun _ => ?_
        rw [hv, Decidable.not_not.1 he]

/-- What `hsCheck` has checked. -/
structure Checked (c : Ctx) (p : Peer) (r : Rcv) (k : Key) : Prop where
  key : Has r Handshake.RECORD_SENDER_HANDSHAKE_KEY 32 k
  may : mayConnect c.peers p = true
  interval : timedOut p.estHsTimeout c.now = true
  recipient : ∀ rk, Has r Handshake.RECORD_RECIPIENT_KEY 32 rk → rk = Env.ownKey
  mtu : MtuOk r p.getMtu

theorem wp_hsCheck {c : Ctx} {p : Peer} (h : Inv S x y z c) (hp : p ∈ c.peers) {sock : Sock} {loc rem : Addr} {r : Rcv}
    (hst : p.state ≠ .inactive) (hS : S → EnvOk ∧ rem.isSet = true ∧ Live c sock) (hr : S → RcvOk r)
    {Q : Option Key → Ctx → Prop} (hQs : ∀ k, Checked c p r k → Q (some k) c)
    (hQn : ∀ c', Inv S x y z c' →
      (∀ E : Eff → Prop, (∀ e, e.plain = true → E e) → Fr (· = p.id) nobody E c c') → Q none c') :
    wp S (hsCheck sock loc rem p.id r) Q c := by
  have no : Q none c := hQn c h fun E _ => Fr.refl
  unfold hsCheck
  rw [wp_bind]
  refine wp_checkMtu h hp hst hS hr (fun hmtu => ?_) fun c1 h1 f1 => ?_
  · rw [if_neg (by simp), wp_bind]
    refine wp_field hr (by decide) (fun _ => no) fun k hk => ?_
    simp only []
    rw [wp_bind, wp_getP h.ids hp, wp_bind, wp_get]
    refine wp_ite (fun _ => no) (fun hm => ?_)
    refine wp_ite (fun _ => no) (fun ht => ?_)
    have hm' : mayConnect c.peers p = true := by simpa using hm
    have ht' : timedOut p.estHsTimeout c.now = true := by simpa using ht
    rw [wp_bind]
    refine wp_field hr (by decide) (fun hne => ?_) fun rk hrk => ?_
    · simp only []
      rw [wp_pure]
      exact hQs k ⟨hk, hm', ht', fun rk hrk => absurd hrk.1 hne, hmtu⟩
    · simp only []
      rw [wp_pure]
      split
      · rename_i he
        refine hQs k ⟨hk, hm', ht', fun rk' hrk' => ?_, hmtu⟩
        have := hrk.2.symm.trans hrk'.2
        cases this; exact he
      · exact no
  · rw [if_pos (by rfl), wp_pure]
    exact hQn c1 h1 f1

/-- A handshake packet from the peer `key` of group `group`, with which we use the MTU `mtu`, that sets up a session. -/
structure Auth (r : Rcv) (ks : Protocol.HKeys Nat) (now : Time) (key : Key)
    (group mtu serial hsKey m : Nat) (init : Bool) : Prop where
  recipient : Has r Handshake.RECORD_RECIPIENT_KEY 32 Env.ownKey
  ours : ∃ pk hk, Has r Handshake.RECORD_RECIPIENT_HANDSHAKE_KEY 32 pk ∧
    ks.find now (fun n => decide (Env.pub n = pk)) = some hk ∧ hk.serial = serial ∧ hk.key = hsKey
  mac : ∃ phk mac, Has r Handshake.RECORD_SENDER_HANDSHAKE_KEY 32 phk ∧ Has r Handshake.RECORD_TLV_MAC 32 mac ∧
    MacOk r init hsKey key phk mac
  method : Negotiated r group m init
  mtu : MtuOk r mtu

/-- A dynamic peer has been verified, or is verified by a synchronous command now. -/
def Trusted (c : Ctx) (p : Peer) : Prop := p.isDynamic = true → c.now < p.verifyValid ∨ Env.onVerify = some true

/-- What handling a handshake packet from a peer may log. -/
def KnownE (r : Rcv) (c : Ctx) (p : Peer) (E : Eff → Prop) : Prop :=
  (∀ e, e.plain = true → E e) ∧
    ∀ serial hsKey m init, Auth r c.keys c.now p.key p.group p.getMtu serial hsKey m init → p.lastSerial < serial →
      mayConnect c.peers p = true → Trusted c p → EstE p.id p.key serial hsKey m init E

theorem wp_hsReply {c0 c : Ctx} {p : Peer} {sock : Sock} {loc rem : Addr} {r : Rcv} {k : Key}
    (ha : HsArgs S z c p sock rem r k) {p0 : Peer} (hc : Checked c0 p0 r k) (hp0 : p0.stat = p.stat)
    (hser : p0.lastSerial = p.lastSerial) (hk0 : c.keys = c0.keys) (hn0 : c.now = c0.now) (htr : Trusted c0 p0)
    {Q : Unit → Ctx → Prop} (hQ : ∀ c', Inv S nobody nobody z c' →
      (∀ E : Eff → Prop, KnownE r c0 p0 E → Fr (claimT c p.id rem) (· = p.id) E c c') → Q () c') :
    wp S (hsReply sock loc rem p.id k r) Q c := by
  have h := ha.inv
  have no : Q () c := hQ c h fun E _ => Fr.refl
  unfold hsReply
  rw [wp_bind]
  refine wp_field ha.rcv (by decide) (fun _ => ?_) fun rk hrk => ?_
  · rw [wp_bind]
    refine wp_field ha.rcv (by decide) (fun _ => ?_) fun pk hpk => ?_ <;> rw [wp_bind] <;>
      refine wp_field ha.rcv (by decide) (fun _ => ?_) fun mac hmac => ?_ <;> exact no
  · rw [wp_bind]
    refine wp_field ha.rcv (by decide) (fun _ => ?_) fun pk hpk => ?_
    · rw [wp_bind]
      refine wp_field ha.rcv (by decide) (fun _ => ?_) fun mac hmac => ?_ <;> exact no
    · rw [wp_bind]
      refine wp_field ha.rcv (by decide) (fun _ => ?_) fun mac hmac => ?_
      · exact no
      · simp only []
        rw [wp_bind, wp_get]
        cases hf : c.keys.find c.now (fun n => decide (Env.pub n = pk)) with
        | none => exact no
        | some hk =>
          simp only []
          have hv := find_valid hf
          have hown := hc.recipient rk hrk
          subst hown
          have post : ∀ init c', HsPost S z c p rem r k mac hk init c' → Q () c' := by
            intro init c' hpost
            refine hQ c' hpost.1 fun E hE => hpost.2 E hE.1 fun m hneg hmo hlt => ?_
            have := hE.2 hk.serial hk.key m init ⟨hrk, ⟨pk, hk, hpk, ?_, rfl, rfl⟩, ⟨k, mac, hc.key, hmac, ?_⟩, ?_, hc.mtu⟩
              (by rw [hser]; exact hlt) hc.may htr
            · rw [stat_id hp0, stat_key hp0] at this; exact this
            · rw [← hk0, ← hn0]; exact hf
            · rw [stat_key hp0]; exact hmo
            · rw [stat_group hp0]; exact hneg
          refine wp_ite (fun h2 => ?_) (fun _ => wp_ite (fun h3 => ?_) (fun _ => no))
          · exact wp_finishHandshake ha hv.1 h2 (post true)
          · exact wp_handleFinish ha hv.1 h3 (post false)

end Fastd.Daemon
