import Verif.Daemon.LogSpec
import Verif.Daemon.Demo

/-!
# Received packets

* C32: sessions are set up only by authenticated handshakes
* C45: received packets are dispatched by type and sender

For all states reached from an arbitrary start by arbitrary events, in an arbitrary environment.
-/

namespace Fastd.Daemon

set_option linter.unusedSectionVars false

section

variable [Env]

/-! ### C45 -/

/-- What remains of a datagram without the control header: it starts with 200 and has 12 bytes followed by at least one other. -/
def Content (pkt d : Bytes) : Prop :=
  (pkt.head? ≠ some 200 ∧ d = pkt) ∨ (pkt.head? = some 200 ∧ 13 ≤ pkt.length ∧ d = pkt.drop 12)

theorem payload_content {pkt d : Bytes} {b : Bool} (h : payload pkt = some (d, b)) : Content pkt d := by
  unfold payload at h
  split at h
  · split at h
    · cases h
    · split at h
      · cases h
      · rename_i h1 h2 _
        cases h
        exact .inr ⟨h1, by omega, rfl⟩
  · rename_i h1
    cases h
    exact .inl ⟨h1, rfl⟩

/-- A data packet: neither bit 7 of the type is set nor is it a handshake. -/
def IsData (d : Bytes) : Prop := ∃ t, d.head? = some t ∧ t < 128 ∧ t ≠ 1

theorem isDataPacket_iff (t : UInt8) : isDataPacket t = true ↔ t < 128 ∧ t ≠ 1 := by
  have key : ∀ n : Fin 256, isDataPacket (UInt8.ofNat n.val) = true ↔ UInt8.ofNat n.val < 128 ∧ UInt8.ofNat n.val ≠ 1 := by decide +kernel
  have := key ⟨t.toNat, t.toNat_lt⟩
  simpa using this

/-- The peer may send data in packets from this remote to this local address, arriving on this socket. -/
structure MaySend (c : Ctx) (sock : Sock) (loc rem : Addr) (p : Peer) : Prop where
  mem : p ∈ c.peers
  est : p.state = .established
  rem : addrEq p.addr rem = true
  loc : addrEq p.localAddr loc = true
  sock : ∀ n, sock = .dyn n → (n, p.id) ∈ c.socks

theorem Sender.maySend {c : Ctx} {sock : Sock} {loc rem : Addr} {p : Peer} (h : Sender c sock rem (some p.id)) (hp : p ∈ c.peers)
    (he : p.state = .established) (hl : addrEq p.localAddr loc = true) (hd : ∀ n, sock = .dyn n → ∃ i, (n, i) ∈ c.socks) :
    MaySend c sock loc rem p := by
  refine ⟨hp, he, h.addr p hp rfl, hl, fun n hn => ?_⟩
  obtain ⟨j, hj⟩ := hd n hn
  have := h.own n j hn hj
  cases this
  exact hj

theorem possible_sock {c : Ctx} {sock : Sock} {loc rem : Addr} {pkt : Bytes} (hp : (Event.recv sock loc rem pkt).possible c) :
    ∀ n, sock = .dyn n → ∃ i, (n, i) ∈ c.socks := by
  rintro n rfl
  exact hp.2.2

/-- **C45**: a packet is decrypted only if it was received, is a data packet, and came from and to the addresses of an
established peer, on the socket of this peer if it has its own; only sessions of this peer are tried. -/
theorem C45_decrypt {c c' : Ctx} (h : Reach anyEvent c) {e : Event} (hp : e.possible c) (he : handle e c = .ok ((), c')) {l : List Eff}
    (hl : c'.log = c.log ++ l) {i k : Nat} {d : Bytes} (hm : .tryDecrypt i k d ∈ l ∨ .accept i k d ∈ l) :
    ∃ sock loc rem pkt p, e = .recv sock loc rem pkt ∧ Content pkt d ∧ IsData d ∧ p.id = i ∧ MaySend c sock loc rem p ∧
      (p.old.mstate = some k ∨ p.sess.mstate = some k) := by
  obtain ⟨sock, loc, rem, pkt, b, p, rfl, hpl, hs, hpm, hi, hest, hloc, ⟨t, ht, hd⟩, hk, _⟩ := (h.res hp he).decrypt hl hm
  refine ⟨sock, loc, rem, pkt, p, rfl, payload_content hpl, ⟨t, ht, (isDataPacket_iff t).1 hd⟩, hi, hs.maySend hpm hest hloc
    (possible_sock hp), ?_⟩
  unfold Peer.refs at hk
  simpa using hk

/-- **C45**: handshakes are only processed as handshakes: no payload is decrypted, encrypted or written to an interface. -/
theorem C45_handshake {c c' : Ctx} (h : Reach anyEvent c) {sock : Sock} {loc rem : Addr} {pkt d : Bytes}
    (hp : (Event.recv sock loc rem pkt).possible c) (he : handle (.recv sock loc rem pkt) c = .ok ((), c'))
    (hc : Content pkt d) (hd : d.head? = some 1) {l : List Eff} (hl : c'.log = c.log ++ l) :
    ∀ f ∈ l, (∀ i k d, f ≠ .tryDecrypt i k d ∧ f ≠ .accept i k d) ∧ (∀ i d, f ≠ .write i d) ∧
      (∀ i k d, f = .encrypt i k d → d = []) := by
  have key : ∀ f ∈ l, f.ofHs = true := by
    have hr : RecvEv sock loc rem pkt c c' := h.res hp he
    have nil : c' = c → ∀ f ∈ l, f.ofHs = true := by
      intro h f hf
      rw [log_same (by rw [h]) hl] at hf; cases hf
    rcases hr with ⟨hr, _⟩ | ⟨peer, q, b, hs, hq, hr⟩
    · exact nil hr
    · have : q = d := by
        rcases payload_content hq with ⟨h1, rfl⟩ | ⟨h1, _, rfl⟩ <;> rcases hc with ⟨h2, rfl⟩ | ⟨h2, _, rfl⟩
        · rfl
        · exact absurd h2 h1
        · exact absurd h1 h2
        · rfl
      subst this
      cases hr with
      | ignored hc => exact nil hc
      | data p hpm hi hest hloc t ht hdp hr hf => rw [hd] at ht; cases ht; cases hdp
      | handshake ht hn hr => exact hr.ofHs hl
      | unknown t ht hdp => rw [hd] at ht; cases ht; cases hdp
  intro f hf
  have := key f hf
  refine ⟨fun i k d => ⟨?_, ?_⟩, fun i d => ?_, fun i k d => ?_⟩
  · rintro rfl; cases this
  · rintro rfl; cases this
  · rintro rfl; cases this
  · rintro rfl
    cases d with
    | nil => rfl
    | cons => cases this

/-- **C45**: any other packet changes neither peers nor sessions nor the MAC table nor sockets. The only effect it can have is an
initial handshake to its sender. -/
theorem C45_other {c c' : Ctx} (h : Reach anyEvent c) {sock : Sock} {loc rem : Addr} {pkt : Bytes}
    (hp : (Event.recv sock loc rem pkt).possible c) (he : handle (.recv sock loc rem pkt) c = .ok ((), c'))
    (hn : ∀ d, Content pkt d → d.head? ≠ some 1 ∧ (IsData d → ∀ p, ¬ MaySend c sock loc rem p)) :
    c'.peers = c.peers ∧ c'.socks = c.socks ∧ c'.objs = c.objs ∧ c'.eth = c.eth ∧ c'.now = c.now ∧
      ∃ l, c'.log = c.log ++ l ∧ (l = [] ∨ ∃ ds : List Bytes, l = .hsInit none rem :: ds.map (.send sock loc rem none)) := by
  have hr : RecvEv sock loc rem pkt c c' := h.res hp he
  have nil : c' = c → c'.peers = c.peers ∧ c'.socks = c.socks ∧ c'.objs = c.objs ∧ c'.eth = c.eth ∧ c'.now = c.now ∧
      ∃ l, c'.log = c.log ++ l ∧ (l = [] ∨ ∃ ds : List Bytes, l = .hsInit none rem :: ds.map (.send sock loc rem none)) := by
    rintro rfl
    exact ⟨rfl, rfl, rfl, rfl, rfl, [], by simp, .inl rfl⟩
  rcases hr with ⟨hr, _⟩ | ⟨peer, q, b, hs, hq, hr⟩
  · exact nil hr
  · obtain ⟨h1, h2⟩ := hn q (payload_content hq)
    cases hr with
    | ignored hc => exact nil hc
    | data p hpm hi hest hloc t ht hdp hr hf =>
      subst hi
      exact absurd (hs.maySend hpm hest hloc (possible_sock hp)) (h2 ⟨t, ht, (isDataPacket_iff t).1 hdp⟩ p)
    | handshake ht hn hr => exact absurd ht h1
    | unknown t ht hdp hno hps hsk hf r hb hl ho heth =>
      have hnow := (hf (fun _ => True) (fun _ _ => trivial) trivial).now
      refine ⟨hps, hsk, ho, heth, hnow, ?_⟩
      rcases hl with hl | ⟨_, pkt, hl⟩
      · exact ⟨[], by rw [hl]; simp, .inl rfl⟩
      · exact ⟨_, hl, .inr ⟨_, rfl⟩⟩

/-! ### C32 -/

/-- A record of a handshake packet and its value. -/
def Record (q : Bytes) (hs : Handshake.Hs) (t : Nat) (v : Bytes) : Prop :=
  ∃ off, (hs.parsed.recs t).data = some off ∧ off + (hs.parsed.recs t).length ≤ q.length ∧
    v = (q.drop off).take (hs.parsed.recs t).length

theorem record_of {q : Bytes} {hs : Handshake.Hs} {t : Nat} {v : Bytes} (h : Handshake.recBytes q (hs.parsed.recs t) = some v) :
    Record q hs t v := by
  unfold Handshake.recBytes at h
  cases hd : (hs.parsed.recs t).data with
  | none => simp [hd] at h
  | some off =>
    simp only [hd, Option.bind_eq_bind, Option.bind_some] at h
    split at h
    · rename_i hle
      exact ⟨off, hd, hle, by simpa using h.symm⟩
    · cases h

/-- The data that is authenticated by the MAC, which is itself replaced by zeros. -/
def Authenticated (q : Bytes) (hs : Handshake.Hs) : Bytes :=
  let off := (hs.parsed.recs Handshake.RECORD_TLV_MAC).data.getD 0
  ((q.take off ++ List.replicate 32 0 ++ q.drop (off + 32)).drop 4).take hs.parsed.tlvLen

/-- The packet proves knowledge of the key shared with the peer `key` for our handshake key `hsKey`. -/
structure Proves (q : Bytes) (hs : Handshake.Hs) (key : Key) (hsKey : Nat) (init : Bool) : Prop where
  sender : Record q hs Handshake.RECORD_SENDER_KEY key
  recipient : Record q hs Handshake.RECORD_RECIPIENT_KEY Env.ownKey
  ours : Record q hs Handshake.RECORD_RECIPIENT_HANDSHAKE_KEY (Env.pub hsKey)
  mac : ∃ peerHsKey mac sigma shared, Record q hs Handshake.RECORD_SENDER_HANDSHAKE_KEY peerHsKey ∧
    Record q hs Handshake.RECORD_TLV_MAC mac ∧ mac.length = 32 ∧ Env.shared init hsKey key peerHsKey = some (sigma, shared) ∧
    Env.hmac shared (Authenticated q hs) = mac

/-- A method of the group of a peer that the packet offers (in a reply) or selects (in a final handshake). -/
def Agrees (q : Bytes) (hs : Handshake.Hs) (group m : Nat) (init : Bool) : Prop :=
  ∃ n ∈ Env.groupMethods group, Env.methodByName n = some m ∧
    if init then hs.type = 2 ∧ ∃ v, Record q hs Handshake.RECORD_METHOD_LIST v ∧ n ∈ Handshake.parseStringList v []
    else hs.type = 3 ∧ ∃ v, Record q hs Handshake.RECORD_METHOD_NAME v ∧ n = v.takeWhile (· ≠ 0)

theorem val_record {q : Bytes} {hs : Handshake.Hs} {t : Nat} {v : Bytes} (h : Val ⟨q, hs⟩ t (some v)) : Record q hs t v := by
  unfold Val at h
  split at h
  · cases h
  · obtain ⟨v', h1, h2⟩ := h
    cases h2
    exact record_of h1

theorem chooseLoop_mem {allowed : List Bytes} {lookup : Bytes → Option Nat} :
    ∀ {l : List Bytes} {cur : Option Nat} {m : Nat}, Handshake.chooseLoop allowed lookup l cur = .some m →
      cur = some m ∨ ∃ n ∈ allowed, n ∈ l ∧ lookup n = some m
  | [], none, m, h => by cases h
  | [], some m', m, h => by cases h; exact .inl rfl
  | n :: rest, cur, m, h => by
    unfold Handshake.chooseLoop at h
    split at h
    · rename_i hn
      split at h
      · cases h
      · rename_i m' hm'
        rcases chooseLoop_mem h with h1 | ⟨n', h1, h2, h3⟩
        · cases h1; exact .inr ⟨n, hn, List.mem_cons_self, hm'⟩
        · exact .inr ⟨n', h1, List.mem_cons_of_mem _ h2, h3⟩
    · rcases chooseLoop_mem h with h1 | ⟨n', h1, h2, h3⟩
      · exact .inl h1
      · exact .inr ⟨n', h1, List.mem_cons_of_mem _ h2, h3⟩

theorem negotiated_agrees {q : Bytes} {hs : Handshake.Hs} {group m : Nat} {init : Bool} (h : Negotiated ⟨q, hs⟩ group m init) :
    Agrees q hs group m init := by
  cases init with
  | true =>
    obtain ⟨ht, l, hv, hm⟩ := h
    unfold Handshake.methodByNameList at hm
    cases l with
    | none => cases hm
    | some v =>
      have hm' : Handshake.chooseLoop (Env.groupMethods group) Env.methodByName (Handshake.parseStringList v []) none = .some m := by
        cases v with
        | nil => cases hm
        | cons => exact hm
      rcases chooseLoop_mem hm' with h1 | ⟨n, h1, h2, h3⟩
      · cases h1
      · exact ⟨n, h1, h3, ht, v, val_record hv, h2⟩
  | false =>
    obtain ⟨ht, n, hv, hm⟩ := h
    unfold Handshake.methodByName at hm
    cases n with
    | none => cases hm
    | some v =>
      simp only [] at hm
      split at hm
      · rename_i hin
        exact ⟨_, hin, hm, ht, v, val_record hv, rfl⟩
      · cases hm

theorem mtu_of {q : Bytes} {hs : Handshake.Hs} {b0 b1 : UInt8} {mtu : Nat} (h : Record q hs Handshake.RECORD_MTU [b0, b1])
    (hm : MtuOk ⟨q, hs⟩ mtu) : b0.toNat + 256 * b1.toNat = mtu := by
  obtain ⟨off, hd, hle, hv⟩ := h
  have hl : (hs.parsed.recs Handshake.RECORD_MTU).length = 2 := by
    have := congrArg List.length hv
    rw [List.length_take, List.length_drop] at this
    simp only [List.length_cons, List.length_nil] at this
    omega
  have h2 := hm hl
  have g0 : q[off]? = some b0 := by
    have := congrArg (·[0]?) hv
    simpa [hl, List.getElem?_take, List.getElem?_drop] using this.symm
  have g1 : q[off + 1]? = some b1 := by
    have := congrArg (·[1]?) hv
    simpa [hl, List.getElem?_take, List.getElem?_drop] using this.symm
  simp only [Handshake.asUint16, Handshake.asUint8, Handshake.recByte, hd] at h2
  simp only [Option.bind_eq_bind, Option.bind_some, Option.pure_def, Nat.add_zero, Option.some.injEq, g0, g1] at h2
  rw [← h2, ← Nat.shiftLeft_add_eq_or_of_lt b0.toNat_lt, Nat.shiftLeft_eq]
  omega

/-- The handshake key is one of our two most recent ones and still valid, or was created just now. -/
def OurKey (c : Ctx) (serial hsKey : Nat) : Prop :=
  ∃ hk : Protocol.HKey Nat, hk.serial = serial ∧ hk.key = hsKey ∧ c.now < hk.validTill ∧
    (hk = c.keys.cur ∨ hk = c.keys.prev ∨ (c.keys.cur.preferredTill ≤ c.now ∧ hk.serial = c.keys.cur.serial + 1))

/-- The peer `i` with this key may connect: it is enabled, and there are less than the allowed number of connections. Or it does not
exist yet, and is added as a dynamic peer. A dynamic peer has been verified before, or is verified now if this is done synchronously;
see C118. `mtu` is the MTU that is used with it: that of the interface, unless there is an interface
for each peer and the peer has its own one. -/
def MayJoin (c : Ctx) (key : Key) (i group mtu serial : Nat) : Prop :=
  (∃ p ∈ c.peers, p.id = i ∧ p.key = key ∧ p.group = group ∧ mtu = (if Env.mode = .tap ∨ p.mtu = 0 then Env.mtu else p.mtu) ∧ p.lastSerial < serial ∧ p.cfg ≠ .disabled ∧
    (p.cfg = .dynamic → c.now < p.verifyValid ∨ Env.onVerify = some true) ∧
    (p.state = .established ∨ ∀ g ∈ Env.chain group, ∀ m, Env.maxConn g = some m →
      (c.peers.filter fun q => q.isEstablished && (Env.chain q.group).contains g).length < m)) ∨
  (i = c.nextId ∧ Env.onVerify = some true ∧ group = Env.verifyGroup ∧ mtu = Env.mtu ∧ (∀ q ∈ c.peers, q.key ≠ key) ∧
    ∀ g ∈ Env.chain group, ∀ m, Env.maxConn g = some m →
      (c.peers.filter fun q => q.isEstablished && (Env.chain q.group).contains g).length < m)

theorem mayConnect_iff {ps : List Peer} {p : Peer} (h : mayConnect ps p = true) (hs : p.state ≠ .established) :
    ∀ g ∈ Env.chain p.group, ∀ m, Env.maxConn g = some m →
      (ps.filter fun q => q.isEstablished && (Env.chain q.group).contains g).length < m := by
  intro g hg m hm
  unfold mayConnect at h
  have : p.isEstablished = false := by simpa [Peer.isEstablished] using hs
  rw [this] at h
  simp only [Bool.false_eq_true, if_false, List.all_eq_true] at h
  have := h g hg
  rw [hm] at this
  simp only [Bool.not_eq_true', decide_eq_false_iff_not, ge_iff_le, Nat.not_le] at this
  exact this

/-- **C32**: a session is set up for a peer only when a handshake packet is received that is addressed to our key, refers to a valid
handshake key of ours that has not been used with this peer before, has a MAC that is made with the key shared with exactly this peer,
and selects a method that is allowed for the peer; and only if the peer may connect, and does not announce an MTU other than ours. -/
theorem C32_session {c c' : Ctx} (h : Reach anyEvent c) {e : Event} (hp : e.possible c) (he : handle e c = .ok ((), c')) {l : List Eff}
    (hl : c'.log = c.log ++ l) {i : Nat} {key : Key} {serial hsKey m : Nat} {init : Bool} (hm : .session i key serial hsKey m init ∈ l) :
    ∃ sock loc rem pkt q b hs group mtu, e = .recv sock loc rem pkt ∧ Content pkt q ∧
      Handshake.handle hsConf b q = some (.pass hs) ∧ Proves q hs key hsKey init ∧ OurKey c serial hsKey ∧
      Agrees q hs group m init ∧ MayJoin c key i group mtu serial ∧
      ∀ b0 b1, Record q hs Handshake.RECORD_MTU [b0, b1] → b0.toNat + 256 * b1.toNat = mtu := by
  have hres := h.res hp he
  cases hr : e.isRecv with
  | false => cases hres.calm hr hl _ hm
  | true =>
    cases e with
    | recv sock loc rem pkt =>
      have hr : RecvEv sock loc rem pkt c c' := hres
      have nil : c' = c → False := by
        intro h
        rw [log_same (by rw [h]) hl] at hm; cases hm
      rcases hr with ⟨hc, _⟩ | ⟨peer, q, b, hs, hq, hr⟩
      · exact (nil hc).elim
      · cases hr with
        | ignored hc => exact (nil hc).elim
        | data p hpm hi hest hloc t ht hd hr hf =>
          have := (hf (fun f => match f with
            | .session .. => False
            | _ => True) ⟨⟨fun f hf => (by cases f <;> trivial), fun _ => trivial, fun _ _ _ _ _ => trivial⟩,
              fun _ _ => trivial, fun _ _ => trivial⟩).lg.all hl _ hm
          exact this.elim
        | unknown t ht hd hn hps hsock hf r hb hl' ho heth =>
          cases (hf (fun f => f.calm = true) (fun _ => Eff.calm_of_plain) rfl).lg.all hl _ hm
        | handshake ht hn hr =>
          cases hr with
          | drop _ hc => exact (nil hc).elim
          | error t f code d _ m hf _ => cases (hf (fun f => f.calm = true) fun _ => Eff.calm_of_plain).lg.all hl _ hm
          | pass hs hh fresh hE =>
            have key := (hE (fun f => match f with
              | .session i key serial hsKey m init => ∃ group mtu last, Has ⟨q, hs⟩ Handshake.RECORD_SENDER_KEY 32 key ∧
                  Auth ⟨q, hs⟩ (c.keys.maintenance c.now fresh) c.now key group mtu serial hsKey m init ∧ last < serial ∧
                  Joins c key i group mtu last
              | _ => True) ⟨fun f hf => (by cases f <;> trivial),
                fun key id group mtu last serial hsKey m init h1 h2 h3 h4 =>
                  ⟨fun f hf => (by cases f <;> trivial), ⟨group, mtu, last, h1, h2, h3, h4⟩, trivial, fun _ => trivial⟩⟩).all hl _ hm
            obtain ⟨group, mtu, last, hsk, au, hlast, hj⟩ := key
            obtain ⟨pk, hk, hpk, hfind, hser, hhk⟩ := au.ours
            obtain ⟨phk, mac, hphk, hmac, sigma, sh, hsh, hmacv⟩ := au.mac
            have hfk : Env.pub hsKey = pk ∧ c.now < hk.validTill ∧ (hk = (c.keys.maintenance c.now fresh).cur ∨
                hk = (c.keys.maintenance c.now fresh).prev) := by
              unfold Protocol.HKeys.find at hfind
              split at hfind
              · rename_i hv
                cases hfind
                rw [Bool.and_eq_true] at hv
                refine ⟨by rw [← hhk]; simpa using hv.2, by simpa [Protocol.HKey.valid, timedOut] using hv.1, .inl rfl⟩
              · split at hfind
                · rename_i hv
                  cases hfind
                  rw [Bool.and_eq_true] at hv
                  refine ⟨by rw [← hhk]; simpa using hv.2, by simpa [Protocol.HKey.valid, timedOut] using hv.1, .inr rfl⟩
                · cases hfind
            obtain ⟨hpub, hvalid, hwhich⟩ := hfk
            refine ⟨sock, loc, rem, pkt, q, b, hs, group, mtu, rfl, payload_content hq, hh, ⟨record_of hsk.2, record_of au.recipient.2,
              by rw [hpub]; exact record_of hpk.2, phk, mac, sigma, sh, record_of hphk.2, record_of hmac.2, ?_, hsh, hmacv⟩,
              ⟨hk, hser, hhk, hvalid, ?_⟩, negotiated_agrees au.method, ?_, fun b0 b1 h => mtu_of h au.mtu⟩
            · rw [recBytes_length hmac.2]; exact hmac.1
            · unfold Protocol.HKeys.maintenance at hwhich
              split at hwhich
              · rename_i hpref
                rcases hwhich with h1 | h1
                · refine .inr (.inr ⟨?_, by rw [h1]⟩)
                  simpa [Protocol.HKey.preferred, timedOut] using hpref
                · exact .inl h1
              · rcases hwhich with h1 | h1
                · exact .inl h1
                · exact .inr (.inl h1)
            · rcases hj with ⟨p, hpm, hpi, hpk, hpg, hpt, hps, hpe, hmc, htr⟩ | ⟨h1, h2, h3, ht, h4, h5⟩
              · refine .inl ⟨p, hpm, hpi, hpk, hpg, ?_, by omega, ?_, (fun hd => htr (by unfold Peer.isDynamic; rw [hd]; rfl)), ?_⟩
                · rw [← hpt]; unfold Peer.getMtu
                  by_cases hm : Env.mode = .tap <;> by_cases h0 : p.mtu = 0 <;> simp [hm, h0]
                · intro hd
                  unfold Peer.isEnabled at hpe
                  rw [hd] at hpe; cases hpe
                · by_cases hest : p.state = .established
                  · exact .inl hest
                  · refine .inr ?_
                    rw [← hpg]
                    exact mayConnect_iff hmc hest
              · refine .inr ⟨h1, h2, h3, ht, h4, ?_⟩
                rw [h3]
                exact mayConnect_iff h5 (by intro h; cases h)
    | _ => cases hr

end

/-! ### Examples -/

namespace Demo

section
local instance packetsEnv : Env := env {}

/-- After `duoUp` there are two sessions (C32), one as initiator. -/
example : ∃ c, Reach anyEvent c ∧ decide (c.log.filterMap (fun e => match e with
    | .session i k s h m init => some (i, k, s, h, m, init)
    | _ => none) = [(0, keyOf 2, 1, 1, 0, true), (1, keyOf 3, 1, 1, 0, false)]) = true :=
  after_reach (static := duo) (dirs := []) (es := duoUp) (by decide +kernel)

/-- A data packet from the address of an established peer is decrypted (C45); the same one from another address leads to a handshake
with this address. -/
example : ∃ c c', Reach anyEvent c ∧ (Event.recv (.bound 0) (addrOf 1) (addrOf 2) (dataPkt 2 (frame 9 1))).possible c ∧
    handle (.recv (.bound 0) (addrOf 1) (addrOf 2) (dataPkt 2 (frame 9 1))) c = .ok ((), c') ∧
    decide (∃ e ∈ c'.log.drop c.log.length, e = .accept 0 0 (dataPkt 2 (frame 9 1))) = true :=
  afterStep_reach (static := duo) (dirs := []) (es := duoUp) (by decide +kernel)

example : ∃ c c', Reach anyEvent c ∧ (Event.recv (.bound 0) (addrOf 1) (addrOf 4) (dataPkt 2 (frame 9 1))).possible c ∧
    handle (.recv (.bound 0) (addrOf 1) (addrOf 4) (dataPkt 2 (frame 9 1))) c = .ok ((), c') ∧
    decide ((c'.log.drop c.log.length)[0]? = some (.hsInit none (addrOf 4))) = true :=
  afterStep_reach (static := duo) (dirs := []) (es := duoUp) (by decide +kernel)

end

end Demo

end Fastd.Daemon
