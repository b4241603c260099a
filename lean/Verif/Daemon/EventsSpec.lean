import Verif.Daemon.DynSpec
import Verif.Daemon.Events
import Verif.Props.Backoff

/-!
# Received packets keep the invariant

`handle_socket_receive` and the functions it calls (src/receive.c).
-/

namespace Fastd.Daemon

set_option linter.unusedSectionVars false

variable [Env] {S : Prop} {x y z : Nat → Prop}

/-! ### Handshake packets -/

theorem checkRecords_pass {cf : Handshake.Conf} {pkt : Bytes} {hs hs' : Handshake.Hs} :
    Handshake.checkRecords cf pkt hs ≠ some (some (.pass hs')) := by
  intro h
  unfold Handshake.checkRecords at h
  simp only [Option.bind_eq_bind] at h
  split at h
  · cases h
  cases hp : Handshake.badProtocol cf pkt (hs.parsed.recs Handshake.RECORD_PROTOCOL_NAME) with
  | none => rw [hp] at h; cases h
  | some b =>
    rw [hp] at h
    simp only [Option.bind_some] at h
    split at h
    · cases h
    cases hm : Handshake.badMode cf pkt (hs.parsed.recs Handshake.RECORD_MODE) with
    | none => rw [hm] at h; cases h
    | some b =>
      rw [hm] at h
      simp only [Option.bind_some] at h
      split at h
      · cases h
      split at h
      · unfold Handshake.checkReply at h
        split at h
        · cases h
        · revert h
          cases Handshake.asUint8 pkt (hs.parsed.recs Handshake.RECORD_REPLY_CODE) with
          | none => intro h; cases h
          | some v =>
            simp only [Option.bind_some]
            intro h
            split at h
            · revert h
              split
              · cases Handshake.asUint pkt (hs.parsed.recs Handshake.RECORD_ERROR_DETAIL) <;> intro h <;> cases h
              · intro h; cases h
            · cases h
      · cases h

theorem pass_parsed {cf : Handshake.Conf} {b : Bool} {pkt : Bytes} {hs : Handshake.Hs}
    (h : Handshake.handle cf b pkt = some (.pass hs)) : Handshake.parseTlvs pkt = some hs.parsed := by
  unfold Handshake.handle at h
  simp only [Option.bind_eq_bind, Option.pure_def] at h
  cases hp : Handshake.parseTlvs pkt with
  | none => rw [hp] at h; cases h
  | some p =>
    rw [hp] at h
    simp only [Option.bind_some] at h
    split at h
    · cases h
    split at h
    · cases h
    cases ht : Handshake.asUint8 pkt (p.recs Handshake.RECORD_HANDSHAKE_TYPE) with
    | none => rw [ht] at h; cases h
    | some t =>
      rw [ht] at h
      simp only [Option.bind_some] at h
      cases hf : Handshake.readFlags pkt (p.recs Handshake.RECORD_FLAGS) with
      | none => rw [hf] at h; cases h
      | some f =>
        rw [hf] at h
        simp only [Option.bind_some] at h
        split at h
        · cases h
        cases hc : Handshake.checkRecords cf pkt ⟨t, f, p⟩ with
        | none => rw [hc] at h; cases h
        | some o =>
          rw [hc] at h
          simp only [Option.bind_some] at h
          cases o with
          | some o =>
            simp only [Option.some.injEq] at h
            subst h
            exact absurd hc checkRecords_pass
          | none =>
            simp only [] at h
            cases hv : Handshake.readVersion pkt t (p.recs Handshake.RECORD_VERSION_NAME) with
            | none => rw [hv] at h; cases h
            | some w =>
              rw [hv] at h
              simp only [Option.bind_some, Option.some.injEq, Handshake.Outcome.pass.injEq] at h
              rw [← h]

theorem handle_safe (hE : EnvOk) (b : Bool) (pkt : Bytes) : ∃ o, Handshake.handle hsConf b pkt = some o ∧
    ∀ t f code detail, o = .error t f code detail → detail < 16 := by
  obtain ⟨o, ho, hv⟩ := Handshake.C30_handshake_rules hsConf b pkt hE.name
  refine ⟨o, ho, ?_⟩
  rintro t f code detail rfl
  simp only [Handshake.Outcome.view, Handshake.judge] at hv
  split at hv
  · repeat' split at hv
    all_goals simp_all
  · simp at hv

/-- What the handshake in `pkt` means for the daemon, if anything. -/
inductive HsRes (sock : Sock) (loc rem : Addr) (peer : Option Nat) (pkt : Bytes) (b : Bool) (c c' : Ctx) : Prop
  | drop (h : Handshake.handle hsConf b pkt = some .drop) (hc : c' = c)
  | error (t f code : UInt8) (d : Nat) (h : Handshake.handle hsConf b pkt = some (.error t f code d)) (m : Mild c c')
      (hf : ∀ E : Eff → Prop, (∀ e, e.plain = true → E e) → Fr (fun j => peer = some j) nobody E c c')
      (hl : ∃ e, Handshake.errorPacket Env.maxBuffer t code d = some e ∧
        c'.log = c.log ++ (Handshake.sendFree e (some f)).map (.send sock loc rem peer))
  | pass (hs : Handshake.Hs) (h : Handshake.handle hsConf b pkt = some (.pass hs)) (fresh : Nat)
      (hl : ∀ E : Eff → Prop, HandleE ⟨pkt, hs⟩ c (c.keys.maintenance c.now fresh) E → Lg E c c')

/-- On the own socket of a peer only that peer sends handshakes. -/
def OwnSock (c : Ctx) (sock : Sock) (pkt : Bytes) (b : Bool) : Prop :=
  ∀ n j p hs key, sock = .dyn n → (n, j) ∈ c.socks → p ∈ c.peers → p.id = j →
    Handshake.handle hsConf b pkt = some (.pass hs) → Has ⟨pkt, hs⟩ Handshake.RECORD_SENDER_KEY 32 key → p.key = key

theorem wp_hsPacket {c : Ctx} (h : Inv S nobody nobody z c) {sock : Sock} {loc rem : Addr}
    {peer : Option Nat} {pkt : Bytes} {b : Bool} (ha : PeerArg c peer) (hrem : rem.isSet = true)
    (hS : S → EnvOk ∧ Live c sock ∧ OwnSock c sock pkt b)
    (hd : S → ∀ n j, sock = .dyn n → (n, j) ∈ c.socks → peer = some j) {Q : Unit → Ctx → Prop}
    (hQ : ∀ c', Inv S nobody nobody z c' → HsRes sock loc rem peer pkt b c c' → Q () c') :
    wp S (hsPacket sock loc rem peer pkt b) Q c := by
  unfold hsPacket
  cases ho : Handshake.handle hsConf b pkt with
  | none =>
    refine wp_mem.2 fun hs => ?_
    obtain ⟨o, ho', _⟩ := handle_safe (hS hs).1 b pkt
    rw [ho] at ho'; cases ho'
  | some o =>
    cases o with
    | drop =>
      simp only []
      rw [wp_pure]; exact hQ c h (.drop ho rfl)
    | error t f code d =>
      simp only []
      refine wp_sendError h (fun hs => ?_) (fun hs => ⟨(hS hs).1, hrem, (hS hs).2.1⟩) ha
        fun c1 e h1 m1 _ he hl f1 => hQ c1 h1 (.error t f code d ho m1 f1 ⟨e, he, hl⟩)
      obtain ⟨o, ho', hd⟩ := handle_safe (hS hs).1 b pkt
      rw [ho] at ho'; cases ho'
      exact hd t f code d rfl
    | pass hs =>
      simp only []
      refine wp_handshakeHandle h ha hrem (fun s => ⟨(hS s).1, pass_parsed ho, (hS s).2.1⟩) (fun s n j hn hm => ?_)
        fun c1 fresh h1 l1 => hQ c1 h1 (.pass hs ho fresh l1)
      refine ⟨hd s n j hn hm, ?_⟩
      obtain ⟨p, hp, hpj⟩ := h.socks.live _ hm
      exact ⟨p, hp, hpj, fun key hk => (hS s).2.2 n j p hs key hn hm hp hpj ho hk⟩

/-! ### Packets -/

/-- What a packet means for the daemon, once its sender is known. -/
inductive PktRes (sock : Sock) (loc rem : Addr) (peer : Option Nat) (pkt : Bytes) (b : Bool) (c c' : Ctx) : Prop
  | ignored (hc : c' = c)
      (hi : peer = none ∨ ∃ t, pkt.head? = some t ∧ t ≠ PACKET_HANDSHAKE ∧ isDataPacket t = false)
  | data (p : Peer) (hp : p ∈ c.peers) (hi : peer = some p.id) (he : p.state = .established)
      (hl : addrEq p.localAddr loc = true) (t : UInt8) (ht : pkt.head? = some t) (hd : isDataPacket t = true)
      (hr : RecvRes p pkt c c') (hf : ∀ E, PktE E c p pkt → Fr (fun _ => True) nobody E c c')
  | handshake (ht : pkt.head? = some PACKET_HANDSHAKE) (hn : peer = none → c.hasFloating = true ∨ Env.onVerify ≠ none)
      (hr : HsRes sock loc rem peer pkt b c c')
  | unknown (t : UInt8) (ht : pkt.head? = some t) (hd : isDataPacket t = true)
      (hn : ∀ p ∈ c.peers, peer = some p.id → p.state ≠ .established ∨ addrEq p.localAddr loc = false)
      (hs : c'.peers = c.peers) (hsock : c'.socks = c.socks)
      (hf : ∀ E : Eff → Prop, (∀ e, e.plain = true → E e) → E (.hsInit none rem) → Fr nobody nobody E c c')
      (r : Backoff.Outcome) (hb : r = (Backoff.backoffUnknown c.unknown c.now rem (Env.tape c.pos)).1)
      (hl : c'.log = c.log ∨ r ≠ .backoff ∧
        ∃ pkt, c'.log = c.log ++ .hsInit none rem :: (Handshake.sendFree pkt none).map (.send sock loc rem none))
      (ho : c'.objs = c.objs) (he : c'.eth = c.eth)

theorem peers_same {a : Nat → Prop} {ps ps' : List Peer} (h : List.Forall₂ (PFr nobody a) ps ps') : ps' = ps := by
  induction h with
  | nil => rfl
  | cons h _ ih => rw [h.same id, ih]

theorem wp_backoff {c : Ctx} {rem : Addr} (hrem : rem.isSet = true) {Q : Bool → Ctx → Prop}
    (hQ : ∀ b t, b = decide ((Backoff.backoffUnknown c.unknown c.now rem (Env.tape c.pos)).1 = .backoff) →
      Q b { c with unknown := t, pos := c.pos + 1 }) : wp S (backoff rem) Q c := by
  unfold backoff
  rw [wp_bind, wp_draw, wp_bind, wp_get]
  have hb := Backoff.C43_no_bug c.unknown ⟨c.now, rem, Env.tape c.pos⟩ hrem
  rcases hr : Backoff.backoffUnknown c.unknown c.now rem (Env.tape c.pos) with ⟨o, t⟩
  rw [hr] at hb hQ
  cases o with
  | bug => exact absurd rfl hb
  | backoff => exact hQ true t rfl
  | send _ _ => exact hQ false t rfl

theorem wp_classify {c : Ctx} (h : Inv S nobody nobody z c) {sock : Sock} {loc rem : Addr}
    {peer : Option Nat} {pkt : Bytes} {b : Bool} (ha : PeerArg c peer) (hrem : rem.isSet = true) (hne : pkt ≠ [])
    (hS : S → EnvOk ∧ Live c sock ∧ OwnSock c sock pkt b)
    (hd : S → ∀ n j, sock = .dyn n → (n, j) ∈ c.socks → peer = some j) {Q : Unit → Ctx → Prop}
    (hQ : ∀ c', Inv S nobody nobody z c' → PktRes sock loc rem peer pkt b c c' → Q () c') :
    wp S (classify sock loc rem peer pkt b) Q c := by
  unfold classify
  cases pkt with
  | nil => exact absurd rfl hne
  | cons t rest =>
  rw [wp_bind]
  refine wp_memIfNone (fun _ => rfl) fun t' ht' => ?_
  cases ht'
  have rest : ∀ {Q : Unit → Ctx → Prop}, (isDataPacket t = true → ∀ p ∈ c.peers, peer = some p.id →
        p.state ≠ .established ∨ addrEq p.localAddr loc = false) →
      (∀ c', Inv S nobody nobody z c' → PktRes sock loc rem peer (t :: rest) b c c' → Q () c') → wp S (do
        let ok ← allowUnknown
        if peer = none && !ok then pure ()
        else if t = PACKET_HANDSHAKE then hsPacket sock loc rem peer (t :: rest) b
        else if isDataPacket t then
          let b ← backoff rem
          if b then pure ()
          else handshakeInit sock loc rem none
        else pure ()) Q c := by
    intro Q hno hQ
    unfold allowUnknown
    rw [wp_bind, wp_bind, wp_get, wp_pure]
    refine wp_ite (fun hn => hQ c h (.ignored rfl (.inl ?_))) (fun hu => wp_ite (fun ht => ?_) (fun ht => wp_ite (fun hdp => ?_)
      (fun hd => hQ c h (.ignored rfl (.inr ⟨t, rfl, ht, by simpa using hd⟩)))))
    · rw [Bool.and_eq_true, decide_eq_true_eq] at hn; exact hn.1
    · subst ht
      refine wp_hsPacket h ha hrem hS hd fun c1 h1 r1 => hQ c1 h1 (.handshake rfl (fun hn => ?_) r1)
      subst hn
      cases hf : c.hasFloating with
      | true => exact .inl rfl
      | false =>
        rw [hf] at hu
        refine .inr fun ho => ?_
        rw [ho] at hu
        simp at hu
    · rw [wp_bind]
      refine wp_backoff hrem fun bo tb hbo => ?_
      refine wp_opaque fun c1 e1 => ?_
      have h1 : Inv S nobody nobody z c1 := by
        rw [e1]; exact h.misc rfl rfl rfl rfl rfl rfl rfl rfl rfl rfl rfl rfl rfl
      have f1 : ∀ E, Fr nobody nobody E c c1 := fun E => by
        rw [e1]
        exact ⟨rfl, rfl, Nat.le_refl _, forall₂_refl' fun p _ => PFr.refl, fun _ _ _ _ _ => rfl, [], by simp, by simp⟩
      refine wp_ite (fun hb => ?_) (fun hb => ?_)
      · rw [wp_pure]
        exact hQ c1 h1 (.unknown t rfl hdp (hno hdp) (by rw [e1]) (by rw [e1]) (fun E _ _ => f1 E) _ rfl (.inl (by rw [e1]))
          (by rw [e1]) (by rw [e1]))
      · refine wp_handshakeInit h1 (fun hs => ⟨(hS hs).1, hrem, (hS hs).2.1.of (by rw [e1])⟩) (fun i hi => by cases hi)
          fun c2 h2 m2 l2 f2 => ?_
        have ff : ∀ E : Eff → Prop, (∀ e, e.plain = true → E e) → E (.hsInit none rem) → Fr nobody nobody E c c2 :=
          fun E h1 h2 => (f1 E).trans ((f2 E h1 h2).mono (fun j hj => by cases hj) (fun _ h => h) fun _ h => h)
        refine hQ c2 h2 (.unknown t rfl hdp (hno hdp) ?_ (by rw [m2.socks, e1]) ff _ rfl (.inr ⟨fun hr => ?_, ?_⟩)
          (by rw [m2.objs, e1]) (by rw [m2.eth, e1]))
        · have := (ff (fun _ => True) (fun _ _ => trivial) trivial).peers
          exact peers_same this
        · rw [hr] at hbo
          exact absurd (by simpa using hbo) hb
        · obtain ⟨pkt, hl⟩ := l2
          exact ⟨pkt, by rw [hl, e1]⟩
  rw [wp_bind]
  cases peer with
  | none =>
    show wp S (pure false) _ c
    rw [wp_pure, Bool.and_false]
    exact rest (fun _ p _ hp => by cases hp) hQ
  | some i =>
    obtain ⟨p, hp, rfl, hst⟩ := ha i rfl
    show wp S (do let p ← getP p.id; pure (canReceiveData p loc)) _ c
    rw [wp_bind, wp_getP h.ids hp, wp_pure]
    cases hc : isDataPacket t && canReceiveData p loc with
    | true =>
      have hc' := Bool.and_eq_true_iff.1 hc
      have hc2 := Bool.and_eq_true_iff.1 hc'.2
      have he : p.state = .established := by simpa [Peer.isEstablished] using hc2.1
      simp only []
      exact wp_handleRecv h (fun hs => (hS hs).1) hp rfl he fun c1 h1 r1 f1 =>
        hQ c1 h1 (.data p hp rfl he hc2.2 t rfl hc'.1 r1 f1)
    | false =>
      refine rest (fun hdp q hq hqi => ?_) hQ
      have : q = p := sorted_inj h.ids hq hp (by simpa using hqi.symm)
      subst this
      rw [hdp, Bool.true_and] at hc
      unfold canReceiveData at hc
      rcases Bool.and_eq_false_iff.1 hc with h1 | h1
      · exact .inl (by simpa [Peer.isEstablished] using h1)
      · exact .inr h1

/-- Who sent a packet. -/
structure Sender (c : Ctx) (sock : Sock) (rem : Addr) (peer : Option Nat) : Prop where
  arg : PeerArg c peer
  bound : ∀ k, sock = .bound k → peer = none → ∀ p ∈ c.peers, addrEq p.addr rem = false
  addr : ∀ p ∈ c.peers, peer = some p.id → addrEq p.addr rem = true
  own : ∀ n j, sock = .dyn n → (n, j) ∈ c.socks → peer = some j
  dyn : ∀ n, sock = .dyn n → peer ≠ none

theorem Inv.sockInj {c : Ctx} (h : Inv S x y z c) {n i j : Nat} (hi : (n, i) ∈ c.socks) (hj : (n, j) ∈ c.socks) :
    i = j := by
  have hn := h.socks.nodup
  revert hi hj hn
  generalize c.socks = l
  induction l with
  | nil => intro hi; cases hi
  | cons a l ih =>
    intro hi hj hn
    rw [List.map_cons, List.nodup_cons] at hn
    rcases List.mem_cons.1 hi with h1 | h1 <;> rcases List.mem_cons.1 hj with h2 | h2
    · rw [← h1] at h2; cases h2; rfl
    · rw [← h1] at hn; exact absurd (List.mem_map_of_mem (f := (·.1)) h2) hn.1
    · rw [← h2] at hn; exact absurd (List.mem_map_of_mem (f := (·.1)) h1) hn.1
    · exact ih h1 h2 hn.2

theorem addrEq_set {a b : Addr} (h : addrEq a b = true) (hb : b.isSet = true) : a.isSet = true := by
  cases ha : a.isSet with
  | true => rfl
  | false => rw [addrEq_unset hb ha] at h; cases h

theorem Inv.active {c : Ctx} (h : Inv S x y z c) {p : Peer} (hp : p ∈ c.peers) (ha : p.addr.isSet = true) :
    p.state ≠ .inactive := by
  intro hs
  rw [((h.peer p hp).inact hs).1] at ha; cases ha

theorem wp_senderOf {c : Ctx} (h : Inv S nobody nobody z c) {sock : Sock} {rem : Addr} (hrem : rem.isSet = true)
    (hl : Live c sock) {Q : Option (Option Nat) → Ctx → Prop} (hQn : (∃ n j, sock = .dyn n ∧ (n, j) ∈ c.socks ∧ ∀ p ∈ c.peers, p.id = j → addrEq p.addr rem = false) → Q none c)
    (hQs : ∀ peer, Sender c sock rem peer → Q (some peer) c) : wp S (senderOf sock rem) Q c := by
  unfold senderOf
  rw [wp_bind]
  refine wp_sockPeer (fun _ => hl) (fun k hk => ?_) fun n i hn hm => ?_
  · simp only []
    rw [wp_bind]
    refine wp_mono (wp_htLookup h.ids h.ht hrem) ?_
    rintro r c1 ⟨rfl, hr⟩
    rw [wp_pure]
    refine hQs r ⟨?_, ?_, ?_, ?_, ?_⟩
    · intro i hi
      rcases hr with ⟨p, hp, h1, ha⟩ | ⟨h1, _⟩
      · rw [h1] at hi; cases hi
        exact ⟨p, hp, rfl, h.active hp (addrEq_set ha hrem)⟩
      · rw [h1] at hi; cases hi
    · intro _ _ hn
      rcases hr with ⟨p, hp, h1, ha⟩ | ⟨_, h2⟩
      · rw [h1] at hn; cases hn
      · exact h2
    · intro p hp hpr
      rcases hr with ⟨q, hq, h1, ha⟩ | ⟨h1, _⟩
      · rw [h1] at hpr
        rw [← sorted_inj h.ids hq hp (by simpa using hpr)]; exact ha
      · rw [h1] at hpr; cases hpr
    · intro n j hn; rw [hk] at hn; cases hn
    · intro n hn; rw [hk] at hn; cases hn
  · simp only []
    obtain ⟨p, hp, rfl⟩ := h.socks.live _ hm
    rw [wp_bind, wp_getP h.ids hp, wp_pure]
    split
    · rename_i ha
      refine hQs (some p.id) ⟨?_, ?_, ?_, ?_, ?_⟩
      · intro i hi; cases hi
        exact ⟨p, hp, rfl, h.active hp (addrEq_set ha hrem)⟩
      · intro k hk; rw [hn] at hk; cases hk
      · intro q hq hqi
        rw [sorted_inj h.ids hq hp (by simpa using hqi.symm)]; exact ha
      · intro n' j hn' hj
        rw [hn] at hn'; cases hn'
        rw [h.sockInj hm hj]
      · intro _ _; simp
    · rename_i ha
      refine hQn ⟨n, p.id, hn, hm, fun q hq hqi => ?_⟩
      rw [sorted_inj h.ids hq hp hqi]
      simpa using ha

/-- The packet inside a received datagram: without the control header, if there is one
(src/receive.c:202-215). -/
def payload (pkt : Bytes) : Option (Bytes × Bool) :=
  if pkt.head? = some PACKET_CONTROL then
    if pkt.length < 13 then none
    else if (pkt[1]?).all (fun v => v &&& (0x0f : UInt8) ≠ 3) then none
    else some (pkt.drop 12, true)
  else some (pkt, false)

/-- What a datagram means for the daemon. -/
def RecvEv (sock : Sock) (loc rem : Addr) (pkt : Bytes) (c c' : Ctx) : Prop :=
  (c' = c ∧ (payload pkt = none ∨
    ∃ n j, sock = .dyn n ∧ (n, j) ∈ c.socks ∧ ∀ p ∈ c.peers, p.id = j → addrEq p.addr rem = false)) ∨ ∃ peer q b, Sender c sock rem peer ∧ payload pkt = some (q, b) ∧ PktRes sock loc rem peer q b c c'

theorem wp_socketReceive {c : Ctx} (h : Inv S nobody nobody z c) {sock : Sock} {loc rem : Addr} {pkt : Bytes}
    (hrem : rem.isSet = true) (hne : pkt ≠ []) (hl : Live c sock)
    (hS : S → EnvOk ∧ ∀ q b, payload pkt = some (q, b) → OwnSock c sock q b) {Q : Unit → Ctx → Prop}
    (hQ : ∀ c', Inv S nobody nobody z c' → RecvEv sock loc rem pkt c c' → Q () c') :
    wp S (socketReceive sock loc rem pkt) Q c := by
  unfold socketReceive
  rw [wp_bind]
  refine wp_senderOf h hrem hl (fun hno => hQ c h (.inl ⟨rfl, .inr hno⟩)) fun peer hs => ?_
  simp only []
  rw [wp_bind]
  refine wp_memIfNone (fun _ => by cases pkt with | nil => exact absurd rfl hne | cons => rfl) fun t ht => ?_
  refine wp_ite (fun hc => ?_) (fun hc => ?_)
  · subst hc
    refine wp_ite (fun hlen => hQ c h (.inl ⟨rfl, .inl ?_⟩))
      (fun hlen => wp_ite (fun hv => hQ c h (.inl ⟨rfl, .inl ?_⟩)) (fun hv => ?_))
    · unfold payload; rw [if_pos ht, if_pos hlen]
    · unfold payload; rw [if_pos ht, if_neg hlen, if_pos hv]
    have hp : payload pkt = some (pkt.drop 12, true) := by
      unfold payload; rw [if_pos ht, if_neg hlen, if_neg hv]
    exact wp_classify h hs.arg hrem (fun hd => by rw [List.drop_eq_nil_iff] at hd; omega)
      (fun s => ⟨(hS s).1, hl, (hS s).2 _ _ hp⟩) (fun _ => hs.own)
      fun c1 h1 r1 => hQ c1 h1 (.inr ⟨peer, _, _, hs, hp, r1⟩)
  · have hp : payload pkt = some (pkt, false) := by
      unfold payload; rw [if_neg (by rw [ht]; simpa using hc)]
    exact wp_classify h hs.arg hrem hne (fun s => ⟨(hS s).1, hl, (hS s).2 _ _ hp⟩) (fun _ => hs.own)
      fun c1 h1 r1 => hQ c1 h1 (.inr ⟨peer, _, _, hs, hp, r1⟩)

end Fastd.Daemon
