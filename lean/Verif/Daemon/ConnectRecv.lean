import Verif.Daemon.ConnectSteps

/-!
# A handshake between compatible peers: the three packets

Helper lemmas for C83.
-/

namespace Fastd.Daemon

set_option linter.unusedSectionVars false

open Handshake (pktOf parsedOf encAll Fits lastRec baseRecords controlHeader)

variable [Env]

/-! ### The records of the packets -/

theorem lastRec_sing (t0 : Nat) (d : Bytes) (t : Nat) : lastRec [(t0, d)] t = if t0 = t then some d else none := by
  rw [Handshake.lastRec_cons, lastRec_nil, Option.none_or]

macro "recs" : tactic => `(tactic| simp [lastRec_append, Handshake.lastRec_cons, lastRec_nil, Handshake.RECORD_HANDSHAKE_TYPE,
  Handshake.RECORD_REPLY_CODE, Handshake.RECORD_FLAGS, Handshake.RECORD_MODE, Handshake.RECORD_PROTOCOL_NAME, Handshake.RECORD_SENDER_KEY,
  Handshake.RECORD_RECIPIENT_KEY, Handshake.RECORD_SENDER_HANDSHAKE_KEY, Handshake.RECORD_RECIPIENT_HANDSHAKE_KEY, Handshake.RECORD_MTU,
  Handshake.RECORD_METHOD_NAME, Handshake.RECORD_VERSION_NAME, Handshake.RECORD_METHOD_LIST, Handshake.FLAG_L2TP_SUPPORT])

theorem lastRec_mtu (mtu t : Nat) : lastRec (if mtu ≠ 0 then [(Handshake.RECORD_MTU, Handshake.leBytes 2 mtu)] else []) t =
    if mtu ≠ 0 ∧ t = 11 then some (Handshake.leBytes 2 mtu) else none := by
  by_cases h : mtu = 0
  · rw [if_neg (by simp [h]), if_neg (by simp [h])]; rfl
  · rw [if_pos h, lastRec_sing]
    by_cases ht : t = 11
    · subst ht; simp [h, Handshake.RECORD_MTU]
    · rw [if_neg (fun h : Handshake.RECORD_MTU = t => ht (Eq.symm h)), if_neg (by simp [ht])]

/-- The records of the first packet. -/
theorem init_recs (key hs : Key) :
    lastRec (initRecs key hs) 0 = some [1] ∧ lastRec (initRecs key hs) 3 = some [1] ∧
    lastRec (initRecs key hs) 4 = some [hsConf.modeId] ∧ lastRec (initRecs key hs) 5 = some Env.protocolName ∧
    lastRec (initRecs key hs) 6 = some Env.ownKey ∧ lastRec (initRecs key hs) 7 = some key ∧
    lastRec (initRecs key hs) 8 = some hs ∧ lastRec (initRecs key hs) 11 = none := by
  unfold initRecs baseRecords initRecords
  recs
  rfl

/-- The records of the second packet. -/
theorem second_recs (mtu : Nat) (l : List Bytes) (pk hk phk : Key) (key : Bytes) :
    ∃ mac, replyRecs 2 mtu none (some l) pk hk phk key = replyBase 2 mtu none (some l) pk hk phk ++ [(15, mac)] ∧
    mac = Env.hmac key (encAll (replyBase 2 mtu none (some l) pk hk phk ++ [(15, zeros)])) ∧
    (∀ rs, rs = replyRecs 2 mtu none (some l) pk hk phk key →
    lastRec rs 0 = some [2] ∧ lastRec rs 1 = some [0] ∧ lastRec rs 3 = some [1] ∧
    lastRec rs 4 = some [hsConf.modeId] ∧ lastRec rs 5 = some Env.protocolName ∧
    lastRec rs 6 = some Env.ownKey ∧ lastRec rs 7 = some pk ∧ lastRec rs 8 = some hk ∧ lastRec rs 9 = some phk ∧
    lastRec rs 11 = (if mtu = 0 then none else some (Handshake.leBytes 2 mtu)) ∧
    lastRec rs 14 = some ((Handshake.createMethodList l).getD []) ∧ lastRec rs 15 = some mac) := by
  refine ⟨_, rfl, rfl, ?_⟩
  rintro rs rfl
  unfold replyRecs
  generalize Env.hmac key (encAll (replyBase 2 mtu none (some l) pk hk phk ++ [(15, zeros)])) = mac
  unfold replyBase baseRecords
  simp only [lastRec_append, lastRec_mtu]
  by_cases hm : mtu = 0
  · rw [if_pos hm]; recs; simp [hm]; rfl
  · rw [if_neg hm]; recs; simp [hm]; rfl

/-- The records of the third packet. -/
theorem third_recs (mtu : Nat) (n : Bytes) (pk hk phk : Key) (key : Bytes) :
    ∃ mac, replyRecs 3 mtu (some n) none pk hk phk key = replyBase 3 mtu (some n) none pk hk phk ++ [(15, mac)] ∧
    mac = Env.hmac key (encAll (replyBase 3 mtu (some n) none pk hk phk ++ [(15, zeros)])) ∧
    (∀ rs, rs = replyRecs 3 mtu (some n) none pk hk phk key →
    lastRec rs 0 = some [3] ∧ lastRec rs 1 = some [0] ∧ lastRec rs 3 = some [1] ∧
    lastRec rs 4 = some [hsConf.modeId] ∧ lastRec rs 5 = some Env.protocolName ∧
    lastRec rs 6 = some Env.ownKey ∧ lastRec rs 7 = some pk ∧ lastRec rs 8 = some hk ∧ lastRec rs 9 = some phk ∧
    lastRec rs 11 = (if mtu = 0 then none else some (Handshake.leBytes 2 mtu)) ∧
    lastRec rs 12 = some n ∧ lastRec rs 15 = some mac) := by
  refine ⟨_, rfl, rfl, ?_⟩
  rintro rs rfl
  unfold replyRecs
  generalize Env.hmac key (encAll (replyBase 3 mtu (some n) none pk hk phk ++ [(15, zeros)])) = mac
  unfold replyBase baseRecords
  simp only [lastRec_append, lastRec_mtu]
  by_cases hm : mtu = 0
  · rw [if_pos hm]; recs; simp [hm]; rfl
  · rw [if_neg hm]; recs; simp [hm]; rfl

/-! ### Handling the packets -/

theorem must_hsReply {c : Ctx} {p : Peer} {sock : Sock} {loc rem : Addr} {rs : List (Nat × Bytes)} {type : UInt8} (hf : Fits rs)
    {k own k' mac : Key} (t7 : lastRec rs 7 = some own) (l7 : own.length = 32) (t9 : lastRec rs 9 = some k') (l9 : k'.length = 32)
    (t15 : lastRec rs 15 = some mac) (l15 : mac.length = 32) {hk : Protocol.HKey Nat}
    (hfind : c.keys.find c.now (fun n => Env.pub n = k') = some hk) {Q : Unit → Ctx → Prop}
    (hQ : (type = 2 ∧ must (finishHandshake sock loc rem p.id hk k mac (rcvOf type rs)) Q c) ∨
      (type = 3 ∧ must (handleFinish sock loc rem p.id hk k mac (rcvOf type rs)) Q c)) :
    must (hsReply sock loc rem p.id k (rcvOf type rs)) Q c := by
  unfold hsReply
  refine must_bind (must_field hf (by decide) (by decide) t7 l7 ?_)
  refine must_bind (must_field hf (by decide) (by decide) t9 l9 ?_)
  refine must_bind (must_field hf (by decide) (by decide) t15 l15 ?_)
  simp only []
  refine must_bind (must_get ?_)
  rw [hfind]
  simp only []
  rcases hQ with ⟨rfl, hQ⟩ | ⟨rfl, hQ⟩
  · rw [if_pos (by rfl)]; exact hQ
  · rw [if_neg (by show ¬ (3 : UInt8) = 2; decide), if_pos (by rfl)]; exact hQ

/-- The MTU record agrees with the own MTU. -/
def MtuRec (rs : List (Nat × Bytes)) (p : Peer) : Prop :=
  lastRec rs 11 = none ∨ (lastRec rs 11 = some (Handshake.leBytes 2 p.getMtu) ∧ p.getMtu < 65536)

/-- The events considered: nothing goes wrong. -/
abbrev fineEvent : Event → Ctx → Prop := fun e c => e.fine c

theorem Reach.fineInv {c : Ctx} (h : Reach fineEvent c) (hE : EnvOk) : Inv True nobody nobody nobody c :=
  h.inv fun _ => ⟨hE, fun _ _ h => h⟩

/-- A handshake of a peer that is heard is a possible event. -/
theorem Hears.event {c : Ctx} (h : Inv True nobody nobody nobody c) (hE : EnvOk) {p : Peer} {sock : Sock} {loc rem : Addr}
    (hh : Hears c p sock rem) {rs : List (Nat × Bytes)} {type : UInt8} (hf : Fits rs)
    (t0 : lastRec rs 0 = some [type]) (t3 : lastRec rs 3 = some [1]) (t4 : lastRec rs 4 = some [hsConf.modeId])
    (t5 : lastRec rs 5 = some Env.protocolName) (t1 : 1 < type → lastRec rs 1 = some [0]) (t6 : lastRec rs 6 = some p.key) :
    (Event.recv sock loc rem (controlHeader ++ pktOf rs)).possible c ∧ fineEvent (.recv sock loc rem (controlHeader ++ pktOf rs)) c := by
  have hlen : ¬ (controlHeader ++ pktOf rs).length < 13 := by
    rw [List.length_append, Handshake.pktOf_length]
    simp only [controlHeader, List.length_cons, List.length_nil]
    omega
  have hpay : payload (controlHeader ++ pktOf rs) = some (pktOf rs, true) := by
    unfold payload
    rw [if_pos (by rfl), if_neg hlen, if_neg (by show ¬ ((some (3 : UInt8)).all fun v => v &&& (0x0f : UInt8) ≠ 3) = true; decide)]
    rw [show (controlHeader ++ pktOf rs).drop 12 = pktOf rs from List.drop_left' rfl]
  refine ⟨⟨by simp [controlHeader], hh.set, ?_⟩, ?_⟩
  · cases hs : sock with
    | bound => trivial
    | dyn n => exact ⟨p.id, (h.socks.own p hh.mem n).1 (hh.dyn n hs)⟩
  · intro q b hq n j r hs key hn hm hr hrj hho hhas
    rw [hpay] at hq
    cases hq
    have hj : j = p.id := h.sockInj hm ((h.socks.own p hh.mem n).1 (hh.dyn n hn))
    have hrp : r = p := h.inj hr hh.mem (hrj.trans hj)
    rw [Handshake.handle_pkt hf hE.name rfl t0 t3 t4 t5 t1] at hho
    cases hho
    rw [hrp]
    have h6 : Has (rcvOf type rs) Handshake.RECORD_SENDER_KEY 32 p.key := rcvOf_has hf (by decide) t6 (h.peer p hh.mem).key
    exact Option.some.inj (h6.2.symm.trans hhas.2)

/-- The first packet is answered. -/
theorem must_first {c : Ctx} (hr : Reach fineEvent c) (hE : EnvOk) (hmac : ∀ k d, (Env.hmac k d).length = 32) {p : Peer}
    {sock : Sock} {loc rem : Addr} (hh : Hears c p sock rem) {rs : List (Nat × Bytes)} (hf : Fits rs)
    {k : Key} (hk : k.length = 32)
    (t0 : lastRec rs 0 = some [1]) (t3 : lastRec rs 3 = some [1]) (t4 : lastRec rs 4 = some [hsConf.modeId])
    (t5 : lastRec rs 5 = some Env.protocolName) (t6 : lastRec rs 6 = some p.key) (t7 : lastRec rs 7 = some Env.ownKey)
    (t8 : lastRec rs 8 = some k) (t11 : MtuRec rs p)
    (hs : ∀ y, (Env.shared false y p.key k).isSome = true)
    (ht : timedOut p.lastRespTimeout c.now = true ∨ addrEq rem p.lastRespAddr = false) :
    ∃ c' q K sigma sh, handle (.recv sock loc rem (controlHeader ++ pktOf rs)) c = .ok ((), c') ∧ Reach fineEvent c' ∧
      c'.hasFloating = c.hasFloating ∧ List.Forall₂ Replied c.peers c'.peers ∧ q ∈ c'.peers ∧ Replied p q ∧ c'.now = c.now ∧ c'.keys.cur = K ∧ K.serial ≠ 0 ∧ c.now < K.preferredTill ∧
      K.serial = (if c.keys.cur.preferredTill ≤ c.now then c.keys.cur.serial + 1 else c.keys.cur.serial) ∧
      Env.shared false K.key p.key k = some (sigma, sh) ∧
      Fits (replyRecs 2 p.getMtu none (some (Env.groupMethods p.group)) p.key (Env.pub K.key) k sh) ∧
      c'.log = c.log ++ [.send sock loc rem (some p.id) (controlHeader ++ pktOf (replyRecs 2 p.getMtu none
        (some (Env.groupMethods p.group)) p.key (Env.pub K.key) k sh))] := by
  have h := hr.fineInv hE
  obtain ⟨_, hk2, hk3⟩ := hr.keysOk.maintenance (Env.tape c.pos)
  have hks : (maintained c).keys.cur.serial =
      (if c.keys.cur.preferredTill ≤ c.now then c.keys.cur.serial + 1 else c.keys.cur.serial) := by
    unfold maintained Protocol.HKeys.maintenance Protocol.HKey.preferred timedOut
    by_cases hp : c.keys.cur.preferredTill ≤ c.now
    · simp only [hp, decide_true, Bool.not_true, Bool.not_false, if_true]
    · simp [hp]
  obtain ⟨⟨sigma, sh⟩, hsh⟩ := Option.isSome_iff_exists.1 (hs (maintained c).keys.cur.key)
  obtain ⟨_, c', he, hQ⟩ := must_recv (loc := loc) (Q := fun _ c' => ∃ q K sigma sh, c'.hasFloating = c.hasFloating ∧
      List.Forall₂ Replied c.peers c'.peers ∧ q ∈ c'.peers ∧ Replied p q ∧ c'.now = c.now ∧
      c'.keys.cur = K ∧ K.serial ≠ 0 ∧ c.now < K.preferredTill ∧
      K.serial = (if c.keys.cur.preferredTill ≤ c.now then c.keys.cur.serial + 1 else c.keys.cur.serial) ∧
      Env.shared false K.key p.key k = some (sigma, sh) ∧
      Fits (replyRecs 2 p.getMtu none (some (Env.groupMethods p.group)) p.key (Env.pub K.key) k sh) ∧
      c'.log = c.log ++ [.send sock loc rem (some p.id) (controlHeader ++ pktOf (replyRecs 2 p.getMtu none
        (some (Env.groupMethods p.group)) p.key (Env.pub K.key) k sh))])
    h hE hh hf t0 t3 t4 t5 (fun h => absurd h (by decide)) t6 fun h1 =>
      must_hsKnown h1 hh.maintained hf t11 hE hk t8 t7
        (fun _ => must_hsInitial h1 hE hmac hh.maintained hk2 hk hsh ht fun c2 q h2 k2 n2 fl2 all2 hq hrep hfit hl _ =>
          ⟨q, (maintained c).keys.cur, sigma, sh, fl2, all2, hq, hrep, n2, by rw [k2], hk2, hk3, hks, hsh, hfit, hl⟩)
        (fun hne => absurd rfl hne)
  obtain ⟨q, K, sigma, sh, hQ⟩ := hQ
  obtain ⟨ev1, ev2⟩ := hh.event (loc := loc) h hE hf t0 t3 t4 t5 (fun h => absurd h (by decide)) t6
  exact ⟨c', q, K, sigma, sh, he, .step hr ev1 ev2 he, hQ⟩

/-- A peer that was heard is still heard after it was answered. -/
theorem Hears.replied {c c' : Ctx} {p q : Peer} {sock : Sock} {rem : Addr} (h : Hears c p sock rem)
    (hf : c'.hasFloating = c.hasFloating) (hall : List.Forall₂ Replied c.peers c'.peers) (hn : c'.now = c.now)
    (hq : q ∈ c'.peers) (hr : Replied p q) : Hears c' q sock rem := by
  have hm : matchesAddress q rem = matchesAddress p rem := by rw [hr]; rfl
  have hoe : ∀ {a b : Peer}, Replied a b → b.isEnabled = a.isEnabled ∧ addrEq b.addr rem = addrEq a.addr rem ∧
      ownsAddress b rem = ownsAddress a rem := fun hab => by rw [hab]; exact ⟨rfl, rfl, rfl⟩
  refine ⟨hq, by rw [hr]; exact h.static, h.set, ?_, fun r hrm hne hen => ?_, ?_, by rw [hr, hn]; exact h.interval⟩
  · have hw := h.way
    rw [hm, hf]
    rw [hr]
    exact hw
  · obtain ⟨r0, hr0, hrr⟩ := forall₂_mem' hall hrm
    obtain ⟨e1, e2, e3⟩ := hoe hrr
    rw [e2, e3]
    refine h.free r0 hr0 (fun hi => hne ?_) (by rw [← e1]; exact hen)
    rw [hrr, hr]
    exact hi
  · have hc : ∀ g, countEstablished c'.peers g = countEstablished c.peers g := by
      intro g
      refine Nat.le_antisymm (countEstablished_le (hall.imp fun a b hab => ?_) g)
        (countEstablished_le (hall.imp fun a b hab => ?_).flip g)
      · rw [hab]; exact ⟨rfl, id⟩
      · rw [hab]; exact ⟨rfl, id⟩
    have := h.may
    unfold mayConnect at this ⊢
    simp only [hc]
    rw [hr]
    exact this

/-- The second packet is accepted and answered. `K` was the current key when the first packet was sent at `t`. -/
theorem must_second {c : Ctx} (hr : Reach fineEvent c) (hE : EnvOk) (hmac : ∀ k d, (Env.hmac k d).length = 32) {p : Peer}
    {sock : Sock} {loc rem : Addr} (hh : Hears c p sock rem) {base : List (Nat × Bytes)} {mac : Bytes} (lm : mac.length = 32)
    (hf : Fits (base ++ [(15, mac)])) {k : Key} (hk : k.length = 32) {K : Protocol.HKey Nat} {t : Time}
    (hK : KeyIn K t c.keys) (hKp : t < K.preferredTill) (hKv : K.validTill = K.preferredTill + 15000) (hn : c.now < t + 15000)
    {l : Bytes}
    (t0 : lastRec (base ++ [(15, mac)]) 0 = some [2]) (t1 : lastRec (base ++ [(15, mac)]) 1 = some [0])
    (t3 : lastRec (base ++ [(15, mac)]) 3 = some [1]) (t4 : lastRec (base ++ [(15, mac)]) 4 = some [hsConf.modeId])
    (t5 : lastRec (base ++ [(15, mac)]) 5 = some Env.protocolName) (t6 : lastRec (base ++ [(15, mac)]) 6 = some p.key)
    (t7 : lastRec (base ++ [(15, mac)]) 7 = some Env.ownKey) (t8 : lastRec (base ++ [(15, mac)]) 8 = some k)
    (t9 : lastRec (base ++ [(15, mac)]) 9 = some (Env.pub K.key)) (t11 : MtuRec (base ++ [(15, mac)]) p)
    (t14 : lastRec (base ++ [(15, mac)]) 14 = some l) {m : Nat}
    (hm : Handshake.methodByNameList (Env.groupMethods p.group) Env.methodByName (some l) = .some m)
    {sigma sh : Bytes} (hs : ∀ x, Env.pub x = Env.pub K.key → Env.shared true x p.key k = some (sigma, sh))
    (hv : Env.hmac sh (encAll (base ++ [(15, zeros)])) = mac) (hlast : p.lastSerial < K.serial)
    (hi : ∀ n now, (Env.sessInit m (Env.deriveKey m (Env.pub K.key) k Env.ownKey p.key sigma sh) true false n now).isSome = true)
    (hif : p.iface ≠ none ∨ ∀ n, Env.tape n % 2 = 1) :
    ∃ c' c1 q0 q hk k' o, handle (.recv sock loc rem (controlHeader ++ pktOf (base ++ [(15, mac)]))) c = .ok ((), c') ∧
      Env.pub hk.key = Env.pub K.key ∧
      Estab (maintained c) c1 p q0 sock loc rem m true ⟨hk, Env.pub K.key, k, Env.ownKey, p.key, sigma, sh⟩ k' o ∧
      Mild c1 c' ∧ q ∈ c'.peers ∧ Resched q0 q ∧
      Fits (replyRecs 3 p.getMtu (some (Env.methodName m)) none p.key (Env.pub K.key) k sh) ∧
      c'.log = c1.log ++ [.send sock loc rem (some p.id) (controlHeader ++ pktOf (replyRecs 3 p.getMtu
        (some (Env.methodName m)) none p.key (Env.pub K.key) k sh))] := by
  have h := hr.fineInv hE
  have hKm : KeyIn K t (maintained c).keys := hK.maintenance hKp hn _
  obtain ⟨_, c', he, hQ⟩ := must_recv (loc := loc) (type := 2) (Q := fun _ c' => ∃ c1 q0 q hk k' o, Env.pub hk.key = Env.pub K.key ∧
      Estab (maintained c) c1 p q0 sock loc rem m true ⟨hk, Env.pub K.key, k, Env.ownKey, p.key, sigma, sh⟩ k' o ∧
      Mild c1 c' ∧ q ∈ c'.peers ∧ Resched q0 q ∧
      Fits (replyRecs 3 p.getMtu (some (Env.methodName m)) none p.key (Env.pub K.key) k sh) ∧
      c'.log = c1.log ++ [.send sock loc rem (some p.id) (controlHeader ++ pktOf (replyRecs 3 p.getMtu
        (some (Env.methodName m)) none p.key (Env.pub K.key) k sh))])
    h hE hh hf t0 t3 t4 t5 (fun _ => t1) t6 fun h1 =>
      must_hsKnown h1 hh.maintained hf t11 hE hk t8 t7 (fun h => absurd h (by decide)) fun _ => by
        obtain ⟨hk', hfind, hser, hpub, hor⟩ := hKm.find (now := (maintained c).now) (f := fun n => decide (Env.pub n = Env.pub K.key))
          (by rw [hKv]; show c.now < _; omega) h1.serials.1 (by simp)
        have hpub' : Env.pub hk'.key = Env.pub K.key := by simpa using hpub
        refine must_hsReply hf t7 hE.ownKey t9 (hE.pub _) ?_ lm hfind (.inl ⟨rfl, ?_⟩)
        · rw [lastRec_append, lastRec_sing, if_pos rfl]; rfl
        · refine must_finishHandshake h1 hE hmac hh.maintained hf hk (by omega) ?_ t14 hm (hs _ hpub')
            (by rw [zeroedTlv_of lm]; exact hv) (fun n => by rw [hpub']; exact hi n _) hif fun c1 c' q0 q k' o _ he hmild _ hq hres hfit hl => ?_
          · rcases hor with rfl | rfl
            · exact Nat.le_refl _
            · exact h1.serials.1
          · rw [hpub'] at he hfit hl
            exact ⟨c1, q0, q, hk', k', o, hpub', he, hmild, hq, hres, hfit, hl⟩
  obtain ⟨c1, q0, q, hk', k', o, hQ⟩ := hQ
  exact ⟨c', c1, q0, q, hk', k', o, he, hQ⟩

/-- The third packet is accepted. `K` was the current key when the second packet was sent at `t`. -/
theorem must_third {c : Ctx} (hr : Reach fineEvent c) (hE : EnvOk) {p : Peer}
    {sock : Sock} {loc rem : Addr} (hh : Hears c p sock rem) {base : List (Nat × Bytes)} {mac : Bytes} (lm : mac.length = 32)
    (hf : Fits (base ++ [(15, mac)])) {k : Key} (hk : k.length = 32) {K : Protocol.HKey Nat} {t : Time}
    (hK : KeyIn K t c.keys) (hKp : t < K.preferredTill) (hKv : K.validTill = K.preferredTill + 15000) (hn : c.now < t + 15000)
    {n : Bytes}
    (t0 : lastRec (base ++ [(15, mac)]) 0 = some [3]) (t1 : lastRec (base ++ [(15, mac)]) 1 = some [0])
    (t3 : lastRec (base ++ [(15, mac)]) 3 = some [1]) (t4 : lastRec (base ++ [(15, mac)]) 4 = some [hsConf.modeId])
    (t5 : lastRec (base ++ [(15, mac)]) 5 = some Env.protocolName) (t6 : lastRec (base ++ [(15, mac)]) 6 = some p.key)
    (t7 : lastRec (base ++ [(15, mac)]) 7 = some Env.ownKey) (t8 : lastRec (base ++ [(15, mac)]) 8 = some k)
    (t9 : lastRec (base ++ [(15, mac)]) 9 = some (Env.pub K.key)) (t11 : MtuRec (base ++ [(15, mac)]) p)
    (t12 : lastRec (base ++ [(15, mac)]) 12 = some n) {m : Nat}
    (hm : Handshake.methodByName (Env.groupMethods p.group) Env.methodByName (some n) = some m)
    {sigma sh : Bytes} (hs : ∀ x, Env.pub x = Env.pub K.key → Env.shared false x p.key k = some (sigma, sh))
    (hv : Env.hmac sh (encAll (base ++ [(15, zeros)])) = mac) (hlast : p.lastSerial < K.serial)
    (hi : ∀ n now, (Env.sessInit m (Env.deriveKey m k (Env.pub K.key) p.key Env.ownKey sigma sh) false false n now).isSome = true)
    (hif : p.iface ≠ none ∨ ∀ n, Env.tape n % 2 = 1) :
    ∃ c' c0 c1 p0 q0 hk k' o, handle (.recv sock loc rem (controlHeader ++ pktOf (base ++ [(15, mac)]))) c = .ok ((), c') ∧
      Env.pub hk.key = Env.pub K.key ∧ c0.now = c.now ∧ c0.log = c.log ∧ p0 = { p with cache := p0.cache } ∧
      Estab c0 c1 p0 q0 sock loc rem m false ⟨hk, k, Env.pub K.key, p.key, Env.ownKey, sigma, sh⟩ k' o ∧
      c' = { c1 with peers := updPeers c1.peers p.id fun _ => { q0 with cache := {} } } ∧ { q0 with cache := {} } ∈ c'.peers := by
  have h := hr.fineInv hE
  have hKm : KeyIn K t (maintained c).keys := hK.maintenance hKp hn _
  obtain ⟨_, c', he, hQ⟩ := must_recv (loc := loc) (type := 3) (Q := fun _ c' => ∃ c0 c1 p0 q0 hk k' o,
      Env.pub hk.key = Env.pub K.key ∧ c0.now = c.now ∧ c0.log = c.log ∧ p0 = { p with cache := p0.cache } ∧
      Estab c0 c1 p0 q0 sock loc rem m false ⟨hk, k, Env.pub K.key, p.key, Env.ownKey, sigma, sh⟩ k' o ∧
      c' = { c1 with peers := updPeers c1.peers p.id fun _ => { q0 with cache := {} } } ∧ { q0 with cache := {} } ∈ c'.peers)
    h hE hh hf t0 t3 t4 t5 (fun _ => t1) t6 fun h1 =>
      must_hsKnown h1 hh.maintained hf t11 hE hk t8 t7 (fun h => absurd h (by decide)) fun _ => by
        obtain ⟨hk', hfind, hser, hpub, hor⟩ := hKm.find (now := (maintained c).now) (f := fun n => decide (Env.pub n = Env.pub K.key))
          (by rw [hKv]; show c.now < _; omega) h1.serials.1 (by simp)
        have hpub' : Env.pub hk'.key = Env.pub K.key := by simpa using hpub
        refine must_hsReply hf t7 hE.ownKey t9 (hE.pub _) ?_ lm hfind (.inr ⟨rfl, ?_⟩)
        · rw [lastRec_append, lastRec_sing, if_pos rfl]; rfl
        · refine must_handleFinish h1 hE hh.maintained hf hor (by omega) (by omega) ?_ t12 hm (hs _ hpub')
            (by rw [zeroedTlv_of lm]; exact hv) (fun n => by rw [hpub']; exact hi n _) hif fun c0 c1 c' p0 q0 k' o _ n0 _ l0 hp0 he hc' hq => ?_
          · rcases hor with rfl | rfl
            · exact Nat.le_refl _
            · exact h1.serials.1
          · rw [hpub'] at he
            exact ⟨c0, c1, p0, q0, hk', k', o, hpub', n0, l0, hp0, he, hc', hq⟩
  obtain ⟨c0, c1, p0, q0, hk', k', o, hQ⟩ := hQ
  exact ⟨c', c0, c1, p0, q0, hk', k', o, he, hQ⟩

end Fastd.Daemon
