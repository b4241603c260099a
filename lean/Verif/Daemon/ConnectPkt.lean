import Verif.Daemon.HandleSpec
import Verif.Handshake.Packet

/-!
# The packets of a handshake between compatible peers

The records of the packets sent, and what the other end reads from them. Helper lemmas.
-/

namespace Fastd.Daemon

set_option linter.unusedSectionVars false

open Handshake (pktOf parsedOf encAll Fits lastRec baseRecords encRec)

variable [Env]

theorem lastRec_append (a b : List (Nat × Bytes)) (t : Nat) : lastRec (a ++ b) t = (lastRec b t).or (lastRec a t) := by
  induction a with
  | nil => simp [lastRec]
  | cons r a ih =>
    obtain ⟨t0, d0⟩ := r
    rw [List.cons_append, Handshake.lastRec_cons, Handshake.lastRec_cons, ih, Option.or_assoc]

theorem lastRec_nil (t : Nat) : lastRec [] t = none := rfl

/-! ### Records -/

/-- The packet with the given records, as it is handed to the key exchange. -/
def rcvOf (type : UInt8) (rs : List (Nat × Bytes)) : Rcv := ⟨pktOf rs, ⟨type, 1, parsedOf rs⟩⟩

theorem rcvOk_of {type : UInt8} {rs : List (Nat × Bytes)} (h : Fits rs) : RcvOk (rcvOf type rs) := Handshake.parse_pkt h

theorem rcvOf_record {type : UInt8} {rs : List (Nat × Bytes)} (h : Fits rs) {t : Nat} (ht : t < 16) (c : Ctx) :
    record (rcvOf type rs) t c = .ok (lastRec rs t, c) := by
  unfold record rcvOf
  cases hd : lastRec rs t with
  | none =>
    simp only [Handshake.recs_none h ht hd, if_true]
    rfl
  | some d =>
    obtain ⟨h1, _, h3⟩ := Handshake.recs_some h ht hd
    simp only [h3, if_false, h1]
    rfl

theorem rcvOf_field {type : UInt8} {rs : List (Nat × Bytes)} (h : Fits rs) {t n : Nat} (ht : t < 16) (hn : n ≠ 0) (c : Ctx) :
    field (rcvOf type rs) t n c = .ok ((lastRec rs t).filter (·.length = n), c) := by
  unfold field rcvOf
  cases hd : lastRec rs t with
  | none =>
    simp only [Handshake.recs_none h ht hd]
    rw [if_pos (Ne.symm hn)]
    rfl
  | some d =>
    obtain ⟨h1, h2, h3⟩ := Handshake.recs_some h ht hd
    simp only [h2, h1]
    by_cases hl : d.length = n
    · rw [if_neg (by simpa using hl)]
      simp only [Option.filter, hl, decide_true, if_true]
      rfl
    · rw [if_pos hl]
      simp only [Option.filter, hl, decide_false]
      rfl

theorem rcvOf_has {type : UInt8} {rs : List (Nat × Bytes)} (h : Fits rs) {t n : Nat} (ht : t < 16) {d : Bytes}
    (hd : lastRec rs t = some d) (hn : d.length = n) : Has (rcvOf type rs) t n d := by
  obtain ⟨h1, h2, _⟩ := Handshake.recs_some h ht hd
  exact ⟨h2.trans hn, h1⟩

theorem leVal_leBytes2 (n : Nat) (h : n < 65536) : Handshake.leVal (Handshake.leBytes 2 n) = n := by
  have : List.range 2 = [0, 1] := by decide
  unfold Handshake.leBytes
  rw [this]
  simp [Handshake.leVal, Nat.shiftRight_eq_div_pow]
  omega

/-- Reading the MTU of a packet. -/
theorem rcvOf_mtu {rs : List (Nat × Bytes)} (h : Fits rs) {n : Nat} (hn : n < 65536)
    (hd : lastRec rs 11 = some (Handshake.leBytes 2 n)) :
    ((parsedOf rs).recs 11).length = 2 ∧ Handshake.asUint16 (pktOf rs) ((parsedOf rs).recs 11) = some n := by
  obtain ⟨h1, h2, _⟩ := Handshake.recs_some h (by decide) hd
  have hl : (Handshake.leBytes 2 n).length = 2 := by simp [Handshake.leBytes]
  rw [hl] at h2
  refine ⟨h2, ?_⟩
  have := Handshake.C26_read_uint _ _ _ h1
  rw [hl, if_pos (by decide), leVal_leBytes2 n hn] at this
  unfold Handshake.asUint at this
  rw [h2] at this
  exact this

/-! ### The MAC -/

/-- The space for the MAC. -/
def zeros : Bytes := List.replicate 32 0

theorem encAll_last (rs : List (Nat × Bytes)) (d : Bytes) (hd : d.length = 32) :
    encAll (rs ++ [(15, d)]) = encAll rs ++ ([15, 0, 32, 0] ++ d) := by
  rw [Handshake.encAll_append]
  congr 1
  simp [encAll, encRec, hd]

theorem encAll_last_length (rs : List (Nat × Bytes)) (d : Bytes) (hd : d.length = 32) :
    (encAll (rs ++ [(15, d)])).length = (encAll rs).length + 36 := by
  rw [encAll_last rs d hd]
  simp [hd]

theorem tlvData_of {rs : List (Nat × Bytes)} (h : (encAll rs).length < 65536) : tlvData (pktOf rs) = encAll rs := by
  unfold tlvData
  rw [show Handshake.tlvLen (pktOf rs) = some (encAll rs).length from Handshake.tlvLen_header _ _ h]
  simp only [Option.getD_some]
  unfold pktOf
  rw [show 4 = (Handshake.header (encAll rs).length).length from rfl, List.drop_left, List.take_length]

/-- Filling in the MAC replaces the last record. -/
theorem fillMac_of {rs : List (Nat × Bytes)} {key : Bytes} (h : (encAll (rs ++ [(15, zeros)])).length < 65536)
    (hm : (Env.hmac key (encAll (rs ++ [(15, zeros)]))).length = 32) :
    fillMac (pktOf (rs ++ [(15, zeros)])) key =
      pktOf (rs ++ [(15, Env.hmac key (encAll (rs ++ [(15, zeros)])))]) := by
  unfold fillMac
  rw [tlvData_of h]
  generalize Env.hmac key (encAll (rs ++ [(15, zeros)])) = mac at hm ⊢
  have hz : zeros.length = 32 := by simp [zeros]
  rw [Handshake.pktOf_length]
  unfold pktOf
  rw [encAll_last_length rs _ hz, encAll_last_length rs _ hm, encAll_last rs _ hz, encAll_last rs _ hm]
  have e : Handshake.header ((encAll rs).length + 36) ++ (encAll rs ++ ([15, 0, 32, 0] ++ zeros)) =
      (Handshake.header ((encAll rs).length + 36) ++ encAll rs ++ [15, 0, 32, 0]) ++ zeros := by simp
  rw [e, List.take_left' (by simp [Handshake.header_length]; omega)]
  simp

/-- What the receiver computes the MAC of. -/
theorem zeroedTlv_of {type : UInt8} {rs : List (Nat × Bytes)} {mac : Bytes} (hm : mac.length = 32) :
    zeroedTlv (rcvOf type (rs ++ [(15, mac)])) = encAll (rs ++ [(15, zeros)]) := by
  have hz : zeros.length = 32 := by simp [zeros]
  have hoff : ((parsedOf (rs ++ [(15, mac)])).recs Handshake.RECORD_TLV_MAC).data = some (4 + (encAll rs).length + 4) := by
    unfold parsedOf
    rw [Handshake.locate_append]
    simp [Handshake.locate, Handshake.RECORD_MAX, Handshake.setRec, Handshake.RECORD_TLV_MAC]
  have hlen : (parsedOf (rs ++ [(15, mac)])).tlvLen = (encAll rs).length + 36 := encAll_last_length rs mac hm
  unfold zeroedTlv rcvOf
  simp only [hoff, hlen, Option.getD_some]
  unfold pktOf
  rw [encAll_last_length rs _ hm, encAll_last rs _ hm, encAll_last rs _ hz]
  have e : Handshake.header ((encAll rs).length + 36) ++ (encAll rs ++ ([15, 0, 32, 0] ++ mac)) =
      (Handshake.header ((encAll rs).length + 36) ++ encAll rs ++ [15, 0, 32, 0]) ++ mac := by simp
  have hl : (Handshake.header ((encAll rs).length + 36) ++ encAll rs ++ [15, 0, 32, 0]).length = 4 + (encAll rs).length + 4 := by
    simp [Handshake.header_length]
    omega
  rw [e, List.take_left' hl, List.drop_eq_nil_of_le (as := _ ++ mac) (by rw [List.length_append, hl, hm]), List.append_nil]
  rw [show (Handshake.header ((encAll rs).length + 36) ++ encAll rs ++ [15, 0, 32, 0]) ++ List.replicate 32 0 =
    Handshake.header ((encAll rs).length + 36) ++ (encAll rs ++ ([15, 0, 32, 0] ++ zeros)) by simp [zeros]]
  rw [List.drop_left' (Handshake.header_length _), List.take_of_length_le (by simp [hz])]

/-! ### The packets sent -/

/-- The records of an initial handshake. -/
def initRecs (key hs : Key) : List (Nat × Bytes) := baseRecords hsConf 1 0 none none ++ initRecords (some key) hs

/-- The records of a reply, without the MAC. -/
def replyBase (type : UInt8) (mtu : Nat) (method : Option Bytes) (methods : Option (List Bytes)) (pk hk phk : Key) :
    List (Nat × Bytes) :=
  baseRecords hsConf type mtu method methods ++ ((Handshake.RECORD_REPLY_CODE, [0]) ::
    [(Handshake.RECORD_SENDER_KEY, Env.ownKey), (Handshake.RECORD_RECIPIENT_KEY, pk),
     (Handshake.RECORD_SENDER_HANDSHAKE_KEY, hk), (Handshake.RECORD_RECIPIENT_HANDSHAKE_KEY, phk)])

/-- The records of a reply. -/
def replyRecs (type : UInt8) (mtu : Nat) (method : Option Bytes) (methods : Option (List Bytes)) (pk hk phk : Key)
    (key : Bytes) : List (Nat × Bytes) :=
  replyBase type mtu method methods pk hk phk ++
    [(15, Env.hmac key (encAll (replyBase type mtu method methods pk hk phk ++ [(15, zeros)])))]

theorem base_types {c : Handshake.Conf} {type : UInt8} {mtu : Nat} {method : Option Bytes} {methods : Option (List Bytes)} :
    ∀ r ∈ baseRecords c type mtu method methods, r.1 < 65536 := by
  intro r hr
  unfold baseRecords at hr
  simp only [List.mem_append] at hr
  rcases hr with (((hr | hr) | hr) | hr) | hr
  · simp [Handshake.RECORD_HANDSHAKE_TYPE, Handshake.RECORD_FLAGS, Handshake.RECORD_MODE] at hr
    rcases hr with rfl | rfl | rfl <;> simp
  · split at hr
    · simp at hr; rw [hr]; simp [Handshake.RECORD_MTU]
    · simp at hr
  · simp [Handshake.RECORD_VERSION_NAME, Handshake.RECORD_PROTOCOL_NAME] at hr
    rcases hr with rfl | rfl <;> simp
  · split at hr
    · simp at hr; rw [hr]; simp [Handshake.RECORD_METHOD_NAME]
    · simp at hr
  · split at hr
    · simp at hr; rw [hr]; simp [Handshake.RECORD_METHOD_LIST]
    · simp at hr

/-- An initial handshake is the packet with the records. -/
theorem initPacket_of (hE : EnvOk) {key hs : Key} (hk : key.length = 32) (hh : hs.length = 32) {pkt : Bytes}
    (h : initPacket (some key) hs = some pkt) : pkt = pktOf (initRecs key hs) ∧ Fits (initRecs key hs) := by
  have hsp : Handshake.spaceOf (initRecords (some key) hs) ≤ 3 * Handshake.recordLen 32 := by
    unfold initRecords
    have h1 := hE.ownKey
    simp [Handshake.spaceOf, Handshake.recordLen, h1, hk, hh]
  obtain ⟨h1, h2⟩ := Handshake.newInit_pkt hE.fitInit hE.buf hsp h
  refine ⟨h1, h2, fun r hr => ?_⟩
  rcases List.mem_append.1 hr with hr | hr
  · exact base_types r hr
  · simp [initRecords, Handshake.RECORD_SENDER_KEY, Handshake.RECORD_RECIPIENT_KEY,
      Handshake.RECORD_SENDER_HANDSHAKE_KEY] at hr
    rcases hr with rfl | rfl | rfl <;> simp

/-- A reply is the packet with the records. -/
theorem replyPacket_of (hE : EnvOk) (hmac : ∀ k d, (Env.hmac k d).length = 32) {type : UInt8} {mtu : Nat}
    {method : Option Bytes} {methods : Option (List Bytes)} {pk hk phk : Key} (hm : methods ≠ some [])
    (hfit : Handshake.reserved hsConf mtu method methods (5 * Handshake.recordLen 32) ≤ Handshake.MAX_HANDSHAKE_SIZE)
    (h1 : pk.length = 32) (h2 : hk.length = 32) (h3 : phk.length = 32) {pkt : Bytes}
    (h : replyPacket type mtu method methods pk hk phk = some pkt) (key : Bytes) :
    fillMac pkt key = pktOf (replyRecs type mtu method methods pk hk phk key) ∧
      Fits (replyRecs type mtu method methods pk hk phk key) := by
  have hsp : Handshake.spaceOf (replyRecords pk hk phk) ≤ 5 * Handshake.recordLen 32 := by
    unfold replyRecords
    have h0 := hE.ownKey
    simp [Handshake.spaceOf, Handshake.recordLen, h0, h1, h2, h3]
  obtain ⟨e1, e2⟩ := Handshake.newReply_pkt hm hfit hE.buf hsp h
  have e : baseRecords hsConf type mtu method methods ++ ((Handshake.RECORD_REPLY_CODE, [0]) :: replyRecords pk hk phk) =
      replyBase type mtu method methods pk hk phk ++ [(15, zeros)] := by
    simp [replyBase, replyRecords, zeros, Handshake.RECORD_TLV_MAC]
  rw [e] at e1 e2
  have hz : zeros.length = 32 := by simp [zeros]
  refine ⟨by rw [e1]; exact fillMac_of e2 (hmac _ _), ?_, fun r hr => ?_⟩
  · unfold replyRecs
    rw [encAll_last_length _ _ (hmac _ _)]
    rw [encAll_last_length _ _ hz] at e2
    exact e2
  · unfold replyRecs replyBase at hr
    simp only [List.mem_append, List.mem_cons, List.not_mem_nil, or_false] at hr
    rcases hr with (hr | rfl | rfl | rfl | rfl | rfl) | rfl
    · exact base_types r hr
    all_goals simp [Handshake.RECORD_REPLY_CODE, Handshake.RECORD_SENDER_KEY, Handshake.RECORD_RECIPIENT_KEY, Handshake.RECORD_SENDER_HANDSHAKE_KEY,
      Handshake.RECORD_RECIPIENT_HANDSHAKE_KEY]

end Fastd.Daemon
