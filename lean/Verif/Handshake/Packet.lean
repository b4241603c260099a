import Verif.Props.Handshake

/-!
# Packets made of given records

What the other end reads from the packets built in src/handshake.c. Helper lemmas.
-/

namespace Fastd.Handshake

/-- The packet with the given records. -/
def pktOf (rs : List (Nat × Bytes)) : Bytes := header (encAll rs).length ++ encAll rs

theorem encAll_append (a b : List (Nat × Bytes)) : encAll (a ++ b) = encAll a ++ encAll b := by
  simp [encAll]

theorem pktOf_length (rs : List (Nat × Bytes)) : (pktOf rs).length = 4 + (encAll rs).length := by
  simp [pktOf, header]; omega

theorem pktOf_head (rs : List (Nat × Bytes)) : (pktOf rs).head? = some 1 := rfl

theorem header_length (n : Nat) : (header n).length = 4 := rfl

/-- Where the records are. -/
def locate : Nat → List (Nat × Bytes) → Recs → Recs
  | _, [], recs => recs
  | ptr, (t, d) :: rs, recs =>
    locate (ptr + recordLen d.length) rs (if t < RECORD_MAX then setRec recs t ⟨d.length, some (ptr + 4)⟩ else recs)

theorem locate_append (a b : List (Nat × Bytes)) (ptr : Nat) (recs : Recs) :
    locate ptr (a ++ b) recs = locate (ptr + (encAll a).length) b (locate ptr a recs) := by
  induction a generalizing ptr recs with
  | nil => rfl
  | cons r a ih =>
    obtain ⟨t, d⟩ := r
    simp only [List.cons_append, locate]
    rw [ih]
    congr 1
    simp only [encAll, List.flatMap_cons, List.length_append, encRec_length]
    omega

theorem parseLoop_locate (pkt : Bytes) (rs : List (Nat × Bytes)) :
    ∀ (pre : Bytes) (fuel : Nat) (recs : Recs), pkt = pre ++ encAll rs →
      (∀ r ∈ rs, r.1 < 65536 ∧ r.2.length < 65536) → (encAll rs).length + 1 ≤ fuel →
      parseLoop pkt pkt.length fuel pre.length recs = some (locate pre.length rs recs) := by
  induction rs with
  | nil =>
    intro pre fuel recs hp _ hf
    obtain ⟨fuel, rfl⟩ : ∃ f, fuel = f + 1 := ⟨fuel - 1, by omega⟩
    unfold parseLoop
    simp only [encAll, List.flatMap_nil, List.append_nil] at hp
    subst hp
    rw [if_pos (by omega)]
    rfl
  | cons r rs ih =>
    obtain ⟨t0, d0⟩ := r
    intro pre fuel recs hp hr hf
    obtain ⟨fuel, rfl⟩ : ∃ f, fuel = f + 1 := ⟨fuel - 1, by omega⟩
    obtain ⟨ht0, hd0⟩ := hr (t0, d0) (by simp)
    simp only [] at ht0 hd0
    have e : encAll ((t0, d0) :: rs) = encRec t0 d0 ++ encAll rs := by simp [encAll]
    rw [e] at hp hf
    have hlen : pkt.length = pre.length + (recordLen d0.length + (encAll rs).length) := by
      rw [hp]; simp [encRec_length]
    unfold parseLoop
    unfold recordLen at hlen
    rw [if_neg (by omega)]
    have g : ∀ i, pkt[pre.length + i]? = (encRec t0 d0 ++ encAll rs)[i]? := by
      intro i; rw [hp, List.getElem?_append_right (by omega)]; congr 1; omega
    have g0 : pkt[pre.length]? = some (.ofNat t0) := by
      have := g 0; simpa [encRec] using this
    have g1 : pkt[pre.length + 1]? = some (.ofNat (t0 / 256)) := by rw [g]; simp [encRec]
    have g2 : pkt[pre.length + 2]? = some (.ofNat d0.length) := by rw [g]; simp [encRec]
    have g3 : pkt[pre.length + 3]? = some (.ofNat (d0.length / 256)) := by rw [g]; simp [encRec]
    simp only [g0, g1, g2, g3, Option.bind_eq_bind, Option.bind_some, Option.pure_def]
    have k1 : (UInt8.ofNat t0).toNat + (UInt8.ofNat (t0 / 256)).toNat <<< 8 = t0 := by
      simp [Nat.shiftLeft_eq]; omega
    have k2 : (UInt8.ofNat d0.length).toNat + (UInt8.ofNat (d0.length / 256)).toNat <<< 8 =
        d0.length := by
      simp [Nat.shiftLeft_eq]; omega
    rw [k1, k2]
    unfold recordLen
    rw [if_neg (by omega)]
    have := ih (pre ++ encRec t0 d0) fuel
      (if t0 < RECORD_MAX then setRec recs t0 ⟨d0.length, some (pre.length + 4)⟩ else recs)
      (by rw [hp]; simp) (fun r h => hr r (List.mem_cons_of_mem _ h)) (by
        simp [encRec_length, recordLen] at hf; omega)
    rw [List.length_append, encRec_length] at this
    exact this

theorem mem_encAll_length {rs : List (Nat × Bytes)} {r : Nat × Bytes} (h : r ∈ rs) : r.2.length ≤ (encAll rs).length := by
  induction rs with
  | nil => cases h
  | cons a rs ih =>
    have e : (encAll (a :: rs)).length = recordLen a.2.length + (encAll rs).length := by
      simp [encAll, encRec_length]
    rw [e]
    unfold recordLen
    rcases List.mem_cons.1 h with rfl | h
    · omega
    · have := ih h; omega

/-- The packet is short enough and its types are proper ones. -/
structure Fits (rs : List (Nat × Bytes)) : Prop where
  len : (encAll rs).length < 65536
  types : ∀ r ∈ rs, r.1 < 65536

theorem Fits.ok {rs : List (Nat × Bytes)} (h : Fits rs) : ∀ r ∈ rs, r.1 < 65536 ∧ r.2.length < 65536 :=
  fun r hr => ⟨h.types r hr, Nat.lt_of_le_of_lt (mem_encAll_length hr) h.len⟩

/-- What parsing the packet yields. -/
def parsedOf (rs : List (Nat × Bytes)) : Parsed := ⟨true, (encAll rs).length, locate 4 rs noRecs⟩

theorem parse_pkt {rs : List (Nat × Bytes)} (h : Fits rs) : parseTlvs (pktOf rs) = some (parsedOf rs) := by
  unfold parseTlvs
  rw [pktOf_length]
  unfold headerSize
  rw [if_neg (by omega), show tlvLen (pktOf rs) = some (encAll rs).length from tlvLen_header _ _ h.len]
  simp only [Option.bind_eq_bind, Option.bind_some]
  rw [if_neg (by omega)]
  have := parseLoop_locate (pktOf rs) rs (header (encAll rs).length) ((pktOf rs).length + 1) noRecs rfl h.ok (by
    rw [pktOf_length]; omega)
  rw [header_length, pktOf_length] at this
  rw [this]
  rfl

/-- The value of a record of the packet. -/
theorem recs_pkt {rs : List (Nat × Bytes)} (h : Fits rs) {t : Nat} (ht : t < 16) :
    match lastRec rs t with
    | some d => recBytes (pktOf rs) ((parsedOf rs).recs t) = some d ∧ ((parsedOf rs).recs t).length = d.length
    | none => (parsedOf rs).recs t = ⟨0, none⟩ := by
  obtain ⟨r', h1, h2⟩ := parseLoop_enc (pktOf rs) rs (header (encAll rs).length) ((pktOf rs).length + 1) noRecs rfl h.ok (by
    rw [pktOf_length]; omega)
  rw [parseLoop_locate (pktOf rs) rs (header (encAll rs).length) ((pktOf rs).length + 1) noRecs rfl h.ok (by
    rw [pktOf_length]; omega)] at h1
  cases h1
  exact h2 t ht

theorem recs_some {rs : List (Nat × Bytes)} (h : Fits rs) {t : Nat} (ht : t < 16) {d : Bytes} (hd : lastRec rs t = some d) :
    recBytes (pktOf rs) ((parsedOf rs).recs t) = some d ∧ ((parsedOf rs).recs t).length = d.length ∧
      ((parsedOf rs).recs t).data ≠ none := by
  have := recs_pkt h ht
  rw [hd] at this
  refine ⟨this.1, this.2, fun hn => ?_⟩
  have h1 := this.1
  unfold recBytes at h1
  rw [hn] at h1
  cases h1

theorem recs_none {rs : List (Nat × Bytes)} (h : Fits rs) {t : Nat} (ht : t < 16) (hd : lastRec rs t = none) :
    (parsedOf rs).recs t = ⟨0, none⟩ := by
  have := recs_pkt h ht
  rw [hd] at this
  exact this

theorem field_pkt {rs : List (Nat × Bytes)} (h : Fits rs) {t : Nat} (ht : t < 16) : field (pktOf rs) t = lastRec rs t := by
  unfold field
  rw [parse_pkt h, Option.bind_some]
  cases hd : lastRec rs t with
  | some d => exact (recs_some h ht hd).1
  | none => rw [recs_none h ht hd]; rfl

/-- Packets with the records every packet of an ordinary handshake has are handed to the key exchange. -/
theorem handle_pkt {c : Conf} {rs : List (Nat × Bytes)} {type : UInt8} {control : Bool} (h : Fits rs)
    (h0 : (0 : UInt8) ∉ c.protocolName) (hc : control = true)
    (t0 : lastRec rs 0 = some [type]) (t3 : lastRec rs 3 = some [1]) (t4 : lastRec rs 4 = some [c.modeId])
    (t5 : lastRec rs 5 = some c.protocolName) (t1 : 1 < type → lastRec rs 1 = some [0]) :
    handle c control (pktOf rs) = some (.pass ⟨type, 1, parsedOf rs⟩) := by
  subst hc
  obtain ⟨o, e, hv⟩ := C30_handshake_rules c true (pktOf rs) h0
  have hj : judge c true (field (pktOf rs)) = .accept type 1 := by
    unfold judge
    simp only [field_pkt h (show (0 : Nat) < 16 by decide), field_pkt h (show (3 : Nat) < 16 by decide),
      field_pkt h (show (4 : Nat) < 16 by decide), field_pkt h (show (5 : Nat) < 16 by decide),
      field_pkt h (show (1 : Nat) < 16 by decide), t0, t3, t4, t5]
    have n1 : ¬ (true = false ∧ (((some [(1 : UInt8)]).bind List.head?).getD 0).toNat % 2 = 1) := by simp
    have n2 : ¬ ¬ (some [(1 : UInt8)] = none ∨ some [(1 : UInt8)] = some [0] ∨ True) := by simp
    have n3 : ¬ ¬ ∀ p, some c.protocolName = some p → p.takeWhile (· ≠ 0) = c.protocolName := by
      intro hn
      refine hn fun p hp => ?_
      cases hp
      exact takeWhile_self _ h0
    have n4 : ¬ ¬ ∀ m, some [c.modeId] = some m → m = [if c.modeTun then 1 else 0] := by
      intro hn
      refine hn fun m hm => ?_
      cases hm
      rfl
    have n5 : ¬ (1 < type ∧ lastRec rs 1 ≠ some [0]) := fun ⟨h1, h2⟩ => h2 (t1 h1)
    rw [if_neg n1, if_neg n2, if_neg n3, if_neg n4, if_neg n5]
    rfl
  rw [hj] at hv
  rw [e]
  cases o with
  | drop => cases hv
  | error => cases hv
  | pass hs =>
    -- the record array is the one of the packet
    have hp : hs.parsed = parsedOf rs := by
      unfold handle at e
      rw [parse_pkt h] at e
      simp only [Option.bind_eq_bind, Option.bind_some] at e
      split at e
      · cases e
      · split at e
        · cases e
        · obtain ⟨a, ea⟩ : ∃ a, asUint8 (pktOf rs) ((parsedOf rs).recs RECORD_HANDSHAKE_TYPE) = some a := by
            cases ha : asUint8 (pktOf rs) ((parsedOf rs).recs RECORD_HANDSHAKE_TYPE) with
            | none => rw [ha] at e; cases e
            | some a => exact ⟨a, rfl⟩
          rw [ea] at e
          simp only [Option.bind_some] at e
          obtain ⟨b, eb⟩ : ∃ b, readFlags (pktOf rs) ((parsedOf rs).recs RECORD_FLAGS) = some b := by
            cases ha : readFlags (pktOf rs) ((parsedOf rs).recs RECORD_FLAGS) with
            | none => rw [ha] at e; cases e
            | some a => exact ⟨a, rfl⟩
          rw [eb] at e
          simp only [Option.bind_some] at e
          split at e
          · cases e
          · obtain ⟨k, ek⟩ : ∃ k, checkRecords c (pktOf rs) ⟨a, b, parsedOf rs⟩ = some k := by
              cases ha : checkRecords c (pktOf rs) ⟨a, b, parsedOf rs⟩ with
              | none => rw [ha] at e; cases e
              | some a => exact ⟨a, rfl⟩
            rw [ek] at e
            simp only [Option.bind_some] at e
            cases k with
            | some o =>
              have hq : hs = ⟨a, b, parsedOf rs⟩ ∨ (∃ hs, o = .pass hs) := by
                right
                have : o = .pass hs := Option.some.inj e
                exact ⟨hs, this⟩
              rcases hq with hq | ⟨hs', ho⟩
              · rw [hq]
              · exfalso
                rw [ho] at ek
                unfold checkRecords at ek
                simp only [Option.bind_eq_bind] at ek
                split at ek
                · cases ek
                · cases hb : badProtocol c (pktOf rs) ((parsedOf rs).recs RECORD_PROTOCOL_NAME) with
                  | none => rw [hb] at ek; cases ek
                  | some b1 =>
                    rw [hb] at ek
                    simp only [Option.bind_some] at ek
                    split at ek
                    · cases ek
                    · cases hb2 : badMode c (pktOf rs) ((parsedOf rs).recs RECORD_MODE) with
                      | none => rw [hb2] at ek; cases ek
                      | some b2 =>
                        rw [hb2] at ek
                        simp only [Option.bind_some] at ek
                        split at ek
                        · cases ek
                        · split at ek
                          · unfold checkReply at ek
                            split at ek
                            · cases ek
                            · cases hb3 : asUint8 (pktOf rs) ((parsedOf rs).recs RECORD_REPLY_CODE) with
                              | none => rw [hb3] at ek; cases ek
                              | some b3 =>
                                rw [hb3] at ek
                                simp only [Option.bind_some] at ek
                                split at ek
                                · split at ek
                                  · cases hb4 : asUint (pktOf rs) ((parsedOf rs).recs RECORD_ERROR_DETAIL) with
                                    | none => rw [hb4] at ek; cases ek
                                    | some b4 => rw [hb4] at ek; cases ek
                                  · cases ek
                                · cases ek
                          · cases ek
            | none =>
              simp only [] at e
              cases hv' : readVersion (pktOf rs) a ((parsedOf rs).recs RECORD_VERSION_NAME) with
              | none => rw [hv'] at e; cases e
              | some v =>
                rw [hv'] at e
                simp only [Option.bind_some, Option.pure_def, Option.some.injEq] at e
                cases e
                rfl
    have h1 : hs.type = type ∧ hs.flags = 1 := by
      simp only [Outcome.view] at hv
      injection hv with a b
      exact ⟨a, b⟩
    obtain ⟨ty, fl, pa⟩ := hs
    simp only at h1 hp
    rw [h1.1, h1.2, hp]

/-! ### Building -/

theorem header_zero : emptyPacket = header 0 ++ [] := rfl

theorem addAll_empty {avail : Nat} {rs : List (Nat × Bytes)} {pkt : Bytes} (hl : (encAll rs).length < 65536)
    (h : addAll avail emptyPacket rs = some pkt) : pkt = pktOf rs := by
  have key : ∀ (rs : List (Nat × Bytes)) (n : Nat) (body : Bytes), body.length = n → n + (encAll rs).length < 65536 →
      addAll avail (header n ++ body) rs = some pkt → pkt = header (n + (encAll rs).length) ++ (body ++ encAll rs) := by
    intro rs
    induction rs with
    | nil =>
      intro n body _ _ h
      simp only [addAll, Option.some.injEq] at h
      simp [encAll, ← h]
    | cons r rs ih =>
      obtain ⟨t, d⟩ := r
      intro n body hb hn h
      have e : (encAll ((t, d) :: rs)).length = recordLen d.length + (encAll rs).length := by
        simp [encAll, encRec_length]
      rw [e] at hn
      simp only [addAll, Option.bind_eq_bind] at h
      rw [add_header avail n body t d (by omega) (by omega) hb] at h
      split at h
      · cases h
      · simp only [Option.bind_some] at h
        have := ih (n + recordLen d.length) (body ++ encRec t d) (by simp [encRec_length, hb]) (by omega) h
        rw [this, e, Nat.add_assoc]
        simp [encAll]
  rw [header_zero] at h
  have := key rs 0 [] rfl (by omega) h
  simpa [pktOf] using this

/-- Packets made by `fastd_handshake_new_init`, with further records. -/
theorem newInit_pkt {c : Conf} {mb : Nat} {tail : Nat} {rs : List (Nat × Bytes)} {pkt : Bytes}
    (h1 : reserved c 0 none none tail ≤ MAX_HANDSHAKE_SIZE) (h2 : 1232 ≤ mb) (hrs : spaceOf rs ≤ tail)
    (h : (newInit c mb tail).bind (fun (p, avail) => addAll avail p rs) = some pkt) :
    pkt = pktOf (baseRecords c 1 0 none none ++ rs) ∧ (encAll (baseRecords c 1 0 none none ++ rs)).length < 65536 := by
  have hsp := space_base c 1 0 none none tail
  unfold MAX_HANDSHAKE_SIZE at h1
  have hl : (encAll (baseRecords c 1 0 none none ++ rs)).length < 65536 := by
    rw [encAll_append, List.length_append, encAll_length, encAll_length]
    omega
  refine ⟨?_, hl⟩
  unfold newInit at h
  rw [newHandshake_eq c mb 1 0 none none tail (by simp) (by unfold MAX_HANDSHAKE_SIZE; exact h1) (by omega)] at h
  refine addAll_empty (avail := mb - controlSize) hl ?_
  rw [addAll_append]
  cases ha : addAll (mb - controlSize) emptyPacket (baseRecords c 1 0 none none) with
  | none => rw [ha] at h; cases h
  | some p => rw [ha] at h; exact h

/-- Packets made by `fastd_handshake_new_reply`, with further records. -/
theorem newReply_pkt {c : Conf} {mb : Nat} {type : UInt8} {mtu : Nat} {method : Option Bytes}
    {methods : Option (List Bytes)} {tail : Nat} {rs : List (Nat × Bytes)} {pkt : Bytes} (hne : methods ≠ some [])
    (h1 : reserved c mtu method methods tail ≤ MAX_HANDSHAKE_SIZE) (h2 : 1232 ≤ mb) (hrs : spaceOf rs ≤ tail)
    (h : (newReply c mb type mtu method methods tail).bind (fun (p, avail) => addAll avail p rs) = some pkt) :
    pkt = pktOf (baseRecords c type mtu method methods ++ ((RECORD_REPLY_CODE, [0]) :: rs)) ∧
      (encAll (baseRecords c type mtu method methods ++ ((RECORD_REPLY_CODE, [0]) :: rs))).length < 65536 := by
  have hsp := space_base c type mtu method methods tail
  unfold MAX_HANDSHAKE_SIZE at h1
  have h5 : spaceOf ((RECORD_REPLY_CODE, [(0 : UInt8)]) :: rs) = 5 + spaceOf rs := by simp [spaceOf]
  have hl : (encAll (baseRecords c type mtu method methods ++ ((RECORD_REPLY_CODE, [0]) :: rs))).length < 65536 := by
    rw [encAll_append, List.length_append, encAll_length, encAll_length, h5]
    omega
  refine ⟨?_, hl⟩
  unfold newReply at h
  rw [newHandshake_eq c mb type mtu method methods tail hne (by unfold MAX_HANDSHAKE_SIZE; exact h1) (by omega)] at h
  refine addAll_empty (avail := mb - controlSize) hl ?_
  rw [addAll_append]
  cases ha : addAll (mb - controlSize) emptyPacket (baseRecords c type mtu method methods) with
  | none => rw [ha] at h; cases h
  | some p =>
    rw [ha] at h
    simp only [Option.map_some, Option.bind_eq_bind, Option.bind_some, addUint8] at h
    simp only [Option.bind_some, addAll, Option.bind_eq_bind]
    cases hb : add (mb - controlSize) p RECORD_REPLY_CODE [0] with
    | none => rw [hb] at h; cases h
    | some p2 => rw [hb] at h; exact h

end Fastd.Handshake
