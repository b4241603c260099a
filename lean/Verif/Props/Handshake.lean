import Verif.Handshake.CodecLemmas

/-!
# Properties C24 - C30: handshake packets
-/

namespace Fastd.Handshake

/-! ## C24 -/

/-- **C24.** Every packet built by adding records (any types, any values, any number) to an empty
handshake packet parses, and for every record type the parser reports exactly the value of the last
record of that type that was put in, and nothing for types that were not put in. `avail ≤ 65539`
holds for all handshakes (they are limited to 1232 bytes, C28). -/
theorem C24_tlv_round_trip (avail : Nat) (rs : List (Nat × Bytes)) (pkt : Bytes)
    (ha : avail ≤ 65539) (ht : ∀ r ∈ rs, r.1 < 65536)
    (hb : addAll avail emptyPacket rs = some pkt) :
    ∃ p, parseTlvs pkt = some p ∧ p.valid = true ∧ p.tlvLen + 4 = pkt.length ∧
      ∀ t, t < 16 → match lastRec rs t with
        | some d => recBytes pkt (p.recs t) = some d ∧ (p.recs t).length = d.length
        | none => p.recs t = ⟨0, none⟩ := by
  have h0 : emptyPacket = header 0 ++ [] := rfl
  rw [h0] at hb
  obtain ⟨h1, h2⟩ := addAll_header avail rs 0 [] (by omega) rfl ha pkt hb
  simp only [Nat.zero_add, List.nil_append] at h1
  have hlen : (encAll rs).length < 65536 := by omega
  have hpl : pkt.length = 4 + (encAll rs).length := by rw [h1]; simp [header]; omega
  have hd : ∀ r ∈ rs, r.1 < 65536 ∧ r.2.length < 65536 := by
    intro r hr
    refine ⟨ht r hr, ?_⟩
    have : r.2.length ≤ (encAll rs).length := by
      obtain ⟨a, b, rfl⟩ := List.append_of_mem hr
      simp [encAll, encRec]; omega
    omega
  obtain ⟨r', h3, h4⟩ := parseLoop_enc pkt rs (header (encAll rs).length) (pkt.length + 1) noRecs
    h1 hd (by omega)
  refine ⟨⟨true, (encAll rs).length, r'⟩, ?_, rfl, ?_, h4⟩
  · unfold parseTlvs headerSize
    rw [if_neg (by omega)]
    have : tlvLen pkt = some (encAll rs).length := by rw [h1]; exact tlvLen_header _ _ hlen
    simp only [this, Option.bind_eq_bind, Option.bind_some, Option.pure_def]
    rw [if_neg (by omega)]
    have h5 : (header (encAll rs).length).length = 4 := rfl
    rw [h5] at h3
    rw [← hpl, h3]
    rfl
  · simp only []; omega

/-- Three records, one type repeated, one of unknown type. -/
example : ∃ pkt, addAll 100 emptyPacket [(3, [7]), (99, [1, 2]), (3, [8, 9])] = some pkt ∧
    pkt = [1, 0, 0, 17, 3, 0, 1, 0, 7, 99, 0, 2, 0, 1, 2, 3, 0, 2, 0, 8, 9] ∧
    (parseTlvs pkt).bind (fun p => recBytes pkt (p.recs 3)) = some [8, 9] :=
  ⟨_, rfl, rfl, by decide⟩

/-! ## C25 -/

/-- **C25.** For every byte string the parser terminates without a read outside the packet, every
record it reports lies completely inside the part of the packet covered by the length field, and a
record that is not present has length 0. -/
theorem C25_parser_safe (pkt : Bytes) :
    ∃ p, parseTlvs pkt = some p ∧
      ∀ t, ((p.recs t).data = none ∧ (p.recs t).length = 0) ∨
        ∃ off, (p.recs t).data = some off ∧ 8 ≤ off ∧ off + (p.recs t).length ≤ pkt.length ∧
          off + (p.recs t).length ≤ 4 + p.tlvLen := by
  obtain ⟨p, h1, h2, h3, h4, _⟩ := parseTlvs_safe pkt
  refine ⟨p, h1, fun t => ?_⟩
  cases hd : (p.recs t).data with
  | none => exact Or.inl ⟨rfl, (h2 t).absent hd⟩
  | some off =>
    right
    cases hv : p.valid with
    | false => rw [h4 hv t] at hd; simp at hd
    | true =>
      have i1 := (h2 t).inside off hd
      have i2 := ((h3 hv).2.2 t).inside off hd
      unfold headerSize at i2
      exact ⟨off, rfl, i1.1, i1.2, i2.2⟩

example : (parseTlvs [1, 0, 0, 9, 3, 0, 1, 0, 5, 4, 0, 200, 0]).map
    (fun p => (p.valid, p.recs 3, p.recs 4)) = some (true, ⟨1, some 8⟩, ⟨0, none⟩) := by decide

theorem recByte_ok {pkt : Bytes} {r : Rec} (h : RecIn 8 pkt.length r) {i : Nat}
    (hi : i < r.length) : ∃ b, recByte pkt r i = some b := by
  cases hd : r.data with
  | none => have := h.absent hd; omega
  | some off =>
    have := h.inside off hd
    obtain ⟨b, hb⟩ := getElem?_some_of_lt (l := pkt) (i := off + i) (by omega)
    exact ⟨b, by simp [recByte, hd, hb]⟩

theorem recBytes_ok {pkt : Bytes} {r : Rec} (h : RecIn 8 pkt.length r) (hd : r.data.isSome) :
    ∃ b, recBytes pkt r = some b ∧ b.length = r.length ∧
      ∀ i, i < r.length → recByte pkt r i = b[i]? := by
  obtain ⟨off, hoff⟩ := Option.isSome_iff_exists.1 hd
  have := h.inside off hoff
  refine ⟨(pkt.drop off).take r.length, ?_, ?_, ?_⟩
  · simp [recBytes, hoff, this.2]
  · simp; omega
  · intro i hi
    simp [recByte, hoff, hi, List.getElem?_drop]

/-! ## C26 -/

/-- Little endian value of a byte string (specification). -/
def leVal : Bytes → Nat
  | [] => 0
  | b :: r => b.toNat + 256 * leVal r

theorem or_shift (a b k : Nat) (h : b < 2 ^ k) : a <<< k ||| b = b + 2 ^ k * a := by
  rw [Nat.shiftLeft_eq, Nat.mul_comm a, ← Nat.two_pow_add_eq_or_of_lt h]
  omega

theorem u8lt (a : UInt8) : a.toNat < 256 := a.toNat_lt

/-- **C26.** Reading any record as a number never reads outside the packet; the result is the little
endian value of records of up to 4 bytes and `0xffffffff` for longer ones. -/
theorem C26_read_uint (pkt : Bytes) (r : Rec) (v : Bytes) (h : recBytes pkt r = some v) :
    asUint pkt r = some (if v.length ≤ 4 then leVal v else 0xffffffff) := by
  unfold recBytes at h
  cases hd : r.data with
  | none => simp [hd] at h
  | some off =>
    simp only [hd, Option.bind_eq_bind, Option.bind_some] at h
    by_cases hle : off + r.length ≤ pkt.length
    · rw [if_pos hle] at h
      simp only [Option.pure_def, Option.some.injEq] at h
      have hl : v.length = r.length := by rw [← h]; simp; omega
      have hb : ∀ i, i < r.length → recByte pkt r i = v[i]? := by
        intro i hi
        rw [← h]
        simp [recByte, hd, hi, List.getElem?_drop]
      unfold asUint
      rcases v with _ | ⟨a, _ | ⟨b, _ | ⟨c, _ | ⟨d, _ | ⟨e, w⟩⟩⟩⟩⟩
      · simp only [List.length_nil] at hl
        rw [← hl]; rfl
      · simp only [List.length_cons, List.length_nil] at hl
        rw [← hl]
        simp [asUint8, hb 0 (by omega), leVal]
      · simp only [List.length_cons, List.length_nil] at hl
        rw [← hl]
        simp only [asUint16, asUint8, hb 0 (by omega), hb 1 (by omega)]
        simp [leVal]
        rw [or_shift _ _ 8 (u8lt a)]
        omega
      · simp only [List.length_cons, List.length_nil] at hl
        rw [← hl]
        simp only [asUint24, asUint16, asUint8, hb 0 (by omega), hb 1 (by omega), hb 2 (by omega)]
        simp [leVal]
        have := u8lt a; have := u8lt b
        rw [or_shift _ _ 8 (u8lt a), or_shift _ _ 16 (by omega)]
        omega
      · simp only [List.length_cons, List.length_nil] at hl
        rw [← hl]
        simp only [asUint32, asUint24, asUint16, asUint8, hb 0 (by omega), hb 1 (by omega),
          hb 2 (by omega), hb 3 (by omega)]
        simp [leVal]
        have := u8lt a; have := u8lt b; have := u8lt c
        rw [or_shift _ _ 8 (u8lt a), or_shift _ _ 16 (by omega), or_shift _ _ 24 (by omega)]
        omega
      · simp only [List.length_cons] at hl
        obtain ⟨k, hk⟩ : ∃ k, r.length = k + 5 := ⟨w.length, by omega⟩
        rw [hk]
        simp
    · rw [if_neg hle] at h; simp at h

theorem leVal_leBytes (w v : Nat) (h : v < 256 ^ w) : leVal (leBytes w v) = v := by
  induction w generalizing v with
  | zero => simp [leBytes, leVal] at *; omega
  | succ w ih =>
    have e : leBytes (w + 1) v = .ofNat v :: leBytes w (v / 256) := by
      unfold leBytes
      rw [List.range_succ_eq_map]
      simp only [List.map_cons, List.map_map]
      congr 1
      apply List.map_congr_left
      intro i _
      simp only [Function.comp]
      congr 1
      rw [Nat.shiftRight_eq_div_pow, Nat.shiftRight_eq_div_pow, Nat.div_div_eq_div_mul]
      congr 1
      rw [show 8 * (i.succ) = 8 + 8 * i by simp; omega, pow_add]
      rfl
    rw [e]
    simp only [leVal]
    rw [ih (v / 256) (by rw [pow_succ] at h; omega)]
    simp
    omega

/-- **C26.** A number written into a record of `w ≤ 4` bytes in which it fits is read back
unchanged. -/
theorem C26_uint_fixed_round_trip (pkt : Bytes) (r : Rec) (w v : Nat) (hw : w ≤ 4)
    (hv : v < 256 ^ w) (h : recBytes pkt r = some (leBytes w v)) : asUint pkt r = some v := by
  rw [C26_read_uint pkt r _ h, if_pos (by simp [leBytes]; omega), leVal_leBytes w v hv]

/-- **C26.** A 32 bit number written by `fastd_handshake_add_uint` (the width is chosen
automatically) as any record of a packet is read back unchanged from the parsed packet. -/
theorem C26_uint_round_trip (avail : Nat) (rs rs' : List (Nat × Bytes)) (t v : Nat)
    (pre pkt pkt' : Bytes) (ha : avail ≤ 65539) (ht : t < 16) (hv : v < 2 ^ 32)
    (hty : ∀ r ∈ rs ++ rs', r.1 < 65536 ∧ r.1 ≠ t)
    (h1 : addAll avail emptyPacket rs = some pre) (h2 : addUint avail pre t v = some pkt)
    (h3 : addAll avail pkt rs' = some pkt') :
    ∃ p, parseTlvs pkt' = some p ∧ asUint pkt' (p.recs t) = some v := by
  have happ : ∀ (a b : List (Nat × Bytes)) (x : Bytes), addAll avail x (a ++ b) =
      (addAll avail x a).bind fun y => addAll avail y b := by
    intro a
    induction a with
    | nil => intro b x; rfl
    | cons c a ih =>
      intro b x
      simp only [List.cons_append, addAll, Option.bind_eq_bind, Option.bind_assoc]
      congr 1
      funext y
      exact ih b y
  have hall : addAll avail emptyPacket (rs ++ (t, leBytes (uintWidth v) v) :: rs') = some pkt' := by
    rw [happ, h1]
    simp only [Option.bind_some, addAll, Option.bind_eq_bind]
    unfold addUint at h2
    rw [h2]
    exact h3
  obtain ⟨p, hp, _, _, hr⟩ := C24_tlv_round_trip avail _ pkt' ha (by
    intro r hr
    simp only [List.mem_append, List.mem_cons] at hr
    rcases hr with hr | rfl | hr
    · exact (hty r (by simp [hr])).1
    · simp only []; omega
    · exact (hty r (by simp [hr])).1) hall
  refine ⟨p, hp, ?_⟩
  have hl : lastRec (rs ++ (t, leBytes (uintWidth v) v) :: rs') t =
      some (leBytes (uintWidth v) v) := by
    unfold lastRec
    have f1 : ∀ l : List (Nat × Bytes), (∀ r ∈ l, r.1 ≠ t) →
        l.filter (fun r => decide (r.1 = t)) = [] := by
      intro l hl
      rw [List.filter_eq_nil_iff]
      intro r hr
      simp [hl r hr]
    rw [List.filter_append, List.filter_cons]
    simp only [decide_true, if_true]
    rw [f1 rs (fun r hr => (hty r (by simp [hr])).2), f1 rs' (fun r hr => (hty r (by simp [hr])).2)]
    rfl
  have := hr t ht
  rw [hl] at this
  apply C26_uint_fixed_round_trip pkt' _ _ v _ _ this.1
  · unfold uintWidth; split_ifs <;> omega
  · unfold uintWidth; split_ifs <;> omega

example : asUint [1, 0, 0, 6, 2, 0, 2, 0, 0x34, 0x12] ⟨2, some 8⟩ = some 0x1234 ∧
    (addUint 100 emptyPacket 2 0x123456).bind
      (fun pkt => (parseTlvs pkt).bind fun p => asUint pkt (p.recs 2)) = some 0x123456 := by
  decide

/-! ## C27 -/

theorem takeWhile_append_zero (m rest : Bytes) (h : (0 : UInt8) ∉ m) :
    (m ++ 0 :: rest).takeWhile (· ≠ 0) = m := by
  rw [List.takeWhile_append_of_pos]
  · simp
  · intro a ha; simp; rintro rfl; exact h ha

theorem takeWhile_self (m : Bytes) (h : (0 : UInt8) ∉ m) : m.takeWhile (· ≠ 0) = m := by
  have := List.takeWhile_append_of_pos (p := fun x : UInt8 => decide (x ≠ 0)) (l₁ := m) (l₂ := [])
    (by intro a ha; simp; rintro rfl; exact h ha)
  simpa using this

theorem parseStringList_nil (ret : List Bytes) : parseStringList [] ret = ret := by
  rw [parseStringList]; simp

theorem flatMap_ne_nil (ms : List Bytes) (h : ms ≠ []) :
    (ms.flatMap fun m => m ++ [(0 : UInt8)]) ≠ [] := by
  cases ms with
  | nil => exact absurd rfl h
  | cons m ms => simp

theorem parse_create (methods : List Bytes) (hne : methods ≠ [])
    (h0 : ∀ m ∈ methods, (0 : UInt8) ∉ m ∧ m ≠ []) (ret : List Bytes) :
    parseStringList ((methods.flatMap fun m => m ++ [0]).dropLast) ret =
      methods.reverse ++ ret := by
  induction methods generalizing ret with
  | nil => exact absurd rfl hne
  | cons m ms ih =>
    obtain ⟨hz, hn⟩ := h0 m (by simp)
    cases ms with
    | nil =>
      simp only [List.flatMap_cons, List.flatMap_nil, List.append_nil, List.dropLast_concat]
      rw [parseStringList, dif_neg hn]
      simp only [takeWhile_self m hz]
      rw [List.drop_eq_nil_of_le (by omega), parseStringList_nil]
      rfl
    | cons m' ms' =>
      have hf := flatMap_ne_nil (m' :: ms') (by simp)
      rw [List.flatMap_cons, List.dropLast_append_of_ne_nil hf, List.append_assoc]
      rw [parseStringList, dif_neg (by simp)]
      simp only [List.cons_append, List.nil_append, takeWhile_append_zero m _ hz]
      have : ∀ X : Bytes, (m ++ 0 :: X).drop (m.length + 1) = X := by
        intro X; rw [List.drop_append]; simp
      rw [this, ih (by simp) (fun x hx => h0 x (List.mem_cons_of_mem _ hx))]
      simp

/-- **C27.** The method list in a handshake is decoded to the same names (the parser delivers them
in reverse order; names are non-empty C strings). -/
theorem C27_list_round_trip (methods : List Bytes) (data : Bytes)
    (h0 : ∀ m ∈ methods, (0 : UInt8) ∉ m ∧ m ≠ []) (h : createMethodList methods = some data) :
    (parseStringList data []).reverse = methods := by
  unfold createMethodList at h
  split at h
  · simp at h
  · rename_i hne
    simp only [Option.some.injEq] at h
    rw [← h, parse_create methods hne h0]
    simp

theorem chooseLoop_eq {α : Type} (allowed : List Bytes) (lookup : Bytes → Option α)
    (hl : ∀ m ∈ allowed, ∃ i, lookup m = some i) (l : List Bytes) (cur : Option α) :
    chooseLoop allowed lookup l cur =
      match (match l.reverse.find? (· ∈ allowed) with
        | some n => lookup n
        | none => cur) with
      | some m => .some m
      | none => .none := by
  induction l generalizing cur with
  | nil => cases cur <;> rfl
  | cons n l ih =>
    unfold chooseLoop
    rw [List.reverse_cons, List.find?_append]
    by_cases hn : n ∈ allowed
    · obtain ⟨i, hi⟩ := hl n hn
      rw [if_pos hn, hi]
      simp only []
      rw [ih]
      cases hf : l.reverse.find? (· ∈ allowed) with
      | some k => simp
      | none => simp [hn, hi]
    · rw [if_neg hn, ih]
      cases hf : l.reverse.find? (· ∈ allowed) with
      | some k => simp
      | none => simp [hn]

/-- **C27.** The initiator picks the first method of the responder's list (in the responder's order)
that is allowed locally for this peer, and fails iff there is none. `lookup` finds every configured
method (established by the configuration check, C53). -/
theorem C27_first_common_method {α : Type} (allowed methods : List Bytes)
    (lookup : Bytes → Option α) (data : Bytes) (hl : ∀ m ∈ allowed, ∃ i, lookup m = some i)
    (h0 : ∀ m ∈ methods, (0 : UInt8) ∉ m ∧ m ≠ []) (h : createMethodList methods = some data) :
    methodByNameList allowed lookup (some data) =
      match methods.find? (· ∈ allowed) with
      | none => .none
      | some n => match lookup n with
        | none => .bug
        | some m => .some m := by
  have hrt := C27_list_round_trip methods data h0 h
  have hd : data ≠ [] := by
    rintro rfl
    rw [parseStringList_nil] at hrt
    simp only [List.reverse_nil] at hrt
    subst hrt
    simp [createMethodList] at h
  obtain ⟨b, bs, rfl⟩ := List.exists_cons_of_ne_nil hd
  simp only [methodByNameList]
  rw [chooseLoop_eq allowed lookup hl, hrt]
  cases hf : methods.find? (· ∈ allowed) with
  | none => rfl
  | some n =>
    obtain ⟨i, hi⟩ := hl n (by simpa using List.find?_some hf)
    simp [hi]

/-- **C27.** Failure iff there is no common method. -/
theorem C27_failure_iff {α : Type} (allowed methods : List Bytes) (lookup : Bytes → Option α)
    (data : Bytes) (hl : ∀ m ∈ allowed, ∃ i, lookup m = some i)
    (h0 : ∀ m ∈ methods, (0 : UInt8) ∉ m ∧ m ≠ []) (h : createMethodList methods = some data) :
    methodByNameList allowed lookup (some data) = .none ↔ ∀ m ∈ methods, m ∉ allowed := by
  rw [C27_first_common_method allowed methods lookup data hl h0 h]
  cases hf : methods.find? (· ∈ allowed) with
  | none =>
    simp only [true_iff]
    intro m hm
    have := List.find?_eq_none.1 hf m hm
    simpa using this
  | some n =>
    have hn : n ∈ allowed := by simpa using List.find?_some hf
    obtain ⟨i, hi⟩ := hl n hn
    simp only [hi, reduceCtorEq, false_iff]
    intro hc
    exact hc n (List.mem_of_find?_eq_some hf) hn

/-- **C27.** Whatever bytes the other side sends as a method list, the choice never aborts and a
chosen method is one allowed for the peer. -/
theorem C27_any_list_safe {α : Type} (allowed : List Bytes) (lookup : Bytes → Option α)
    (record : Option Bytes) (hl : ∀ m ∈ allowed, ∃ i, lookup m = some i) :
    methodByNameList allowed lookup record ≠ .bug ∧
    ∀ m, methodByNameList allowed lookup record = .some m →
      ∃ n ∈ allowed, lookup n = some m := by
  rcases record with _ | ⟨_ | ⟨b, bs⟩⟩
  · simp [methodByNameList]
  · simp [methodByNameList]
  · simp only [methodByNameList]
    rw [chooseLoop_eq allowed lookup hl]
    cases hf : (parseStringList (b :: bs) []).reverse.find? (· ∈ allowed) with
    | none => simp
    | some n =>
      have hn : n ∈ allowed := by simpa using List.find?_some hf
      obtain ⟨i, hi⟩ := hl n hn
      simp only [hi, ne_eq, reduceCtorEq, not_false_eq_true, MethodChoice.some.injEq, true_and]
      rintro m rfl
      exact ⟨n, hn, hi⟩

/-- **C27.** The name the initiator chose and sends back in the last handshake packet is accepted by
the responder as the very same method: `theirs` is the responder's list. -/
theorem C27_both_ends_agree {α β : Type} (ours theirs : List Bytes) (lookup : Bytes → Option α)
    (lookup' : Bytes → Option β) (hl : ∀ m ∈ ours, ∃ i, lookup m = some i)
    (h0 : ∀ m ∈ theirs, (0 : UInt8) ∉ m ∧ m ≠ []) (data : Bytes)
    (h : createMethodList theirs = some data) (m : α)
    (hm : methodByNameList ours lookup (some data) = .some m) :
    ∃ n ∈ theirs, n ∈ ours ∧ lookup n = some m ∧
      methodByName theirs lookup' (some n) = lookup' n := by
  rw [C27_first_common_method ours theirs lookup data hl h0 h] at hm
  cases hf : theirs.find? (· ∈ ours) with
  | none => simp [hf] at hm
  | some n =>
    have hn : n ∈ ours := by simpa using List.find?_some hf
    have hn' := List.mem_of_find?_eq_some hf
    obtain ⟨i, hi⟩ := hl n hn
    simp only [hf, hi, MethodChoice.some.injEq] at hm
    subst hm
    refine ⟨n, hn', hn, hi, ?_⟩
    simp only [methodByName]
    rw [takeWhile_self n (h0 n hn').1, if_pos hn']

example : createMethodList [[65, 66], [67], [68]] = some [65, 66, 0, 67, 0, 68] ∧
    methodByNameList [[68], [67]] (fun n => if n = [67] then some 1 else some 2)
      (some [65, 66, 0, 67, 0, 68]) = .some 1 := by decide +kernel

/-! ## C28 -/

/-- Space taken by records. -/
def spaceOf (rs : List (Nat × Bytes)) : Nat := (rs.map fun r => r.2.length + 4).sum

theorem encAll_length (rs : List (Nat × Bytes)) : (encAll rs).length = spaceOf rs := by
  induction rs with
  | nil => rfl
  | cons r rs ih =>
    have : (encAll (r :: rs)).length = (encRec r.1 r.2).length + (encAll rs).length := by
      simp [encAll]
    rw [this, ih, encRec_length]
    simp [spaceOf, recordLen]

theorem addAll_fits (avail : Nat) (rs : List (Nat × Bytes)) (n : Nat) (body : Bytes)
    (hb : body.length = n) (hfit : 4 + n + spaceOf rs ≤ avail) (hs : n + spaceOf rs < 65536) :
    addAll avail (header n ++ body) rs =
      some (header (n + spaceOf rs) ++ (body ++ encAll rs)) := by
  induction rs generalizing n body with
  | nil => simp [addAll, spaceOf, encAll]
  | cons r rs ih =>
    obtain ⟨t, d⟩ := r
    have e : spaceOf ((t, d) :: rs) = (d.length + 4) + spaceOf rs := by simp [spaceOf]
    rw [e] at hfit hs
    simp only [addAll, Option.bind_eq_bind]
    rw [add_header avail n body t d (by omega) (by unfold recordLen; omega) hb,
      if_neg (by unfold recordLen; omega)]
    simp only [Option.bind_some]
    unfold recordLen
    rw [ih _ _ (by simp [encRec_length, recordLen, hb]) (by omega) (by omega), e, Nat.add_assoc]
    simp [encAll]

/-- The records put in by `new_handshake`. -/
def baseRecords (c : Conf) (type : UInt8) (mtu : Nat) (method : Option Bytes)
    (methods : Option (List Bytes)) : List (Nat × Bytes) :=
  [(RECORD_HANDSHAKE_TYPE, [type]), (RECORD_FLAGS, [FLAG_L2TP_SUPPORT]), (RECORD_MODE, [c.modeId])]
  ++ (if mtu ≠ 0 then [(RECORD_MTU, leBytes 2 mtu)] else [])
  ++ [(RECORD_VERSION_NAME, c.version), (RECORD_PROTOCOL_NAME, c.protocolName)]
  ++ (match method, methods with
      | some m, none => [(RECORD_METHOD_NAME, m)]
      | _, _ => [])
  ++ (match methods with
      | some l => [(RECORD_METHOD_LIST, (createMethodList l).getD [])]
      | none => [])

/-- The space `new_handshake` reserves, header included. -/
def reserved (c : Conf) (mtu : Nat) (method : Option Bytes) (methods : Option (List Bytes))
    (tail : Nat) : Nat :=
  controlSize + headerSize + 4 * recordLen 1 + (if mtu ≠ 0 then recordLen 2 else 0) +
    recordLen c.version.length + recordLen c.protocolName.length +
    recordLen ((method.map List.length).getD 0) +
    recordLen (((methods.bind createMethodList).getD []).length) + tail

theorem addAll_append (avail : Nat) (x : Bytes) (a b : List (Nat × Bytes)) :
    addAll avail x (a ++ b) = (addAll avail x a).bind fun y => addAll avail y b := by
  induction a generalizing x with
  | nil => rfl
  | cons c a ih =>
    simp only [List.cons_append, addAll, Option.bind_eq_bind, Option.bind_assoc]
    congr 1
    funext y
    exact ih y

theorem space_base (c : Conf) (type : UInt8) (mtu : Nat) (method : Option Bytes)
    (methods : Option (List Bytes)) (tail : Nat) :
    controlSize + headerSize + spaceOf (baseRecords c type mtu method methods) + 5 + tail ≤
      reserved c mtu method methods tail := by
  unfold baseRecords reserved spaceOf controlSize headerSize recordLen
  rcases method with _ | m <;> rcases methods with _ | l <;> by_cases h : mtu = 0 <;>
    simp [h, leBytes] <;> omega

/-- `new_handshake` in terms of records. -/
theorem newHandshake_eq (c : Conf) (mb : Nat) (type : UInt8) (mtu : Nat) (method : Option Bytes)
    (methods : Option (List Bytes)) (tail : Nat) (hne : methods ≠ some [])
    (h1 : reserved c mtu method methods tail ≤ MAX_HANDSHAKE_SIZE)
    (h2 : (reserved c mtu method methods tail + 15) / 16 * 16 ≤ mb) :
    newHandshake c mb type mtu method methods tail =
      (addAll (mb - controlSize) emptyPacket (baseRecords c type mtu method methods)).map
        fun p => (p, mb - controlSize) := by
  unfold newHandshake
  have hml : ∀ l, createMethodList (l : List Bytes) = none → l = [] := by
    intro l; unfold createMethodList; split <;> simp_all
  unfold reserved at h1 h2
  have hid : ∀ (x : Option Bytes) (k : Nat),
      (x.bind fun p => some (p, k)) = x.map fun p => (p, k) := by
    intro x k; cases x <;> rfl
  rcases methods with _ | l
  · simp only [Option.bind_eq_bind, Option.bind_some, Option.bind_none, Option.getD_none] at *
    rw [if_neg (by omega), if_neg (by omega)]
    unfold baseRecords
    rcases method with _ | m <;> by_cases h : mtu = 0 <;>
      simp [h, addAll, addUint8, addUint16, Option.map_bind, hid]
  · cases hl : createMethodList l with
    | none => exact absurd (hml l hl) (by rintro rfl; exact hne rfl)
    | some d =>
      simp only [Option.bind_eq_bind, Option.bind_some, hl, Option.getD_some] at h1 h2 ⊢
      rw [if_neg (by omega), if_neg (by omega)]
      unfold baseRecords
      rcases method with _ | m <;> by_cases h : mtu = 0 <;>
        simp [h, hl, addAll, addUint8, addUint16, Option.map_bind, hid]

/-- **C28.** Whenever the handshake with its announced tail space is within the limit (otherwise
fastd stops, `C28_oversized_refused`) and the buffer size is at least the limit, building it cannot
run out of space: `new_handshake`, the reply code and any further records within the announced tail
space all fit, the packet (with the 12 byte control header) is at most 1232 bytes long and at most
the space reserved, and its length field is exactly the size of the records. -/
theorem C28_handshake_fits (c : Conf) (mb : Nat) (type : UInt8) (mtu : Nat)
    (method : Option Bytes) (methods : Option (List Bytes)) (tail : Nat) (reply : Bool)
    (rs : List (Nat × Bytes)) (hne : methods ≠ some [])
    (h1 : reserved c mtu method methods tail ≤ MAX_HANDSHAKE_SIZE) (h2 : 1232 ≤ mb)
    (hrs : spaceOf rs ≤ tail) :
    ∃ pkt avail pkt',
      (if reply then newReply c mb type mtu method methods tail
        else newHandshake c mb type mtu method methods tail) = some (pkt, avail) ∧
      addAll avail pkt rs = some pkt' ∧
      controlSize + pkt'.length ≤ reserved c mtu method methods tail ∧
      controlSize + pkt'.length ≤ MAX_HANDSHAKE_SIZE ∧
      tlvLen pkt' = some (pkt'.length - 4) := by
  have hsp := space_base c type mtu method methods tail
  unfold MAX_HANDSHAKE_SIZE at h1 ⊢
  unfold controlSize headerSize at hsp
  have heq := newHandshake_eq c mb type mtu method methods tail hne
    (by unfold MAX_HANDSHAKE_SIZE; exact h1) (by omega)
  have hem : emptyPacket = header 0 ++ [] := rfl
  have hb := addAll_fits (mb - controlSize) (baseRecords c type mtu method methods) 0 [] rfl
    (by unfold controlSize; omega) (by omega)
  rw [← hem] at hb
  simp only [Nat.zero_add, List.nil_append] at hb
  rw [hb] at heq
  simp only [Option.map_some] at heq
  set B := baseRecords c type mtu method methods
  have hBl := encAll_length B
  cases reply with
  | false =>
    refine ⟨_, _, _, heq, addAll_fits (mb - controlSize) rs (spaceOf B) (encAll B) hBl
      (by unfold controlSize; omega) (by omega), ?_, ?_, ?_⟩
    · simp [header, encAll_length, controlSize]; omega
    · simp [header, encAll_length, controlSize]; omega
    · rw [tlvLen_header _ _ (by omega)]
      simp [header, encAll_length]
  | true =>
    have hr := addAll_fits (mb - controlSize) [(RECORD_REPLY_CODE, [(0 : UInt8)])] (spaceOf B)
      (encAll B) hBl (by unfold controlSize; simp [spaceOf] at *; omega)
      (by simp [spaceOf] at *; omega)
    have h5 : spaceOf [(RECORD_REPLY_CODE, [(0 : UInt8)])] = 5 := rfl
    rw [h5] at hr
    simp only [addAll, Option.bind_eq_bind] at hr
    rw [Option.bind_fun_some] at hr
    refine ⟨_, _, _, ?_, addAll_fits (mb - controlSize) rs (spaceOf B + 5) (encAll B ++
      encAll [(RECORD_REPLY_CODE, [(0 : UInt8)])]) (by simp [hBl, encAll_length, h5])
      (by unfold controlSize; omega) (by omega), ?_, ?_, ?_⟩
    · simp only [if_true, newReply, heq, Option.bind_eq_bind, Option.bind_some, addUint8, hr,
        Option.pure_def]
    · simp [header, encAll_length, controlSize, h5]; omega
    · simp [header, encAll_length, controlSize, h5]; omega
    · rw [tlvLen_header _ _ (by omega)]
      simp [header, encAll_length, h5]; omega

/-- **C28.** A handshake that would exceed the limit is never built. -/
theorem C28_oversized_refused (c : Conf) (mb : Nat) (type : UInt8) (mtu : Nat)
    (method : Option Bytes) (methods : Option (List Bytes)) (tail : Nat) (hne : methods ≠ some [])
    (h1 : MAX_HANDSHAKE_SIZE < reserved c mtu method methods tail) :
    newHandshake c mb type mtu method methods tail = none := by
  unfold newHandshake
  unfold reserved at h1
  rcases methods with _ | l
  · simp only [Option.bind_eq_bind, Option.bind_some, Option.bind_none, Option.getD_none] at *
    rw [if_pos (by omega)]
  · cases hl : createMethodList l with
    | none => simp [hl]
    | some d =>
      simp only [Option.bind_eq_bind, Option.bind_some, hl, Option.getD_some] at *
      rw [if_pos (by omega)]

/-- **C28.** Error replies always fit. -/
theorem C28_error_fits (mb : Nat) (type code : UInt8) (detail : Nat) (h : 1232 ≤ mb)
    (hd : detail < 16) :
    ∃ pkt, errorPacket mb type code detail = some pkt ∧ pkt.length = 24 ∧
      tlvLen pkt = some 20 ∧ pkt = header 20 ++ encAll [(RECORD_HANDSHAKE_TYPE, [type + 1]),
        (RECORD_FLAGS, [FLAG_L2TP_SUPPORT]), (RECORD_REPLY_CODE, [code]),
        (RECORD_ERROR_DETAIL, [.ofNat detail])] := by
  have hem : emptyPacket = header 0 ++ [] := rfl
  have hb := addAll_fits (mb - controlSize) [(RECORD_HANDSHAKE_TYPE, [type + 1]),
        (RECORD_FLAGS, [FLAG_L2TP_SUPPORT]), (RECORD_REPLY_CODE, [code]),
        (RECORD_ERROR_DETAIL, [.ofNat detail])] 0 [] rfl
    (by simp [spaceOf, controlSize]; omega) (by simp [spaceOf])
  rw [← hem] at hb
  simp only [addAll, Option.bind_eq_bind, Option.bind_fun_some] at hb
  have hw : leBytes (uintWidth detail) detail = [.ofNat detail] := by
    unfold uintWidth leBytes
    rw [if_neg (by omega), if_neg (by omega), if_neg (by omega)]
    rfl
  refine ⟨_, ?_, ?_, ?_, rfl⟩
  · unfold errorPacket
    simp only [Option.bind_eq_bind, addUint8, addUint, hw]
    rw [if_neg (by simp [controlSize, headerSize, recordLen]; omega)]
    exact hb
  · rfl
  · rfl

/-- Concrete sizes: protocol `ec25519-fhmqvc`, a three character version, the records of a reply
with four keys and a MAC (tail space 180), one method name of 24 characters. -/
example : reserved ⟨List.replicate 14 101, List.replicate 3 118, false⟩ 1426 none
    (some [List.replicate 24 97]) 180 = 279 := by decide

/-! ## C29, C30 -/

/-- The value of record `t` of a received packet (specification; `none` if there is no such record).
C24 and C25 say what this is for well-formed and for arbitrary packets. -/
def field (pkt : Bytes) (t : Nat) : Option Bytes :=
  (parseTlvs pkt).bind fun p => recBytes pkt (p.recs t)

/-- What should happen to a handshake packet, in terms of its fields only. -/
inductive Judgement
  | ignore
  | error (type flags : UInt8) (detail : Nat)
  | accept (type flags : UInt8)
deriving DecidableEq

/-- Specification of the acceptance rules: the handshake type is a single byte; a packet without
control header whose sender supports L2TP headers is ignored; a flags field must be a single byte
0 or 1; a protocol name must be ours; a mode must be ours; replies (type above 1) must carry the
single byte reply code 0. The first violated rule counts. -/
def judge (c : Conf) (hasControl : Bool) (f : Nat → Option Bytes) : Judgement :=
  match f 0 with
  | some [type] =>
    let flags := ((f 3).bind List.head?).getD 0
    if hasControl = false ∧ flags.toNat % 2 = 1 then .ignore
    else if ¬ (f 3 = none ∨ f 3 = some [0] ∨ f 3 = some [1]) then .error type flags 3
    else if ¬ ∀ p, f 5 = some p → p.takeWhile (· ≠ 0) = c.protocolName then .error type flags 5
    else if ¬ ∀ m, f 4 = some m → m = [if c.modeTun then 1 else 0] then .error type flags 4
    else if 1 < type ∧ f 1 ≠ some [0] then .ignore
    else .accept type flags
  | _ => .ignore

/-- The observable part of an outcome. -/
def Outcome.view : Outcome → Judgement
  | .drop => .ignore
  | .error t f _ d => .error t f d
  | .pass hs => .accept hs.type hs.flags

/-- A C string comparison against a buffer that need not be terminated is equality with the part of
the buffer before the first NUL byte. -/
theorem stringEqual_iff (name buf : Bytes) (h0 : (0 : UInt8) ∉ name) :
    stringEqual name buf = true ↔ buf.takeWhile (· ≠ 0) = name := by
  unfold stringEqual
  have key : ∀ (name buf : Bytes), (0 : UInt8) ∉ name →
      (strncmpEq name buf = true ∧ strnlen buf = name.length ↔ buf.takeWhile (· ≠ 0) = name) := by
    intro name buf
    induction buf generalizing name with
    | nil =>
      intro _
      simp only [strncmpEq, strnlen, List.takeWhile_nil, List.length_nil, true_and]
      rw [eq_comm, List.length_eq_zero_iff, eq_comm]
    | cons b bs ih =>
      intro h0
      unfold strncmpEq strnlen
      by_cases hb : b = 0
      · subst hb
        simp only [ne_eq, not_true_eq_false, decide_false, Bool.false_eq_true, not_false_eq_true,
          List.takeWhile_cons_of_neg, List.length_nil]
        rcases name with _ | ⟨c, cs⟩
        · simp
        · have : ¬ c = 0 := by rintro rfl; simp at h0
          simp [this]
      · rw [List.takeWhile_cons_of_pos (by simpa using hb)]
        rcases name with _ | ⟨c, cs⟩
        · have : ¬ (0 : UInt8) = b := fun h => hb h.symm
          simp [this]
        · have h0' : (0 : UInt8) ∉ cs := fun h => h0 (List.mem_cons_of_mem _ h)
          have := ih cs h0'
          unfold strnlen at this
          by_cases hc : c = b
          · subst hc
            simp only [List.headD_cons, ne_eq, not_true_eq_false, if_false, hb, List.tail_cons,
              List.length_cons, Nat.add_right_cancel_iff, this, List.cons.injEq, true_and]
          · simp [hc, Ne.symm hc]
  have := key name buf h0
  rw [eq_comm (a := strnlen buf)] at this
  simpa [and_comm] using this

/-- A parsed record and the value it denotes. -/
theorem rec_view {pkt : Bytes} {r : Rec} (h : RecIn 8 pkt.length r) :
    (r.data = none ∧ r.length = 0 ∧ recBytes pkt r = none) ∨
    ∃ v, recBytes pkt r = some v ∧ r.data.isSome = true ∧ r.length = v.length ∧
      (v ≠ [] → asUint8 pkt r = v.head?) ∧ (∃ n, asUint pkt r = some n) := by
  cases hd : r.data with
  | none => exact Or.inl ⟨rfl, h.absent hd, by simp [recBytes, hd]⟩
  | some off =>
    right
    obtain ⟨v, h1, h2, h3⟩ := recBytes_ok h (by simp [hd])
    refine ⟨v, h1, rfl, h2.symm, ?_, ⟨_, C26_read_uint pkt r v h1⟩⟩
    intro hv
    have : 0 < v.length := List.length_pos_iff.2 hv
    unfold asUint8
    rw [h3 0 (by omega)]
    cases v <;> simp_all

theorem len_one {v : Bytes} : v.length = 1 ↔ ∃ b, v = [b] := List.length_eq_one_iff

theorem forall_u8 {P : UInt8 → Prop} (h : ∀ n : Fin 256, P (UInt8.ofNat n.val)) (b : UInt8) : P b := by
  have := h ⟨b.toNat, b.toNat_lt⟩
  simpa using this

theorem flag_odd (b : UInt8) : (b &&& FLAG_L2TP_SUPPORT ≠ (0 : UInt8)) ↔ b.toNat % 2 = 1 :=
  forall_u8 (P := fun b => (b &&& FLAG_L2TP_SUPPORT ≠ (0 : UInt8)) ↔ b.toNat % 2 = 1)
    (by decide +kernel) b

theorem flag_known (b : UInt8) : (b &&& ~~~FLAG_ALL ≠ (0 : UInt8)) ↔ ¬ (b = 0 ∨ b = 1) :=
  forall_u8 (P := fun b => (b &&& ~~~FLAG_ALL ≠ (0 : UInt8)) ↔ ¬ (b = 0 ∨ b = 1))
    (by decide +kernel) b

theorem flags_read {pkt : Bytes} {r : Rec} (h : RecIn 8 pkt.length r) :
    readFlags pkt r = some (((recBytes pkt r).bind List.head?).getD 0) := by
  unfold readFlags
  rcases rec_view h with ⟨_, a, b⟩ | ⟨v, a1, _, a3, a4, _⟩
  · simp [a, b]
  · rw [a1, a3]
    rcases v with _ | ⟨x, l⟩
    · simp
    · simpa using a4

theorem flags_bad {pkt : Bytes} {r : Rec} (h : RecIn 8 pkt.length r) :
    (r.data.isSome = true ∧ (r.length ≠ 1 ∨
      (((recBytes pkt r).bind List.head?).getD 0) &&& ~~~FLAG_ALL ≠ (0 : UInt8))) ↔
    ¬ (recBytes pkt r = none ∨ recBytes pkt r = some [0] ∨ recBytes pkt r = some [1]) := by
  rw [flag_known]
  rcases rec_view h with ⟨d, a, b⟩ | ⟨v, a1, a2, a3, _⟩
  · simp [b, d]
  · rw [a1, a3, a2]
    rcases v with _ | ⟨x, _ | ⟨y, l⟩⟩ <;> simp

theorem proto_bad (c : Conf) (h0 : (0 : UInt8) ∉ c.protocolName) {pkt : Bytes} {r : Rec}
    (h : RecIn 8 pkt.length r) :
    ∃ b, badProtocol c pkt r = some b ∧
      (b = true ↔ ¬ ∀ p, recBytes pkt r = some p → p.takeWhile (· ≠ 0) = c.protocolName) := by
  unfold badProtocol
  rcases rec_view h with ⟨d, a, b⟩ | ⟨v, a1, a2, a3, _⟩
  · exact ⟨false, by simp [d], by simp [b]⟩
  · refine ⟨!stringEqual c.protocolName v, by simp [a1, a2], ?_⟩
    have := stringEqual_iff c.protocolName v h0
    rw [a1]
    simp only [Option.some.injEq, forall_eq', ← this]
    simp

theorem mode_bad (c : Conf) {pkt : Bytes} {r : Rec} (h : RecIn 8 pkt.length r) :
    ∃ b, badMode c pkt r = some b ∧
      (b = true ↔ ¬ ∀ m, recBytes pkt r = some m → m = [if c.modeTun then 1 else 0]) := by
  unfold badMode
  rcases rec_view h with ⟨d, a, b⟩ | ⟨v, a1, a2, a3, a4, _⟩
  · exact ⟨false, by simp [d], by simp [b]⟩
  · rw [a1, a2, a3]
    rcases v with _ | ⟨x, _ | ⟨y, l⟩⟩
    · exact ⟨true, by simp, by simp⟩
    · refine ⟨decide (x ≠ c.modeId), by simp [a4 (by simp)], ?_⟩
      rw [decide_eq_true_iff]
      simp [Conf.modeId]
    · exact ⟨true, by simp, by simp⟩

theorem reply_check {pkt : Bytes} {r e : Rec} (h : RecIn 8 pkt.length r)
    (he : RecIn 8 pkt.length e) :
    checkReply pkt r e =
    if recBytes pkt r ≠ some [0] then some (some .drop) else some none := by
  unfold checkReply
  rcases rec_view h with ⟨d, a, b⟩ | ⟨v, a1, a2, a3, a4, _⟩
  · simp [a, b]
  · rw [a1, a3]
    rcases v with _ | ⟨x, _ | ⟨y, l⟩⟩
    · simp
    · rw [if_neg (by simp), a4 (by simp)]
      simp only [List.head?_cons, Option.bind_some, REPLY_SUCCESS]
      by_cases hx : x = 0
      · simp [hx]
      · simp only [ne_eq, hx, not_false_eq_true, if_true, Option.some.injEq, List.cons.injEq,
          and_true]
        rcases rec_view he with ⟨_, ea, _⟩ | ⟨ev, _, _, _, _, n, en⟩
        · simp [ea]
        · simp [en]
    · simp

/-- **C30 (and C25).** For every byte string, `fastd_handshake_handle` does exactly what the
acceptance rules say; in particular it never reads outside the packet. The MTU and the records
that are mandatory for the key exchange are checked by the protocol, see `C30_protocol`. -/
theorem C30_handshake_rules (c : Conf) (hasControl : Bool) (pkt : Bytes)
    (h0 : (0 : UInt8) ∉ c.protocolName) :
    ∃ o, handle c hasControl pkt = some o ∧ o.view = judge c hasControl (field pkt) := by
  obtain ⟨p, h1, h2, h3, h4, _⟩ := parseTlvs_safe pkt
  have hf : ∀ t, field pkt t = recBytes pkt (p.recs t) := by intro t; simp [field, h1]
  unfold handle
  simp only [h1, Option.bind_eq_bind, Option.bind_some]
  cases hv : p.valid with
  | false =>
    refine ⟨.drop, by simp, ?_⟩
    simp [judge, hf, recBytes, h4 hv, Outcome.view]
  | true =>
    simp only [not_true_eq_false, if_false]
    unfold judge
    rw [hf 0]
    rcases rec_view (h2 RECORD_HANDSHAKE_TYPE) with ⟨_, a, b⟩ | ⟨tv, a1, a2, a3, a4, _⟩
    · refine ⟨.drop, by simp [a], ?_⟩
      unfold RECORD_HANDSHAKE_TYPE at b
      simp [b, Outcome.view]
    by_cases htl : tv.length = 1
    swap
    · refine ⟨.drop, by simp [a3, htl], ?_⟩
      unfold RECORD_HANDSHAKE_TYPE at a1
      rw [a1]
      rcases tv with _ | ⟨x, _ | ⟨y, z⟩⟩ <;> simp_all [Outcome.view]
    obtain ⟨type, rfl⟩ := len_one.1 htl
    rw [if_neg (by simp [a3]), a4 (by simp)]
    unfold RECORD_HANDSHAKE_TYPE at a1
    rw [hf 1, hf 3, hf 4, hf 5]
    simp only [a1, List.head?_cons, Option.bind_some]
    have fr := flags_read (h2 RECORD_FLAGS)
    unfold RECORD_FLAGS at fr ⊢
    rw [fr]
    simp only [Option.bind_some]
    have fb := flags_bad (h2 3)
    set flags := ((recBytes pkt (p.recs 3)).bind List.head?).getD 0 with hflags
    have fo := flag_odd flags
    by_cases c1 : hasControl = false ∧ flags.toNat % 2 = 1
    · rw [if_pos ⟨by simp [c1.1], fo.2 c1.2⟩, if_pos c1]
      exact ⟨_, rfl, rfl⟩
    rw [if_neg (fun h => c1 ⟨by simpa using h.1, fo.1 h.2⟩), if_neg c1]
    unfold checkRecords
    simp only [Option.bind_eq_bind]
    unfold RECORD_FLAGS
    by_cases c2 : ¬ (recBytes pkt (p.recs 3) = none ∨ recBytes pkt (p.recs 3) = some [0] ∨
        recBytes pkt (p.recs 3) = some [1])
    · rw [if_pos (fb.2 c2), if_pos c2]
      exact ⟨_, rfl, rfl⟩
    rw [if_neg (fun h => c2 (fb.1 h)), if_neg c2]
    obtain ⟨pb, pb1, pb2⟩ := proto_bad c h0 (h2 5)
    unfold RECORD_PROTOCOL_NAME
    rw [pb1]
    simp only [Option.bind_some]
    by_cases c3 : ¬ ∀ q, recBytes pkt (p.recs 5) = some q → q.takeWhile (· ≠ 0) = c.protocolName
    · rw [if_pos (pb2.2 c3), if_pos c3]
      exact ⟨_, rfl, rfl⟩
    rw [if_neg (fun h => c3 (pb2.1 h)), if_neg c3]
    obtain ⟨mb, mb1, mb2⟩ := mode_bad c (h2 4)
    unfold RECORD_MODE
    rw [mb1]
    simp only [Option.bind_some]
    by_cases c4 : ¬ ∀ m, recBytes pkt (p.recs 4) = some m → m = [if c.modeTun then 1 else 0]
    · rw [if_pos (mb2.2 c4), if_pos c4]
      exact ⟨_, rfl, rfl⟩
    rw [if_neg (fun h => c4 (mb2.1 h)), if_neg c4]
    have rc := reply_check (h2 1) (h2 2)
    have hv : ∃ v, readVersion pkt type (p.recs RECORD_VERSION_NAME) = some v := by
      unfold readVersion
      rcases rec_view (h2 RECORD_VERSION_NAME) with ⟨d, _, _⟩ | ⟨v, vb, _⟩
      · exact ⟨none, by simp [d]⟩
      · rw [vb]; split <;> simp
    obtain ⟨v, hv⟩ := hv
    unfold RECORD_REPLY_CODE RECORD_ERROR_DETAIL
    by_cases ct : 1 < type
    · rw [if_pos ct, rc]
      by_cases c5 : recBytes pkt (p.recs 1) = some [0]
      · rw [if_neg (by simpa using c5), if_neg (by simp [c5])]
        simp only [Option.bind_some, hv]
        exact ⟨_, rfl, rfl⟩
      · rw [if_pos c5, if_pos ⟨ct, c5⟩]
        exact ⟨_, rfl, rfl⟩
    · rw [if_neg ct, if_neg (fun h => ct h.1)]
      simp only [Option.bind_some, hv]
      exact ⟨_, rfl, rfl⟩

/-- The fields of a packet built from records. -/
theorem field_enc (rs : List (Nat × Bytes)) (hs : spaceOf rs < 65536) (ht : ∀ r ∈ rs, r.1 < 65536)
    (t : Nat) (h : t < 16) : field (header (spaceOf rs) ++ encAll rs) t = lastRec rs t := by
  have hb := addAll_fits 65539 rs 0 [] rfl (by omega) (by omega)
  simp only [Nat.zero_add, List.nil_append] at hb
  obtain ⟨p, h1, _, _, h4⟩ := C24_tlv_round_trip 65539 rs _ (by omega) ht hb
  have := h4 t h
  unfold field
  rw [h1, Option.bind_some]
  cases hl : lastRec rs t with
  | some d => rw [hl] at this; exact this.1
  | none => rw [hl] at this; rw [this]; rfl

/-- The fields of an error reply. -/
theorem field_errorPacket (mb : Nat) (type code : UInt8) (detail : Nat) (h : 1232 ≤ mb)
    (hd : detail < 16) (pkt : Bytes) (hp : errorPacket mb type code detail = some pkt) :
    field pkt 0 = some [type + 1] ∧ field pkt 1 = some [code] ∧ field pkt 2 = some [.ofNat detail] ∧
    field pkt 3 = some [1] ∧ ∀ t, 4 ≤ t → t < 16 → field pkt t = none := by
  obtain ⟨q, h1, _, _, h2⟩ := C28_error_fits mb type code detail h hd
  rw [hp, Option.some.injEq] at h1
  rw [h1, h2]
  have hf := field_enc [(RECORD_HANDSHAKE_TYPE, [type + 1]), (RECORD_FLAGS, [FLAG_L2TP_SUPPORT]),
    (RECORD_REPLY_CODE, [code]), (RECORD_ERROR_DETAIL, [.ofNat detail])] (by simp [spaceOf])
    (by simp [RECORD_HANDSHAKE_TYPE, RECORD_FLAGS, RECORD_REPLY_CODE, RECORD_ERROR_DETAIL])
  have h20 : ∀ a b c d : UInt8, spaceOf [(RECORD_HANDSHAKE_TYPE, [a]), (RECORD_FLAGS, [b]),
    (RECORD_REPLY_CODE, [c]), (RECORD_ERROR_DETAIL, [d])] = 20 := fun _ _ _ _ => rfl
  rw [h20] at hf
  refine ⟨hf 0 (by omega), hf 1 (by omega), hf 2 (by omega), hf 3 (by omega), ?_⟩
  intro t h4 h16
  rw [hf t h16]
  simp only [lastRec, RECORD_HANDSHAKE_TYPE, RECORD_FLAGS, RECORD_REPLY_CODE, RECORD_ERROR_DETAIL]
  simp
  omega

/-- What an incoming handshake packet is answered with before the key exchange proper is entered:
the datagrams of the error reply. -/
def errorReplies (c : Conf) (mb : Nat) (hasControl : Bool) (pkt : Bytes) : Option (List Bytes) :=
  match handle c hasControl pkt with
  | none => none
  | some (.error type flags code detail) =>
    (errorPacket mb type code detail).map fun q => sendFree q (some flags)
  | some _ => some []

/-- **C29.** An error reply sent by fastd (whatever packet caused it, whatever type it carries) is
never answered by the record checks of any fastd, and is either ignored or reaches the key exchange
without a sender key; packets without a sender key are ignored there (`C29_no_sender_key_silent`). -/
theorem C29_error_reply_not_answered (c : Conf) (mb mb' : Nat) (type code : UInt8) (detail : Nat)
    (h : 1232 ≤ mb) (hd : detail < 16) (h0 : (0 : UInt8) ∉ c.protocolName) (pkt : Bytes)
    (hp : errorPacket mb type code detail = some pkt) (hasControl : Bool) :
    errorReplies c mb' hasControl pkt = some [] ∧ field pkt RECORD_SENDER_KEY = none ∧
    (code ≠ 0 → type ≠ 0 → type ≠ 255 → handle c hasControl pkt = some .drop) := by
  obtain ⟨f0, f1, f2, f3, f4⟩ := field_errorPacket mb type code detail h hd pkt hp
  obtain ⟨o, ho, hv⟩ := C30_handshake_rules c hasControl pkt h0
  have hj : judge c hasControl (field pkt) =
      if hasControl = false then .ignore
      else if 1 < type + 1 ∧ code ≠ 0 then .ignore else .accept (type + 1) 1 := by
    simp [judge, f0, f1, f3, f4 4 (by omega) (by omega), f4 5 (by omega) (by omega)]
  rw [hj] at hv
  refine ⟨?_, f4 _ (by decide) (by decide), ?_⟩
  · unfold errorReplies
    rw [ho]
    cases o with
    | error t f cc d => simp only [Outcome.view] at hv; split at hv <;> [skip; split at hv] <;> simp at hv
    | drop => rfl
    | pass hs => rfl
  · intro hc ht0 ht255
    have : (1 : UInt8) < type + 1 := by
      revert ht0 ht255
      exact forall_u8 (P := fun t => t ≠ 0 → t ≠ 255 → (1 : UInt8) < t + 1) (by decide +kernel) type
    rw [if_pos (c := 1 < type + 1 ∧ code ≠ 0) ⟨this, hc⟩, ite_self] at hv
    cases o <;> simp [Outcome.view] at hv
    exact ho

/-- **C29.** Any packet that is a well-formed error reply (reply type, non-zero code, acceptable
flags, protocol and mode if present) is silently dropped, whoever made it. What is missing to the
full claim: error replies with an unacceptable flags, protocol or mode record are answered once, see
`C29_any_error_reply_false`; that answer is then never answered
(`C29_error_reply_not_answered`), so no chain is longer than one answer. -/
theorem C29_incoming_error_dropped_partial (c : Conf) (pkt : Bytes) (hasControl : Bool)
    (h0 : (0 : UInt8) ∉ c.protocolName) (type code : UInt8)
    (ht : field pkt 0 = some [type]) (ht1 : 1 < type) (hc : field pkt 1 = some [code])
    (hc0 : code ≠ 0) (hfl : field pkt 3 = none ∨ field pkt 3 = some [0] ∨ field pkt 3 = some [1])
    (hp : ∀ p, field pkt 5 = some p → p.takeWhile (· ≠ 0) = c.protocolName)
    (hm : ∀ m, field pkt 4 = some m → m = [if c.modeTun then 1 else 0]) :
    handle c hasControl pkt = some .drop := by
  obtain ⟨o, ho, hv⟩ := C30_handshake_rules c hasControl pkt h0
  have hj : judge c hasControl (field pkt) = .ignore := by
    unfold judge
    simp only [ht]
    split
    · rfl
    · rw [if_pos ⟨ht1, by simpa [hc] using hc0⟩]
  rw [hj] at hv
  cases o <;> simp [Outcome.view] at hv
  exact ho

/-- **C29, finding.** The claim is false for arbitrary error replies: this one (type 2, reply code 2,
flags 3) is answered by an error. -/
theorem C29_any_error_reply_false :
    ∃ (c : Conf) (pkt : Bytes), field pkt 0 = some [2] ∧ field pkt 1 = some [2] ∧
      (errorReplies c 1232 true pkt).map List.length = some 1 :=
  ⟨⟨[97], [98], false⟩, [1, 0, 0, 15, 0, 0, 1, 0, 2, 1, 0, 1, 0, 2, 3, 0, 1, 0, 3],
    by decide +kernel, by decide +kernel, by decide +kernel⟩

/-- **C29.** Chains of errors end: whatever packet is received, the error replies it causes cause no
further ones, at any node. -/
theorem C29_no_chain (c c' : Conf) (mb mb' : Nat) (b b' : Bool) (pkt : Bytes) (h : 1232 ≤ mb)
    (h0 : (0 : UInt8) ∉ c.protocolName) (h0' : (0 : UInt8) ∉ c'.protocolName) :
    ∃ rs, errorReplies c mb b pkt = some rs ∧
      ∀ d ∈ rs, ∃ q, (d = q ∨ d = controlHeader ++ q) ∧ errorReplies c' mb' b' q = some [] := by
  obtain ⟨o, ho, hv⟩ := C30_handshake_rules c b pkt h0
  unfold errorReplies
  rw [ho]
  cases o with
  | drop => exact ⟨[], rfl, by simp⟩
  | pass hs => exact ⟨[], rfl, by simp⟩
  | error t f code detail =>
    have hd : detail < 16 := by
      simp only [Outcome.view, judge] at hv
      split at hv
      · repeat' split at hv
        all_goals simp_all
      · simp at hv
    obtain ⟨q, hq, _⟩ := C28_error_fits mb t code detail h hd
    refine ⟨sendFree q (some f), by simp [hq], ?_⟩
    intro d hdm
    refine ⟨q, ?_, (C29_error_reply_not_answered c' mb mb' t code detail h hd h0' q hq b').1⟩
    unfold sendFree at hdm
    rw [List.mem_append] at hdm
    rcases hdm with h | h <;> split at h <;> simp_all

/-- Non-trivial cases of the rules: a packet with protocol `a` and mode 0 is accepted, with protocol
`b` it is answered with an error naming the protocol record. -/
example : (handle ⟨[97], [98], false⟩ true
    [1, 0, 0, 15, 0, 0, 1, 0, 1, 4, 0, 1, 0, 0, 5, 0, 1, 0, 97]).map Outcome.view =
      some (.accept 1 0) ∧
    (handle ⟨[97], [98], false⟩ true
    [1, 0, 0, 15, 0, 0, 1, 0, 1, 4, 0, 1, 0, 0, 5, 0, 1, 0, 98]).map Outcome.view =
      some (.error 1 0 5) := by decide +kernel

end Fastd.Handshake
