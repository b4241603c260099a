import Verif.Handshake.Codec
import Mathlib.Tactic.Common
import Mathlib.Tactic.Linarith
import Mathlib.Tactic.Ring

/-! Helper lemmas about the handshake codec. -/

namespace Fastd.Handshake

/-- A record descriptor that is either absent or lies inside `[lo, hi)`. -/
structure RecIn (lo hi : Nat) (r : Rec) : Prop where
  inside : ∀ off, r.data = some off → lo ≤ off ∧ off + r.length ≤ hi
  absent : r.data = none → r.length = 0

theorem getElem?_some_of_lt {l : List UInt8} {i : Nat} (h : i < l.length) :
    ∃ b, l[i]? = some b := ⟨l[i], List.getElem?_eq_getElem h⟩

theorem parseLoop_safe (pkt : Bytes) (end_ lo : Nat) (hend : end_ ≤ pkt.length) (fuel : Nat) :
    ∀ (ptr : Nat) (recs : Recs), lo ≤ ptr + 4 → ptr ≤ end_ → end_ + 1 ≤ ptr + fuel →
      (∀ t, RecIn lo end_ (recs t)) →
      ∃ recs', parseLoop pkt end_ fuel ptr recs = some recs' ∧ (∀ t, RecIn lo end_ (recs' t)) ∧
        ∀ t, 16 ≤ t → recs' t = recs t := by
  induction fuel with
  | zero =>
    intro ptr recs _ hle hf _
    omega
  | succ fuel ih =>
    intro ptr recs hlo hle hf hr
    unfold parseLoop
    by_cases h1 : ptr + 4 > end_
    · rw [if_pos h1]; exact ⟨recs, rfl, hr, fun _ _ => rfl⟩
    · rw [if_neg h1]
      obtain ⟨b0, e0⟩ := getElem?_some_of_lt (l := pkt) (i := ptr) (by omega)
      obtain ⟨b1, e1⟩ := getElem?_some_of_lt (l := pkt) (i := ptr + 1) (by omega)
      obtain ⟨b2, e2⟩ := getElem?_some_of_lt (l := pkt) (i := ptr + 2) (by omega)
      obtain ⟨b3, e3⟩ := getElem?_some_of_lt (l := pkt) (i := ptr + 3) (by omega)
      simp only [e0, e1, e2, e3, Option.bind_eq_bind, Option.bind_some, Option.pure_def]
      generalize b0.toNat + b1.toNat <<< 8 = type
      generalize b2.toNat + b3.toNat <<< 8 = len
      by_cases h2 : ptr + recordLen len > end_
      · rw [if_pos h2]; exact ⟨recs, rfl, hr, fun _ _ => rfl⟩
      · rw [if_neg h2]
        unfold recordLen at h2 ⊢
        obtain ⟨r', h3, h4, h5⟩ := ih (ptr + (len + 4))
          (if type < RECORD_MAX then setRec recs type ⟨len, some (ptr + 4)⟩ else recs)
          (by omega) (by omega) (by omega) (by
            intro t
            split
            · unfold setRec
              split
              · constructor
                · intro off h; simp only [Option.some.injEq] at h; subst h
                  simp only []
                  omega
                · simp
              · exact hr t
            · exact hr t)
        refine ⟨r', h3, h4, ?_⟩
        intro t ht
        rw [h5 t ht]
        split
        · rename_i hty
          unfold setRec
          rw [if_neg]
          unfold RECORD_MAX at hty
          omega
        · rfl

theorem tlvLen_some {pkt : Bytes} (h : 4 ≤ pkt.length) : ∃ n, tlvLen pkt = some n := by
  obtain ⟨b2, e2⟩ := getElem?_some_of_lt (l := pkt) (i := 2) (by omega)
  obtain ⟨b3, e3⟩ := getElem?_some_of_lt (l := pkt) (i := 3) (by omega)
  exact ⟨_, by simp [tlvLen, e2, e3]; rfl⟩

theorem parseTlvs_safe (pkt : Bytes) :
    ∃ p, parseTlvs pkt = some p ∧ (∀ t, RecIn 8 pkt.length (p.recs t)) ∧
      (p.valid = true → headerSize + p.tlvLen ≤ pkt.length ∧ tlvLen pkt = some p.tlvLen ∧
        ∀ t, RecIn 8 (headerSize + p.tlvLen) (p.recs t)) ∧
      (p.valid = false → ∀ t, p.recs t = ⟨0, none⟩) ∧
      (p.valid = true ↔ ∃ n, tlvLen pkt = some n ∧ headerSize + n ≤ pkt.length) := by
  unfold parseTlvs
  by_cases h1 : pkt.length < headerSize
  · rw [if_pos h1]
    refine ⟨_, rfl, ?_, by simp, fun _ _ => rfl, ?_⟩
    · intro t; constructor <;> simp [noRecs]
    · simp only [Bool.false_eq_true, false_iff]
      rintro ⟨n, _, h⟩
      omega
  · rw [if_neg h1]
    unfold headerSize at h1 ⊢
    obtain ⟨n, hn⟩ := tlvLen_some (pkt := pkt) (by omega)
    simp only [hn, Option.bind_eq_bind, Option.bind_some, Option.pure_def]
    by_cases h2 : pkt.length < 4 + n
    · rw [if_pos h2]
      refine ⟨_, rfl, ?_, by simp, fun _ _ => rfl, ?_⟩
      · intro t; constructor <;> simp [noRecs]
      · simp only [Bool.false_eq_true, false_iff, Option.some.injEq]
        rintro ⟨m, rfl, h⟩
        omega
    · rw [if_neg h2]
      obtain ⟨r, h3, h4, _⟩ := parseLoop_safe pkt (4 + n) 8 (by omega) (pkt.length + 1) 4 noRecs
        (by omega) (by omega) (by omega) (by intro t; constructor <;> simp [noRecs])
      have h5 : ∀ t, RecIn 8 pkt.length (r t) := fun t =>
        ⟨fun off h => by have := (h4 t).inside off h; omega, (h4 t).absent⟩
      rw [h3]
      refine ⟨_, rfl, ?_, ?_, by simp, ?_⟩
      · exact h5
      · exact fun _ => ⟨by simp only []; omega, rfl, h4⟩
      · simp only [true_iff]
        exact ⟨n, rfl, by omega⟩

/-- Encoding of one record. -/
def encRec (t : Nat) (d : Bytes) : Bytes :=
  [.ofNat t, .ofNat (t / 256), .ofNat d.length, .ofNat (d.length / 256)] ++ d

theorem encRec_length (t : Nat) (d : Bytes) : (encRec t d).length = recordLen d.length := by
  simp [encRec, recordLen]

def encAll (rs : List (Nat × Bytes)) : Bytes := rs.flatMap fun r => encRec r.1 r.2

/-- Header with a given TLV length. -/
def header (n : Nat) : Bytes := [1, 0, .ofNat (n / 256), .ofNat n]

theorem tlvLen_header (n : Nat) (body : Bytes) (h : n < 65536) :
    tlvLen (header n ++ body) = some n := by
  simp [tlvLen, header]
  omega

theorem add_header (avail n : Nat) (body : Bytes) (t : Nat) (d : Bytes) (hn : n < 65536)
    (hs : n + recordLen d.length < 65536) (hb : body.length = n) :
    add avail (header n ++ body) t d =
      if 4 + n + recordLen d.length > avail then none
      else some (header (n + recordLen d.length) ++ (body ++ encRec t d)) := by
  unfold add
  have hl : (header n ++ body).length = 4 + n := by simp [header, hb]; omega
  rw [hl]
  by_cases h : 4 + n + recordLen d.length > avail
  · rw [if_pos h, if_pos h]
  · rw [if_neg h, if_neg h, tlvLen_header n body hn]
    simp only [Option.bind_eq_bind, Option.bind_some, Option.pure_def, Option.some.injEq]
    rw [Nat.mod_eq_of_lt hs]
    simp [header, encRec]

theorem addAll_header (avail : Nat) (rs : List (Nat × Bytes)) (n : Nat) (body : Bytes)
    (hn : n < 65536) (hb : body.length = n) (ha : avail ≤ 65539) (pkt : Bytes)
    (h : addAll avail (header n ++ body) rs = some pkt) :
    pkt = header (n + (encAll rs).length) ++ (body ++ encAll rs) ∧
      4 + n + (encAll rs).length ≤ max avail (4 + n) := by
  induction rs generalizing n body with
  | nil =>
    simp only [addAll, Option.some.injEq] at h
    simp [encAll, ← h]
  | cons r rs ih =>
    obtain ⟨t, d⟩ := r
    simp only [addAll, Option.bind_eq_bind] at h
    by_cases hs : 4 + n + recordLen d.length > avail
    · have : add avail (header n ++ body) t d = none := by
        unfold add
        rw [if_pos]
        simp [header, hb]; omega
      simp [this] at h
    · rw [add_header avail n body t d hn (by omega) hb, if_neg hs] at h
      simp only [Option.bind_some] at h
      obtain ⟨h1, h2⟩ := ih (n + recordLen d.length) (body ++ encRec t d) (by omega)
        (by simp [encRec_length, hb]) h
      have e : (encAll ((t, d) :: rs)).length = recordLen d.length + (encAll rs).length := by
        simp [encAll, encRec_length]
      rw [e]
      refine ⟨?_, by omega⟩
      rw [h1, Nat.add_assoc]
      simp [encAll]

/-- The value of the last record of type `t`. -/
def lastRec (rs : List (Nat × Bytes)) (t : Nat) : Option Bytes :=
  ((rs.filter fun r => r.1 = t).getLast?).map (·.2)

theorem lastRec_cons (t0 : Nat) (d0 : Bytes) (rs : List (Nat × Bytes)) (t : Nat) :
    lastRec ((t0, d0) :: rs) t =
      (lastRec rs t).or (if t0 = t then some d0 else none) := by
  unfold lastRec
  by_cases h : t0 = t
  · simp only [h, List.filter_cons, decide_true, if_true]
    rw [List.getLast?_cons]
    cases (List.filter (fun r => decide (r.1 = t)) rs).getLast? <;> simp
  · simp [h]

theorem parseLoop_enc (pkt : Bytes) (rs : List (Nat × Bytes)) :
    ∀ (pre : Bytes) (fuel : Nat) (recs : Recs), pkt = pre ++ encAll rs →
      (∀ r ∈ rs, r.1 < 65536 ∧ r.2.length < 65536) → (encAll rs).length + 1 ≤ fuel →
      ∃ recs', parseLoop pkt pkt.length fuel pre.length recs = some recs' ∧
        ∀ t, t < 16 → match lastRec rs t with
          | some d => recBytes pkt (recs' t) = some d ∧ (recs' t).length = d.length
          | none => recs' t = recs t := by
  induction rs with
  | nil =>
    intro pre fuel recs hp _ hf
    obtain ⟨fuel, rfl⟩ : ∃ f, fuel = f + 1 := ⟨fuel - 1, by omega⟩
    unfold parseLoop
    simp only [encAll, List.flatMap_nil, List.append_nil] at hp
    subst hp
    rw [if_pos (by omega)]
    exact ⟨recs, rfl, fun t _ => by simp [lastRec]⟩
  | cons r rs ih =>
    obtain ⟨t0, d0⟩ := r
    intro pre fuel recs hp hr hf
    obtain ⟨fuel, rfl⟩ : ∃ f, fuel = f + 1 := ⟨fuel - 1, by omega⟩
    obtain ⟨ht0, hd0⟩ := hr (t0, d0) (by simp)
    simp only [] at ht0 hd0
    have e : encAll ((t0, d0) :: rs) = encRec t0 d0 ++ encAll rs := by simp [encAll]
    rw [e] at hp hf
    have hlen : pkt.length = pre.length + (recordLen d0.length + (encAll rs).length) := by
      rw [hp]; simp [encRec_length]
    unfold parseLoop
    unfold recordLen at hlen
    rw [if_neg (by omega)]
    have g : ∀ i, pkt[pre.length + i]? = (encRec t0 d0 ++ encAll rs)[i]? := by
      intro i; rw [hp, List.getElem?_append_right (by omega)]; congr 1; omega
    have g0 : pkt[pre.length]? = some (.ofNat t0) := by
      have := g 0; simpa [encRec] using this
    have g1 : pkt[pre.length + 1]? = some (.ofNat (t0 / 256)) := by rw [g]; simp [encRec]
    have g2 : pkt[pre.length + 2]? = some (.ofNat d0.length) := by rw [g]; simp [encRec]
    have g3 : pkt[pre.length + 3]? = some (.ofNat (d0.length / 256)) := by rw [g]; simp [encRec]
    simp only [g0, g1, g2, g3, Option.bind_eq_bind, Option.bind_some, Option.pure_def]
    have k1 : (UInt8.ofNat t0).toNat + (UInt8.ofNat (t0 / 256)).toNat <<< 8 = t0 := by
      simp [Nat.shiftLeft_eq]; omega
    have k2 : (UInt8.ofNat d0.length).toNat + (UInt8.ofNat (d0.length / 256)).toNat <<< 8 =
        d0.length := by
      simp [Nat.shiftLeft_eq]; omega
    rw [k1, k2]
    unfold recordLen
    rw [if_neg (by omega)]
    obtain ⟨r', h1, h2⟩ := ih (pre ++ encRec t0 d0) fuel
      (if t0 < RECORD_MAX then setRec recs t0 ⟨d0.length, some (pre.length + 4)⟩ else recs)
      (by rw [hp]; simp) (fun r h => hr r (List.mem_cons_of_mem _ h)) (by
        simp [encRec_length, recordLen] at hf; omega)
    rw [List.length_append, encRec_length] at h1
    refine ⟨r', h1, ?_⟩
    intro t ht
    have h3 := h2 t ht
    rw [lastRec_cons]
    cases hl : lastRec rs t with
    | some d => rw [hl] at h3; simpa using h3
    | none =>
      rw [hl] at h3
      simp only [Option.none_or] at h3 ⊢
      by_cases htt : t0 = t
      · subst htt
        simp only [if_true]
        rw [h3, if_pos (by unfold RECORD_MAX; exact ht)]
        refine ⟨?_, by simp [setRec]⟩
        simp only [setRec, if_true, recBytes, Option.bind_eq_bind, Option.bind_some]
        rw [if_pos (by omega)]
        simp only [Option.pure_def, Option.some.injEq]
        rw [hp, show pre.length + 4 = (pre ++ [UInt8.ofNat t0, .ofNat (t0 / 256),
          .ofNat d0.length, .ofNat (d0.length / 256)]).length by simp]
        rw [show pre ++ (encRec t0 d0 ++ encAll rs) = (pre ++ [UInt8.ofNat t0, .ofNat (t0 / 256),
          .ofNat d0.length, .ofNat (d0.length / 256)]) ++ (d0 ++ encAll rs) by simp [encRec]]
        rw [List.drop_left, List.take_left]
      · simp only [htt, if_false]
        rw [h3]
        split
        · simp [setRec, Ne.symm htt]
        · rfl

end Fastd.Handshake
