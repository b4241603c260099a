import Verif.Daemon.Logic

/-!
# Lemmas about the MAC table
-/

namespace Fastd.Daemon

set_option linter.unusedSectionVars false

/-! ### Comparing addresses -/

theorem macCmp_refl (a : Bytes) : macCmp a a = .eq := by
  induction a with
  | nil => rfl
  | cons x xs ih =>
    have : ¬ x < x := by simp [UInt8.lt_irrefl]
    simp [macCmp, this, ih]

theorem macCmp_eq {a b : Bytes} : macCmp a b = .eq ↔ a = b := by
  constructor
  · intro h
    induction a generalizing b with
    | nil => cases b <;> simp_all [macCmp]
    | cons x xs ih =>
      cases b with
      | nil => simp [macCmp] at h
      | cons y ys =>
        rw [macCmp] at h
        by_cases h1 : x < y
        · simp [h1] at h
        · by_cases h2 : y < x
          · simp [h1, h2] at h
          · simp only [h1, h2, if_false] at h
            have : x = y := by
              rw [UInt8.lt_iff_toNat_lt] at h1 h2
              exact UInt8.toNat_inj.1 (by omega)
            rw [this, ih h]
  · rintro rfl
    exact macCmp_refl a

theorem macCmp_swap (a b : Bytes) : (macCmp a b).swap = macCmp b a := by
  induction a generalizing b with
  | nil => cases b <;> rfl
  | cons x xs ih =>
    cases b with
    | nil => rfl
    | cons y ys =>
      rw [macCmp, macCmp]
      by_cases h1 : x < y
      · have h2 : ¬ y < x := by rw [UInt8.lt_iff_toNat_lt] at *; omega
        simp [h1, h2]
      · by_cases h2 : y < x
        · simp [h1, h2]
        · simp [h1, h2, ih]

theorem macCmp_gt {a b : Bytes} : macCmp a b = .gt ↔ macCmp b a = .lt := by
  rw [← macCmp_swap b a]
  cases macCmp b a <;> simp [Ordering.swap]

theorem macCmp_trans {a b c : Bytes} (h : macCmp a b = .lt) (h' : macCmp b c = .lt) : macCmp a c = .lt := by
  induction a generalizing b c with
  | nil =>
    cases b with
    | nil => simp [macCmp] at h
    | cons y ys => cases c <;> simp_all [macCmp]
  | cons x xs ih =>
    cases b with
    | nil => simp [macCmp] at h
    | cons y ys =>
      cases c with
      | nil => simp [macCmp] at h'
      | cons z zs =>
        rw [macCmp] at h h' ⊢
        by_cases h1 : x < y
        · by_cases h2 : y < z
          · have : x < z := by rw [UInt8.lt_iff_toNat_lt] at *; omega
            simp [this]
          · by_cases h3 : z < y
            · simp [h2, h3] at h'
            · have : x < z := by rw [UInt8.lt_iff_toNat_lt] at *; omega
              simp [this]
        · by_cases h2 : y < x
          · simp [h1, h2] at h
          · simp only [h1, h2, if_false] at h
            by_cases h3 : y < z
            · have : x < z := by rw [UInt8.lt_iff_toNat_lt] at *; omega
              simp [this]
            · by_cases h4 : z < y
              · simp [h3, h4] at h'
              · simp only [h3, h4, if_false] at h'
                have h5 : ¬ x < z := by rw [UInt8.lt_iff_toNat_lt] at *; omega
                have h6 : ¬ z < x := by rw [UInt8.lt_iff_toNat_lt] at *; omega
                simp only [h5, h6, if_false]
                exact ih h h'

/-- The table is sorted by address, strictly. -/
def EthSorted (es : List Eth) : Prop := es.Pairwise fun a b => macCmp a.addr b.addr = .lt

/-- The entry of an address. -/
def ethEntry (es : List Eth) (a : Bytes) : Option Eth := es.find? (·.addr = a)

theorem ethSorted_inj {es : List Eth} (hs : EthSorted es) {a b : Eth} (ha : a ∈ es) (hb : b ∈ es)
    (h : a.addr = b.addr) : a = b := by
  induction es with
  | nil => cases ha
  | cons e es ih =>
    rw [EthSorted, List.pairwise_cons] at hs
    rcases List.mem_cons.1 ha with rfl | ha' <;> rcases List.mem_cons.1 hb with rfl | hb'
    · rfl
    · have := hs.1 _ hb'; rw [h, macCmp_refl] at this; cases this
    · have := hs.1 _ ha'; rw [h, macCmp_refl] at this; cases this
    · exact ih hs.2 ha' hb'

theorem ethEntry_some {es : List Eth} (hs : EthSorted es) {a : Bytes} {e : Eth} :
    ethEntry es a = some e ↔ e ∈ es ∧ e.addr = a := by
  constructor
  · intro h
    exact ⟨List.mem_of_find?_eq_some h, by simpa using List.find?_some h⟩
  · rintro ⟨he, rfl⟩
    cases h : ethEntry es e.addr with
    | none => simpa using List.find?_eq_none.1 h e he
    | some e' =>
      rw [ethSorted_inj hs (List.mem_of_find?_eq_some h) he (by simpa using List.find?_some h)]

theorem ethEntry_none {es : List Eth} {a : Bytes} : ethEntry es a = none ↔ ∀ e ∈ es, e.addr ≠ a := by
  simp [ethEntry]

theorem ethSorted_getElem {es : List Eth} (hs : EthSorted es) {i j : Nat} (hij : i < j) (hj : j < es.length) :
    macCmp (es[i]'(by omega)).addr es[j].addr = .lt :=
  List.pairwise_iff_getElem.1 hs i j (by omega) hj hij

/-! ### Searching -/

theorem ethSearch_spec {es : List Eth} (hs : EthSorted es) (a : Bytes) (fuel min max : Nat) (hmax : max ≤ es.length)
    (hmm : min ≤ max) (hf : max - min < fuel)
    (hlo : ∀ (i : Nat) (h : i < es.length), i < min → macCmp es[i].addr a = .lt)
    (hhi : ∀ (i : Nat) (h : i < es.length), max ≤ i → macCmp a es[i].addr = .lt) :
    (∃ k, ∃ h : k < es.length, ethSearch es a fuel min max = .ok (.inl k) ∧ es[k].addr = a) ∨
    (∃ k, ethSearch es a fuel min max = .ok (.inr k) ∧ k ≤ es.length ∧
      (∀ (i : Nat) (h : i < es.length), i < k → macCmp es[i].addr a = .lt) ∧
      (∀ (i : Nat) (h : i < es.length), k ≤ i → macCmp a es[i].addr = .lt)) := by
  induction fuel generalizing min max with
  | zero => omega
  | succ fuel ih =>
    rw [ethSearch]
    by_cases hlt : max > min
    · rw [if_pos hlt]
      have hcur : min + (max - min) / 2 < es.length := by omega
      simp only [List.getElem?_eq_getElem hcur]
      cases hc : macCmp a es[min + (max - min) / 2].addr with
      | eq => exact .inl ⟨_, hcur, rfl, (macCmp_eq.1 hc).symm⟩
      | lt =>
        refine ih _ _ (by omega) (by omega) (by omega) hlo ?_
        intro i hi hle
        rcases Nat.lt_or_ge (min + (max - min) / 2) i with h1 | h1
        · exact macCmp_trans hc (ethSorted_getElem hs h1 hi)
        · have : i = min + (max - min) / 2 := by omega
          subst this; exact hc
      | gt =>
        refine ih _ _ hmax (by omega) (by omega) ?_ hhi
        intro i hi hle
        have hc' := macCmp_gt.1 hc
        rcases Nat.lt_or_ge i (min + (max - min) / 2) with h1 | h1
        · exact macCmp_trans (ethSorted_getElem hs h1 hcur) hc'
        · have : i = min + (max - min) / 2 := by omega
          subst this; exact hc'
    · rw [if_neg hlt]
      have : max = min := by omega
      subst this
      exact .inr ⟨max, rfl, hmax, hlo, hhi⟩

/-- Learning an address: the new table. -/
def ethLearn (es : List Eth) (e : Eth) : List Eth → Prop := fun es' =>
  EthSorted es' ∧ ∀ a, ethEntry es' a = if a = e.addr then some e else ethEntry es a

theorem pairwise_insertIdx {es : List Eth} (hs : EthSorted es) {e : Eth} {k : Nat}
    (hlo : ∀ (i : Nat) (h : i < es.length), i < k → macCmp es[i].addr e.addr = .lt)
    (hhi : ∀ (i : Nat) (h : i < es.length), k ≤ i → macCmp e.addr es[i].addr = .lt) (hk : k ≤ es.length) :
    EthSorted (es.insertIdx k e) := by
  induction es generalizing k with
  | nil =>
    have : k = 0 := by simpa using hk
    subst this
    simp [EthSorted]
  | cons a as ih =>
    cases k with
    | zero =>
      rw [List.insertIdx_zero, EthSorted, List.pairwise_cons]
      refine ⟨?_, hs⟩
      intro b hb
      obtain ⟨i, hi, rfl⟩ := List.mem_iff_getElem.1 hb
      exact hhi i hi (Nat.zero_le _)
    | succ k =>
      rw [List.insertIdx_succ_cons]
      rw [EthSorted, List.pairwise_cons] at hs ⊢
      refine ⟨?_, ih hs.2 (fun i h hi => hlo (i + 1) (by simpa using h) (by omega))
        (fun i h hi => hhi (i + 1) (by simpa using h) (by omega)) (by simpa using hk)⟩
      intro b hb
      rcases (List.mem_insertIdx (by simpa using hk)).1 hb with rfl | hb
      · exact hlo 0 (by simp) (by omega)
      · exact hs.1 b hb

theorem ethPut_learn {es : List Eth} (hs : EthSorted es) (p : Option Nat) (a : Bytes) (t : Time) :
    match ethSearch es a (es.length + 1) 0 es.length with
    | .error _ => False
    | .ok (.inl k) => ethLearn es ⟨a, p, t⟩ (es.modify k fun e => { e with peer := p, timeout := t })
    | .ok (.inr k) => ethLearn es ⟨a, p, t⟩ (es.insertIdx k ⟨a, p, t⟩) := by
  have key := ethSearch_spec hs a (es.length + 1) 0 es.length (Nat.le_refl _) (Nat.zero_le _) (by omega)
    (by intro i h hi; omega) (by intro i h hi; omega)
  rcases key with ⟨k, hk, he, ha⟩ | ⟨k, he, hk, hlo, hhi⟩
  · rw [he]
    simp only []
    have hs' : EthSorted (es.modify k fun e => { e with peer := p, timeout := t }) := by
      rw [EthSorted, List.pairwise_iff_getElem]
      intro i j hi hj hij
      have hj' : j < es.length := by simpa using hj
      have := ethSorted_getElem hs hij hj'
      rw [List.getElem_modify, List.getElem_modify]
      split <;> split <;> simpa using this
    refine ⟨hs', ?_⟩
    intro b
    by_cases hb : b = a
    · rw [if_pos hb, ethEntry_some hs']
      refine ⟨?_, hb.symm⟩
      refine List.mem_iff_getElem.2 ⟨k, by simpa using hk, ?_⟩
      rw [List.getElem_modify, if_pos rfl, ← ha]
    · rw [if_neg hb]
      have hmem : ∀ e : Eth, e.addr = b → (e ∈ (es.modify k fun e => { e with peer := p, timeout := t }) ↔ e ∈ es) := by
        intro e heb
        constructor
        · intro hm
          obtain ⟨i, hi, rfl⟩ := List.mem_iff_getElem.1 hm
          have hi' : i < es.length := by simpa using hi
          rw [List.getElem_modify] at heb ⊢
          by_cases hik : k = i
          · subst hik
            rw [if_pos rfl] at heb
            exact absurd (heb.symm.trans ha) hb
          · rw [if_neg hik]
            exact List.getElem_mem hi'
        · intro hm
          obtain ⟨i, hi, rfl⟩ := List.mem_iff_getElem.1 hm
          refine List.mem_iff_getElem.2 ⟨i, by simpa using hi, ?_⟩
          rw [List.getElem_modify, if_neg]
          rintro rfl
          exact hb (heb.symm.trans ha)
      cases h : ethEntry es b with
      | none =>
        rw [ethEntry_none] at h ⊢
        intro e he heb
        exact h e ((hmem e heb).1 he) heb
      | some e =>
        rw [ethEntry_some hs] at h
        rw [ethEntry_some hs']
        exact ⟨(hmem e h.2).2 h.1, h.2⟩
  · rw [he]
    simp only []
    have hs' : EthSorted (es.insertIdx k ⟨a, p, t⟩) := pairwise_insertIdx hs hlo hhi hk
    refine ⟨hs', ?_⟩
    have hm : ∀ e, e ∈ es.insertIdx k ⟨a, p, t⟩ ↔ e = ⟨a, p, t⟩ ∨ e ∈ es := fun e => List.mem_insertIdx hk
    intro b
    by_cases hb : b = a
    · rw [if_pos hb, ethEntry_some hs', hm]
      exact ⟨.inl rfl, hb.symm⟩
    · rw [if_neg hb]
      cases h : ethEntry es b with
      | none =>
        rw [ethEntry_none] at h ⊢
        intro e he heb
        rcases (hm e).1 he with rfl | he
        · exact hb heb.symm
        · exact h e he heb
      | some e =>
        rw [ethEntry_some hs] at h
        rw [ethEntry_some hs', hm]
        exact ⟨.inr h.1, h.2⟩

theorem ethFind_spec {es : List Eth} (hs : EthSorted es) (a : Bytes) :
    ethFind es a = (ethEntry es a).map (·.peer) := by
  have hsf : Data.SortedFor (fun e : Eth => macCmp a e.addr) es := by
    intro i j hi hj hij
    have h := ethSorted_getElem hs hij hj
    constructor
    · exact fun h' => macCmp_trans h' h
    · exact fun h' => macCmp_gt.2 (macCmp_trans h (macCmp_gt.1 h'))
  unfold ethFind
  cases hb : Data.bsearch (fun e : Eth => macCmp a e.addr) es with
  | none =>
    have h := Data.bsearch_none hsf hb
    rw [(ethEntry_none (a := a)).2]
    · rfl
    · intro e he hea
      exact h e he (macCmp_eq.2 hea.symm)
  | some k =>
    obtain ⟨e, he, hc⟩ := Data.bsearch_some hsf hb
    simp only [he, Option.map_some]
    rw [(ethEntry_some hs (a := a) (e := e)).2 ⟨List.mem_of_getElem? he, (macCmp_eq.1 hc).symm⟩]
    rfl

/-! ### Compacting -/

theorem ethCompact_go (del : Eth → Bool) (es : List Eth) (n : Nat) (a : List Eth) (i d : Nat)
    (hi : i + n = es.length) (hlen : a.length = es.length) (hd : d + ((es.take i).filter (!del ·)).length = i)
    (hpre : a.take (i - d) = (es.take i).filter (!del ·)) (hsuf : a.drop i = es.drop i) :
    (ethCompact.go del a i d n).1.take (es.length - (ethCompact.go del a i d n).2) = es.filter (!del ·) := by
  induction n generalizing a i d with
  | zero =>
    rw [ethCompact.go]
    have : i = es.length := by omega
    subst this
    simp only [List.take_length] at hpre
    exact hpre
  | succ n ih =>
    have hil : i < es.length := by omega
    have hai : a[i]? = some es[i] := by
      have h1 : (a.drop i)[0]? = (es.drop i)[0]? := by rw [hsuf]
      rw [List.getElem?_drop, List.getElem?_drop] at h1
      simpa [List.getElem?_eq_getElem hil] using h1
    have htake : es.take (i + 1) = es.take i ++ [es[i]] := by
      rw [List.take_add_one, List.getElem?_eq_getElem hil]; rfl
    have hsuf' : a.drop (i + 1) = es.drop (i + 1) := by
      rw [← List.drop_drop, hsuf, List.drop_drop]
    have hle : ((es.take i).filter (!del ·)).length ≤ i := by
      have := List.length_filter_le (!del ·) (es.take i)
      rw [List.length_take] at this
      omega
    rw [ethCompact.go]
    simp only [hai]
    by_cases hdel : del es[i] = true
    · rw [if_pos hdel]
      refine ih a (i + 1) (d + 1) (by omega) hlen ?_ ?_ hsuf'
      · rw [htake, List.filter_append]
        simp [hdel]
        omega
      · rw [htake, List.filter_append]
        simp only [List.filter_cons, hdel, Bool.not_true, Bool.false_eq_true, if_false, List.filter_nil, List.append_nil]
        rw [show i + 1 - (d + 1) = i - d by omega]
        exact hpre
    · rw [if_neg hdel]
      by_cases hd0 : d ≠ 0
      · rw [if_pos hd0]
        refine ih _ (i + 1) d (by omega) (by simpa using hlen) ?_ ?_ ?_
        · rw [htake, List.filter_append]
          simp [hdel]
          omega
        · rw [htake, List.filter_append]
          simp only [List.filter_cons, hdel, Bool.not_false, if_true, List.filter_nil]
          rw [show i + 1 - d = (i - d) + 1 by omega, List.take_add_one, List.getElem?_set_self (by omega),
            List.take_set_of_le (by omega), hpre]
          rfl
        · rw [List.drop_set_of_lt (by omega)]
          exact hsuf'
      · rw [if_neg hd0]
        have hd0 : d = 0 := by omega
        subst hd0
        refine ih a (i + 1) 0 (by omega) hlen ?_ ?_ hsuf'
        · rw [htake, List.filter_append]
          simp [hdel]
          omega
        · rw [htake, List.filter_append, Nat.sub_zero, List.take_add_one, hai]
          rw [Nat.sub_zero] at hpre
          rw [hpre]
          simp [hdel]

theorem ethCompact_eq (del : Eth → Bool) (es : List Eth) : ethCompact del es = es.filter (!del ·) := by
  unfold ethCompact
  exact ethCompact_go del es es.length es 0 0 (by omega) rfl (by simp) (by simp) rfl

end Fastd.Daemon
