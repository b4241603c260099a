import Verif.Crypto.Select
import Mathlib.Data.List.Nodup

/-!
# C82: implementations of ciphers and MACs

* `C82_accept`: which `cipher` and `mac` statements are accepted.
* `C82_chosen`: what is used in the end.
* `C82_safe`: never an implementation that the processor doesn't support, and methods whose cipher was found get one.
* `C82_features`, `C82_total`: for the tables of a build for x86.
-/

namespace Fastd.Select

/-- Names and infos identify entries, names identify implementations. -/
structure Good (table : List Entry) : Prop where
  names : (table.map (·.name)).Nodup
  infos : (table.map (·.info)).Nodup
  impls : ∀ e ∈ table, (e.impls.map (·.name)).Nodup

/-- Implementation `impl` of the cipher or MAC `name` is compiled in and supported by the processor. -/
def Usable (table : List Entry) (name impl : String) : Prop :=
  ∃ e ∈ table, e.name = name ∧ ∃ i ∈ e.impls, i.name = impl ∧ i.available = true

/-- The implementation preferred by the order of the table: all those before it are not available. -/
def Preferred (e : Entry) (impl : Option String) : Prop :=
  (∃ i l r, e.impls = l ++ i :: r ∧ i.available = true ∧ (∀ j ∈ l, j.available = false) ∧ impl = some i.name) ∨
  ((∀ i ∈ e.impls, i.available = false) ∧ impl = none)

/-- The last statement about `name`. -/
def lastFor (name : String) (stmts : List (String × String)) : Option String :=
  (stmts.reverse.find? (·.1 = name)).map (·.2)

theorem firstAvailable_spec (l : List Impl) :
    (∃ i a r, l = a ++ i :: r ∧ i.available = true ∧ (∀ j ∈ a, j.available = false) ∧ firstAvailable l = some i.name) ∨
    ((∀ i ∈ l, i.available = false) ∧ firstAvailable l = none) := by
  induction l with
  | nil => exact .inr ⟨by simp, rfl⟩
  | cons i r ih =>
    unfold firstAvailable
    cases hi : i.available with
    | true => exact .inl ⟨i, [], r, rfl, hi, by simp, rfl⟩
    | false =>
      rcases ih with ⟨j, a, b, rfl, h1, h2, h3⟩ | ⟨h1, h2⟩
      · refine .inl ⟨j, i :: a, b, rfl, h1, ?_, h3⟩
        intro k hk
        rcases List.mem_cons.mp hk with rfl | hk
        · exact hi
        · exact h2 k hk
      · refine .inr ⟨?_, h2⟩
        intro k hk
        rcases List.mem_cons.mp hk with rfl | hk
        · exact hi
        · exact h1 k hk

theorem findImpl_spec (impl : String) (l : List Impl) (hn : (l.map (·.name)).Nodup) :
    findImpl impl l = if ∃ i ∈ l, i.name = impl ∧ i.available = true then some impl else none := by
  induction l with
  | nil => simp [findImpl]
  | cons i r ih =>
    rw [List.map_cons, List.nodup_cons] at hn
    unfold findImpl
    by_cases h : i.name = impl
    · have : ¬ ∃ j ∈ r, j.name = impl ∧ j.available = true := by
        rintro ⟨j, hj, hj2, _⟩
        exact hn.1 (h ▸ hj2 ▸ List.mem_map_of_mem hj)
      simp only [h, if_true, List.mem_cons, exists_eq_or_imp, true_and, this, or_false]
    · rw [if_neg h, ih hn.2]
      simp [h]

/-- What `config` does, entry by entry. -/
theorem config_spec (name impl : String) (table : List Entry) : ∀ (c : Conf), c.length = table.length → Good table →
    (Usable table name impl → ∃ c', config name impl table c = some c' ∧ c'.length = table.length ∧
      ∀ (k : Nat) e, table[k]? = some e → c'[k]? = if e.name = name then some (some impl) else c[k]?) ∧
    (¬ Usable table name impl → config name impl table c = none) := by
  induction table with
  | nil =>
    intro c _ _
    refine ⟨fun ⟨e, he, _⟩ => (by cases he), fun _ => ?_⟩
    cases c <;> rfl
  | cons e t ih =>
    intro c hc hg
    cases c with
    | nil => simp at hc
    | cons c r =>
      have hl : r.length = t.length := by simpa using hc
      obtain ⟨g1, g2, g3⟩ := hg
      rw [List.map_cons, List.nodup_cons] at g1 g2
      have hgt : Good t := ⟨g1.2, g2.2, fun e he => g3 e (List.mem_cons_of_mem _ he)⟩
      have hf := findImpl_spec impl e.impls (g3 e List.mem_cons_self)
      unfold config
      by_cases hn : e.name = name
      · have hu : Usable (e :: t) name impl ↔ ∃ i ∈ e.impls, i.name = impl ∧ i.available = true := by
          constructor
          · rintro ⟨e', he', hn', h⟩
            rcases List.mem_cons.mp he' with rfl | he'
            · exact h
            · exact absurd (hn.trans hn'.symm ▸ List.mem_map_of_mem he') g1.1
          · exact fun h => ⟨e, List.mem_cons_self, hn, h⟩
        rw [if_pos hn, hf]
        constructor
        · intro h
          rw [if_pos (hu.mp h)]
          refine ⟨_, rfl, by simpa using hl, ?_⟩
          intro k e' he'
          cases k with
          | zero => cases he'; simp [hn]
          | succ k =>
            have hm : e' ∈ t := List.mem_of_getElem? he'
            have : e'.name ≠ name := fun h => g1.1 (hn.trans h.symm ▸ List.mem_map_of_mem hm)
            simp [this]
        · intro h
          rw [if_neg (fun h' => h (hu.mpr h'))]
      · have hu : Usable (e :: t) name impl ↔ Usable t name impl := by
          constructor
          · rintro ⟨e', he', hn', h⟩
            rcases List.mem_cons.mp he' with rfl | he'
            · exact absurd hn' hn
            · exact ⟨e', he', hn', h⟩
          · rintro ⟨e', he', h⟩
            exact ⟨e', List.mem_cons_of_mem _ he', h⟩
        rw [if_neg hn]
        obtain ⟨h1, h2⟩ := ih r hl hgt
        constructor
        · intro h
          obtain ⟨c', h3, h4, h5⟩ := h1 (hu.mp h)
          refine ⟨c :: c', by rw [h3]; rfl, by simpa using h4, ?_⟩
          intro k e' he'
          cases k with
          | zero => cases he'; simp [hn]
          | succ k => exact h5 k e' he'
        · intro h
          rw [h2 (fun h' => h (hu.mpr h'))]
          rfl

theorem lastFor_snoc (name : String) (l : List (String × String)) (n i : String) :
    lastFor name ((n, i) :: l) = match lastFor name l with
      | some x => some x
      | none => if n = name then some i else none := by
  unfold lastFor
  rw [List.reverse_cons, List.find?_append]
  cases h : l.reverse.find? fun x => decide (x.1 = name) with
  | some y => simp
  | none =>
    by_cases hn : n = name
    · simp [hn]
    · simp [hn]

/-- What a sequence of statements does, entry by entry. -/
theorem configAll_spec (table : List Entry) (hg : Good table) (stmts : List (String × String)) : ∀ (c : Conf),
    c.length = table.length →
    ((∀ st ∈ stmts, Usable table st.1 st.2) → ∃ c', configAll table c stmts = some c' ∧ c'.length = table.length ∧
      ∀ (k : Nat) e, table[k]? = some e → c'[k]? = match lastFor e.name stmts with
        | some i => some (some i)
        | none => c[k]?) ∧
    ((∃ st ∈ stmts, ¬ Usable table st.1 st.2) → configAll table c stmts = none) := by
  induction stmts with
  | nil =>
    intro c hc
    exact ⟨fun _ => ⟨c, rfl, hc, fun _ _ _ => rfl⟩, fun ⟨_, h, _⟩ => (by cases h)⟩
  | cons st r ih =>
    intro c hc
    obtain ⟨n, i⟩ := st
    obtain ⟨h1, h2⟩ := config_spec n i table c hc hg
    unfold configAll
    constructor
    · intro h
      obtain ⟨c1, h3, h4, h5⟩ := h1 (h _ List.mem_cons_self)
      obtain ⟨c2, h6, h7, h8⟩ := (ih c1 h4).1 fun st hst => h st (List.mem_cons_of_mem _ hst)
      refine ⟨c2, by rw [h3]; exact h6, h7, ?_⟩
      intro k e he
      rw [h8 k e he, h5 k e he, lastFor_snoc]
      cases hx : lastFor e.name r with
      | some x => rfl
      | none =>
        by_cases hn : e.name = n
        · simp [hn]
        · have : ¬ n = e.name := fun h => hn h.symm
          simp [hn, this]
    · rintro ⟨st, hst, hu⟩
      by_cases hu1 : Usable table n i
      · obtain ⟨c1, h3, h4, h5⟩ := h1 hu1
        rw [h3]
        refine (ih c1 h4).2 ⟨st, ?_, hu⟩
        rcases List.mem_cons.mp hst with rfl | hst
        · exact absurd hu1 hu
        · exact hst
      · rw [h2 hu1]
        rfl

/-- **C82** A configuration is accepted, as far as `cipher` (or `mac`) statements are concerned, if and only if each of them
names an implementation that is compiled in and supported by the processor. -/
theorem C82_accept {table : List Entry} (hg : Good table) (stmts : List (String × String)) :
    (chosen table stmts).isSome ↔ ∀ st ∈ stmts, Usable table st.1 st.2 := by
  obtain ⟨h1, h2⟩ := configAll_spec table hg stmts (init table) (by simp [init])
  unfold chosen
  constructor
  · intro h st hst
    refine Classical.byContradiction fun hu => ?_
    rw [h2 ⟨st, hst, hu⟩] at h
    cases h
  · intro h
    obtain ⟨c, hc, _⟩ := h1 h
    rw [hc]
    rfl

theorem get_spec (table : List Entry) : ∀ (c : Conf), c.length = table.length → (table.map (·.info)).Nodup →
    ∀ (k : Nat) e, table[k]? = some e → some (get e.info table c) = c[k]? := by
  induction table with
  | nil => intro c _ _ k e h; cases h
  | cons e t ih =>
    intro c hc hn k e' he
    cases c with
    | nil => simp at hc
    | cons c r =>
      rw [List.map_cons, List.nodup_cons] at hn
      unfold get
      cases k with
      | zero => cases he; simp
      | succ k =>
        have hm : e' ∈ t := List.mem_of_getElem? he
        have : e.info ≠ e'.info := fun h => hn.1 (h ▸ List.mem_map_of_mem hm)
        rw [if_neg this]
        exact ih r (by simpa using hc) hn.2 k e' he

theorem infoByName_spec (table : List Entry) : ∀ (c : Conf), c.length = table.length → (table.map (·.name)).Nodup →
    ∀ (name : String) (info : Nat), infoByName name table c = some info ↔
      ∃ (k : Nat) (e : Entry) (i : String), table[k]? = some e ∧ e.name = name ∧ e.info = info ∧ c[k]? = some (some i) := by
  induction table with
  | nil => intro c _ _ n i; cases c <;> simp [infoByName]
  | cons e t ih =>
    intro c hc hn n i
    cases c with
    | nil => simp at hc
    | cons c r =>
      rw [List.map_cons, List.nodup_cons] at hn
      unfold infoByName
      by_cases he : e.name = n
      · rw [if_pos he]
        cases c with
        | none =>
          simp only [Option.isSome_none, Bool.false_eq_true, if_false, reduceCtorEq, false_iff]
          rintro ⟨k, e', x, h1, h2, h3, h4⟩
          cases k with
          | zero => simp at h4
          | succ k => exact hn.1 (he.trans h2.symm ▸ List.mem_map_of_mem (List.mem_of_getElem? h1))
        | some x =>
          simp only [Option.isSome_some, if_true, Option.some.injEq]
          constructor
          · intro h
            exact ⟨0, e, x, rfl, he, h, rfl⟩
          · rintro ⟨k, e', y, h1, h2, h3, h4⟩
            cases k with
            | zero => cases h1; exact h3
            | succ k => exact absurd (he.trans h2.symm ▸ List.mem_map_of_mem (List.mem_of_getElem? h1)) hn.1
      · rw [if_neg he, ih r (by simpa using hc) hn.2]
        constructor
        · rintro ⟨k, e', y, h⟩
          exact ⟨k + 1, e', y, h⟩
        · rintro ⟨k, e', y, h1, h2, h3, h4⟩
          cases k with
          | zero => cases h1; exact absurd h2 he
          | succ k => exact ⟨k, e', y, h1, h2, h3, h4⟩

/-- **C82** The implementation in use for a cipher or MAC is that of the last statement about it, and without any the
first one in the table that the processor supports. -/
theorem C82_chosen {table : List Entry} (hg : Good table) {stmts : List (String × String)} {c : Conf}
    (h : chosen table stmts = some c) {e : Entry} (he : e ∈ table) :
    match lastFor e.name stmts with
      | some i => get e.info table c = some i
      | none => Preferred e (get e.info table c) := by
  have hu := (C82_accept hg stmts).mp (by rw [h]; rfl)
  obtain ⟨c', h1, h2, h3⟩ := (configAll_spec table hg stmts (init table) (by simp [init])).1 hu
  unfold chosen at h
  rw [h] at h1
  cases h1
  obtain ⟨k, hk⟩ := List.mem_iff_getElem?.mp he
  have h4 := get_spec table c h2 hg.infos k e hk
  rw [h3 k e hk] at h4
  cases hl : lastFor e.name stmts with
  | some i =>
    rw [hl] at h4
    exact Option.some.inj h4
  | none =>
    rw [hl] at h4
    simp only [init, List.getElem?_map, hk, Option.map_some, Option.some.injEq] at h4
    unfold Preferred
    rw [h4]
    exact firstAvailable_spec e.impls

/-- **C82** Whatever the configuration: an implementation in use is compiled in and supported by the processor; a method
whose cipher (or MAC) was found by name gets an implementation of it for each session; and it is not found only if
none of its implementations is supported. -/
theorem C82_safe {table : List Entry} (hg : Good table) {stmts : List (String × String)} {c : Conf}
    (h : chosen table stmts = some c) {e : Entry} (he : e ∈ table) :
    (∀ i, get e.info table c = some i → Usable table e.name i) ∧
    (infoByName e.name table c = some e.info ↔ ∃ i, get e.info table c = some i) ∧
    (infoByName e.name table c = none → ∀ i ∈ e.impls, i.available = false) := by
  have hu := (C82_accept hg stmts).mp (by rw [h]; rfl)
  obtain ⟨c', h1, h2, h3⟩ := (configAll_spec table hg stmts (init table) (by simp [init])).1 hu
  have hch := C82_chosen hg h he
  unfold chosen at h
  rw [h] at h1
  cases h1
  obtain ⟨k, hk⟩ := List.mem_iff_getElem?.mp he
  have hget := get_spec table c h2 hg.infos k e hk
  have hinfo := infoByName_spec table c h2 hg.names e.name
  have iff1 : infoByName e.name table c = some e.info ↔ ∃ i, get e.info table c = some i := by
    rw [hinfo]
    constructor
    · rintro ⟨k', e', i, a1, a2, a3, a4⟩
      have := get_spec table c h2 hg.infos k' e' a1
      rw [a4, a3] at this
      exact ⟨i, Option.some.inj this⟩
    · rintro ⟨i, hi⟩
      rw [hi] at hget
      exact ⟨k, e, i, hk, rfl, rfl, hget.symm⟩
  refine ⟨?_, iff1, ?_⟩
  · intro i hi
    cases hl : lastFor e.name stmts with
    | some j =>
      rw [hl] at hch
      simp only at hch
      rw [hch] at hi
      cases hi
      unfold lastFor at hl
      cases hf : stmts.reverse.find? fun x => decide (x.1 = e.name) with
      | none => rw [hf] at hl; cases hl
      | some x =>
        rw [hf] at hl
        cases hl
        have h5 := List.find?_some hf
        have h6 := hu x (by simpa using List.mem_of_find?_eq_some hf)
        simp only [decide_eq_true_eq] at h5
        rw [h5] at h6
        exact h6
    | none =>
      rw [hl] at hch
      rcases hch with ⟨x, l, r, a1, a2, a3, a4⟩ | ⟨_, a2⟩
      · rw [hi] at a4
        cases a4
        exact ⟨e, he, rfl, x, by rw [a1]; simp, rfl, a2⟩
      · rw [hi] at a2
        cases a2
  · intro hno
    have hg0 : get e.info table c = none := by
      cases hx : get e.info table c with
      | none => rfl
      | some i =>
        have := iff1.mpr ⟨i, hx⟩
        rw [hno] at this
        cases this
    cases hl : lastFor e.name stmts with
    | some j =>
      rw [hl] at hch
      simp only at hch
      rw [hg0] at hch
      cases hch
    | none =>
      rw [hl] at hch
      rcases hch with ⟨x, l, r, a1, a2, a3, a4⟩ | ⟨a1, _⟩
      · rw [hg0] at a4
        cases a4
      · exact a1

theorem good_ciphers (cpuid : UInt64) : Good (ciphers cpuid) := by
  refine ⟨by simp [ciphers], by simp [ciphers], ?_⟩
  intro e he
  simp only [ciphers, List.mem_cons, List.not_mem_nil, or_false] at he
  rcases he with rfl | rfl | rfl | rfl <;> simp

theorem good_macs (cpuid : UInt64) : Good (macs cpuid) := by
  refine ⟨by simp [macs], by simp [macs], ?_⟩
  intro e he
  simp only [macs, List.mem_cons, List.not_mem_nil, or_false] at he
  rcases he with rfl | rfl <;> simp

/-- In the full build for x86 all of the ciphers and MACs can be used on any processor. -/
theorem C82_total (cpuid : UInt64) {stmts : List (String × String)} {c : Conf} :
    (chosen (ciphers cpuid) stmts = some c → ∀ e ∈ ciphers cpuid, infoByName e.name (ciphers cpuid) c = some e.info) ∧
    (chosen (macs cpuid) stmts = some c → ∀ e ∈ macs cpuid, infoByName e.name (macs cpuid) c = some e.info) := by
  have key : ∀ (t : List Entry), Good t → (∀ e ∈ t, ∃ i ∈ e.impls, i.available = true) → chosen t stmts = some c →
      ∀ e ∈ t, infoByName e.name t c = some e.info := by
    intro t hg ht hc e he
    obtain ⟨h1, h2, h3⟩ := C82_safe hg hc he
    cases hx : infoByName e.name t c with
    | none =>
      obtain ⟨i, hi, hi2⟩ := ht e he
      rw [h3 hx i hi] at hi2
      cases hi2
    | some info =>
      obtain ⟨c', a1, a2, a3⟩ := (configAll_spec t hg stmts (init t) (by simp [init])).1
        ((C82_accept hg stmts).mp (by rw [hc]; rfl))
      unfold chosen at hc
      rw [hc] at a1
      cases a1
      obtain ⟨k, e', i, b1, b2, b3, b4⟩ := (infoByName_spec t c a2 hg.names e.name info).mp hx
      rw [← hx]
      refine h2.mpr ?_
      obtain ⟨k2, hk2⟩ := List.mem_iff_getElem?.mp he
      have : e' = e := by
        obtain ⟨l1, m1⟩ := List.getElem?_eq_some_iff.mp b1
        obtain ⟨l2, m2⟩ := List.getElem?_eq_some_iff.mp hk2
        have hkk : k = k2 := by
          refine (List.Nodup.getElem_inj_iff hg.names (i := k) (j := k2) (hi := by simpa using l1) (hj := by simpa using l2)).mp ?_
          simp only [List.getElem_map, m1, m2]
          exact b2
        subst hkk
        rw [b1] at hk2
        exact Option.some.inj hk2
      subst this
      have := get_spec t c a2 hg.infos k e' b1
      rw [b4] at this
      exact ⟨i, Option.some.inj this⟩
  constructor
  · refine key _ (good_ciphers cpuid) ?_
    intro e he
    simp only [ciphers, List.mem_cons, List.not_mem_nil, or_false] at he
    rcases he with rfl | rfl | rfl | rfl <;> simp
  · refine key _ (good_macs cpuid) ?_
    intro e he
    simp only [macs, List.mem_cons, List.not_mem_nil, or_false] at he
    rcases he with rfl | rfl <;> simp

/-- The optimized implementations are considered available exactly on processors with the required features: bits 26
(`SSE2`) and 24 (`FXSR`) of `EDX`, bits 9 (`SSSE3`) and 1 (`PCLMULQDQ`) of `ECX`, which is in the upper half. -/
theorem C82_features (cpuid : UInt64) :
    (xmmAvailable cpuid = true ↔ cpuid.toNat.testBit 26 = true) ∧
    (ghashAvailable cpuid = true ↔ cpuid.toNat.testBit 24 = true ∧ cpuid.toNat.testBit (32 + 9) = true ∧
      cpuid.toNat.testBit (32 + 1) = true) := by
  constructor
  · unfold xmmAvailable
    rw [bne_iff_ne, ne_eq, ← UInt64.toNat_inj, UInt64.toNat_and]
    show ¬ (cpuid.toNat &&& 2 ^ 26 = 0) ↔ _
    have hb : ∀ i, (cpuid.toNat &&& 2 ^ 26).testBit i = (cpuid.toNat.testBit i && decide (26 = i)) := by
      intro i
      rw [Nat.testBit_and, Nat.testBit_two_pow]
    constructor
    · intro h
      refine Classical.byContradiction fun h26 => h (Nat.eq_of_testBit_eq fun i => ?_)
      rw [hb, Nat.zero_testBit]
      by_cases e : 26 = i
      · subst e; simpa using h26
      · simp [e]
    · intro h h0
      have := hb 26
      rw [h0, Nat.zero_testBit, h] at this
      simp at this
  · unfold ghashAvailable
    rw [beq_iff_eq, ← UInt64.toNat_inj, UInt64.toNat_and]
    have hr : (cpuidFxsr ||| cpuidSsse3 ||| cpuidPclmulqdq).toNat = 2 ^ 24 ||| 2 ^ 41 ||| 2 ^ 33 := by decide +kernel
    rw [hr]
    have hb : ∀ i, (2 ^ 24 ||| 2 ^ 41 ||| 2 ^ 33 : Nat).testBit i = (decide (24 = i) || decide (41 = i) || decide (33 = i)) := by
      intro i
      rw [Nat.testBit_or, Nat.testBit_or, Nat.testBit_two_pow, Nat.testBit_two_pow, Nat.testBit_two_pow]
    constructor
    · intro h
      have : ∀ i, (cpuid.toNat &&& (2 ^ 24 ||| 2 ^ 41 ||| 2 ^ 33)).testBit i = (2 ^ 24 ||| 2 ^ 41 ||| 2 ^ 33 : Nat).testBit i := by
        intro i; rw [h]
      simp only [Nat.testBit_and, hb] at this
      exact ⟨by simpa using this 24, by simpa using this 41, by simpa using this 33⟩
    · rintro ⟨h1, h2, h3⟩
      refine Nat.eq_of_testBit_eq fun i => ?_
      rw [Nat.testBit_and, hb]
      by_cases e1 : 24 = i
      · subst e1; simp [h1]
      · by_cases e2 : 41 = i
        · subst e2; simpa using h2
        · by_cases e3 : 33 = i
          · subst e3; simpa using h3
          · simp [e1, e2, e3]

/-! ### Examples -/

-- a processor with `FXSR` and `SSE2` only
example : chosen (ciphers 0x5000000) [] = some [some "openssl", some "memcpy", some "xmm", some "xmm"] := by decide +kernel
example : chosen (ciphers 0) [] = some [some "openssl", some "memcpy", some "nacl", some "nacl"] := by decide +kernel
example : chosen (ciphers 0x5000000) [("salsa20", "nacl")] =
    some [some "openssl", some "memcpy", some "nacl", some "xmm"] := by decide +kernel
example : chosen (ciphers 0) [("salsa20", "xmm")] = none := by decide +kernel
example : chosen (ciphers 0x5000000) [("salsa20", "nacl"), ("salsa20", "xmm")] =
    some [some "openssl", some "memcpy", some "xmm", some "xmm"] := by decide +kernel
example : chosen (macs 0x5000000) [("ghash", "pclmulqdq")] = none := by decide +kernel
example : chosen (macs 0x20005000000) [] = some [some "builtin", some "builtin"] := by decide +kernel
example : chosen (macs 0x20200000000) [] = some [some "builtin", some "builtin"] := by decide +kernel
example : chosen (macs 0x20201000000) [] = some [some "pclmulqdq", some "builtin"] := by decide +kernel
example : infoByName "salsa20" (ciphers 0) [some "openssl", some "memcpy", some "nacl", some "nacl"] = some 2 := by decide +kernel
-- a build with only the optimized implementation of Salsa20
example : chosen [⟨"salsa20", 2, [⟨"xmm", false⟩]⟩] [] = some [none] ∧
    infoByName "salsa20" [⟨"salsa20", 2, [⟨"xmm", false⟩]⟩] [none] = none := by decide +kernel

end Fastd.Select
