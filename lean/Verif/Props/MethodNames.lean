import Verif.Config.MethodNames

/-!
# C64: method names are unambiguous
-/

namespace Fastd.Config.MethodNames

open Fastd.Config (Name)

/-! ## Specification: the grammar of method names -/

/-- "-ctr" -/
def ctr : Name := [45, 99, 116, 114]

/-- A cipher usable for computing a MAC or together with one: it has room for the packet nonce. -/
def Nonced (e : Env) (c : Name) : Prop := ∃ iv, e.iv c = some iv ∧ 6 < iv

/-- `Denotes e name m`: the method `m` exists and is called `name`. -/
inductive Denotes (e : Env) : Name → Meth → Prop
  /-- `<cipher>+cipher-test` -/
  | cipherTest {c iv} : e.iv c = some iv → Denotes e (c ++ sCipherTest) (.cipherTest c)
  /-- `<cipher>+<p>-gmac` stands for the GMAC cipher `<p>-ctr` -/
  | composedGmacCtr {c p} : e.ghash = true → (e.iv c = some 0 ∨ Nonced e c) → Nonced e (p ++ ctr) →
      Denotes e (c ++ [43] ++ p ++ sDashGmac) (.composedGmac c (p ++ ctr))
  /-- `<cipher>+<gmac cipher>+gmac` -/
  | composedGmac {c g} : e.ghash = true → (e.iv c = some 0 ∨ Nonced e c) → Nonced e g → ¬ ctr <:+ g →
      Denotes e (c ++ [43] ++ g ++ sPlusGmac) (.composedGmac c g)
  /-- `<cipher>+<umac cipher>+umac` -/
  | composedUmac {c u} : e.uhash = true → (e.iv c = some 0 ∨ Nonced e c) → Nonced e u →
      Denotes e (c ++ [43] ++ u ++ sPlusUmac) (.composedUmac c u)
  /-- `<p>-gcm` stands for the cipher `<p>-ctr` -/
  | genericGcm {p} : e.ghash = true → Nonced e (p ++ ctr) → Denotes e (p ++ sGcm) (.genericGmac (p ++ ctr))
  /-- `<cipher>+gmac` -/
  | genericGmac {c} : e.ghash = true → Nonced e c → ¬ ctr <:+ c → Denotes e (c ++ sPlusGmac) (.genericGmac c)
  /-- `<cipher>+poly1305` -/
  | genericPoly1305 {c} : Nonced e c → Denotes e (c ++ sPoly1305) (.genericPoly1305 c)
  /-- `<cipher>+umac` -/
  | genericUmac {c} : e.uhash = true → Nonced e c → Denotes e (c ++ sPlusUmac) (.genericUmac c)
  | null : Denotes e sNull .null
  | nullL2tp : Denotes e sNullL2tp .nullL2tp

def Meth.provider : Meth → Provider
  | .cipherTest _ => .cipherTest
  | .composedGmac _ _ => .composedGmac
  | .composedUmac _ _ => .composedUmac
  | .genericGmac _ => .genericGmac
  | .genericPoly1305 _ => .genericPoly1305
  | .genericUmac _ => .genericUmac
  | .null => .null
  | .nullL2tp => .nullL2tp

/-- No cipher has a plus sign in its name. -/
def NoPlus (e : Env) : Prop := ∀ c ∈ e.ciphers, (43 : UInt8) ∉ c.name

/-! ## Lemmas -/

theorem endsWith_iff (name suf : Name) : endsWith name suf = true ↔ ∃ p, name = p ++ suf := by
  simp only [endsWith, Bool.and_eq_true, decide_eq_true_eq]
  constructor
  · rintro ⟨h1, h2⟩
    exact ⟨name.take (name.length - suf.length), by
      have := List.take_append_drop (name.length - suf.length) name
      rw [h2] at this; exact this.symm⟩
  · rintro ⟨p, rfl⟩
    simp

theorem endsWith_iff_suffix (name suf : Name) : endsWith name suf = true ↔ suf <:+ name := by
  rw [endsWith_iff]
  exact ⟨fun ⟨p, h⟩ => ⟨p, h.symm⟩, fun ⟨p, h⟩ => ⟨p, h.symm⟩⟩

theorem splitPlus_some (s a b : Name) (h : splitPlus s = some (a, b)) : s = a ++ [43] ++ b ∧ (43 : UInt8) ∉ a := by
  induction s generalizing a b with
  | nil => simp [splitPlus] at h
  | cons c cs ih =>
    rw [splitPlus] at h
    by_cases hc : c = 43
    · rw [if_pos hc] at h
      simp only [Option.some.injEq, Prod.mk.injEq] at h
      obtain ⟨rfl, rfl⟩ := h
      simp [hc]
    · rw [if_neg hc] at h
      cases hs : splitPlus cs with
      | none => rw [hs] at h; cases h
      | some x =>
        obtain ⟨a', b'⟩ := x
        rw [hs] at h
        simp only [Option.some.injEq, Prod.mk.injEq] at h
        obtain ⟨rfl, rfl⟩ := h
        obtain ⟨h1, h2⟩ := ih a' b' hs
        exact ⟨by rw [h1]; simp, by simp [h2, Ne.symm hc]⟩

theorem splitPlus_append (a b : Name) (h : (43 : UInt8) ∉ a) : splitPlus (a ++ [43] ++ b) = some (a, b) := by
  induction a with
  | nil => rfl
  | cons c cs ih =>
    simp only [List.mem_cons, not_or] at h
    rw [List.cons_append, List.cons_append, splitPlus, if_neg (Ne.symm h.1), ih h.2]

theorem iv_noPlus {e : Env} (he : NoPlus e) {n : Name} {iv : Nat} (h : e.iv n = some iv) : (43 : UInt8) ∉ n := by
  unfold Env.iv at h
  unfold NoPlus at he
  generalize e.ciphers = cs at *
  induction cs with
  | nil => cases h
  | cons c cs ih =>
    rw [lookupIn] at h
    by_cases hc : c.name = n
    · rw [← hc]; exact he c (by simp)
    · rw [if_pos hc] at h
      exact ih (fun x hx => he x (by simp [hx])) h

theorem nonced_noPlus {e : Env} (he : NoPlus e) {n : Name} (h : Nonced e n) : (43 : UInt8) ∉ n := by
  obtain ⟨_, h, _⟩ := h; exact iv_noPlus he h

theorem genericChecks_accept (e : Env) (c : Name) (r m : Meth) :
    genericChecks e c r = .accept m ↔ m = r ∧ Nonced e c := by
  unfold genericChecks Nonced noncebytes
  cases h : e.iv c with
  | none => simp
  | some iv =>
    simp only [Option.some.injEq, exists_eq_left']
    by_cases h2 : iv ≤ 6
    · rw [if_pos h2]; simp; omega
    · rw [if_neg h2]; simp only [CRes.accept.injEq]
      exact ⟨fun h => ⟨h.symm, by omega⟩, fun h => h.1.symm⟩

theorem genericChecks_ne (e : Env) (c : Name) (r : Meth) : genericChecks e c r ≠ .overflow ∧ genericChecks e c r ≠ .undef := by
  unfold genericChecks
  split
  · simp
  · split <;> simp

theorem composedChecks_accept (e : Env) (c g : Name) (r m : Meth) :
    composedChecks e c g r = .accept m ↔ m = r ∧ (e.iv c = some 0 ∨ Nonced e c) ∧ Nonced e g := by
  unfold composedChecks Nonced noncebytes
  cases h : e.iv c with
  | none => simp
  | some iv =>
    simp only [Option.some.injEq, exists_eq_left']
    by_cases h2 : iv ≠ 0 ∧ iv ≤ 6
    · rw [if_pos h2]; simp; omega
    · rw [if_neg h2]
      cases hg : e.iv g with
      | none => simp
      | some iv2 =>
        simp only [Option.some.injEq, exists_eq_left']
        by_cases h3 : iv2 ≤ 6
        · rw [if_pos h3]; simp; omega
        · rw [if_neg h3]; simp only [CRes.accept.injEq]
          exact ⟨fun h => ⟨h.symm, by omega, by omega⟩, fun h => h.1.symm⟩

theorem composedChecks_ne (e : Env) (c g : Name) (r : Meth) : composedChecks e c g r ≠ .overflow ∧ composedChecks e c g r ≠ .undef := by
  unfold composedChecks
  split
  · simp
  · split
    · simp
    · split
      · simp
      · split <;> simp

theorem ctr_suffix (c : Name) : ctr <:+ c ↔ sCtrGmac <:+ (c ++ sPlusGmac) := by
  have : sCtrGmac = ctr ++ sPlusGmac := rfl
  rw [this]
  constructor
  · rintro ⟨p, rfl⟩; exact ⟨p, by simp⟩
  · rintro ⟨p, h⟩
    rw [← List.append_assoc] at h
    exact ⟨p, (List.append_inj' h rfl).1⟩

/-! Evaluation of the providers on names with and without the suffixes they look for. -/

theorem not_endsWith {name suf : Name} (h : ¬ ∃ p, name = p ++ suf) : endsWith name suf = false := by
  cases h2 : endsWith name suf with
  | false => rfl
  | true => exact absurd ((endsWith_iff _ _).mp h2) h

theorem endsWith_append (p suf : Name) : endsWith (p ++ suf) suf = true := (endsWith_iff _ _).mpr ⟨p, rfl⟩

theorem take_sub {p suf : Name} {k : Nat} (h : suf.length = k) : (p ++ suf).take ((p ++ suf).length - k) = p := by
  subst h; simp

theorem evalCipherTest (e : Env) (c : Name) :
    createCipherTest e (c ++ sCipherTest) =
      match e.iv c with
      | none => .reject
      | some _ => .accept (.cipherTest c) := by
  unfold createCipherTest
  simp only []
  rw [if_neg (by simp [sCipherTest]), if_neg (by simp [sCipherTest]),
    take_sub (k := 12) (by rfl), withBuf, if_pos (by simp [sCipherTest])]
  cases e.iv c <;> rfl

theorem evalCipherTest_ne (e : Env) (name : Name) (h : ¬ ∃ p, name = p ++ sCipherTest) :
    createCipherTest e name = .reject := by
  unfold createCipherTest
  simp only []
  split
  · rfl
  · rename_i hl
    rw [if_pos]
    intro hd
    exact h ⟨name.take (name.length - 12), by rw [← hd, List.take_append_drop]⟩

theorem evalPoly (e : Env) (c : Name) :
    createGenericPoly1305 e (c ++ sPoly1305) = genericChecks e c (.genericPoly1305 c) := by
  unfold createGenericPoly1305
  simp only []
  rw [if_neg (by simp [sPoly1305]), if_neg (by simp [sPoly1305]),
    take_sub (k := 9) (by rfl), withBuf, if_pos (by simp [sPoly1305])]

theorem evalPoly_ne (e : Env) (name : Name) (h : ¬ ∃ p, name = p ++ sPoly1305) :
    createGenericPoly1305 e name = .reject := by
  unfold createGenericPoly1305
  simp only []
  split
  · rfl
  · rename_i hl
    rw [if_pos]
    intro hd
    exact h ⟨name.take (name.length - 9), by rw [← hd, List.take_append_drop]⟩

theorem evalUmac (e : Env) (c : Name) :
    createGenericUmac e (c ++ sPlusUmac) =
      if e.uhash then genericChecks e c (.genericUmac c) else .reject := by
  unfold createGenericUmac
  simp only []
  cases e.uhash
  · rfl
  · rw [if_neg (by simp), if_pos (endsWith_append _ _),
      take_sub (k := 5) (by rfl), withBuf, if_pos (by simp [sPlusUmac]), if_pos rfl]

theorem evalUmac_ne (e : Env) (name : Name) (h : ¬ ∃ p, name = p ++ sPlusUmac) :
    createGenericUmac e name = .reject := by
  unfold createGenericUmac
  simp [not_endsWith h]

theorem evalCUmac (e : Env) (s : Name) :
    createComposedUmac e (s ++ sPlusUmac) = if e.uhash then composedUmacTail e s else .reject := by
  unfold createComposedUmac
  simp only []
  cases e.uhash
  · rfl
  · rw [if_neg (by simp), if_pos (endsWith_append _ _),
      take_sub (k := 5) (by rfl), withBuf, if_pos (by simp [sPlusUmac]), if_pos rfl]

theorem evalCUmac_ne (e : Env) (name : Name) (h : ¬ ∃ p, name = p ++ sPlusUmac) :
    createComposedUmac e name = .reject := by
  unfold createComposedUmac
  simp [not_endsWith h]

theorem not_gcm_gmac (c : Name) : endsWith (c ++ sPlusGmac) sGcm = false := by
  apply not_endsWith
  rintro ⟨p, h⟩
  have := congrArg List.reverse h
  simp [sPlusGmac, sGcm] at this

theorem not_dash_plus (c : Name) : endsWith (c ++ sPlusGmac) sDashGmac = false := by
  apply not_endsWith
  rintro ⟨p, h⟩
  have := congrArg List.reverse h
  simp [sPlusGmac, sDashGmac] at this

theorem evalGcm (e : Env) (p : Name) :
    createGenericGmac e (p ++ sGcm) =
      if e.ghash then genericChecks e (p ++ ctr) (.genericGmac (p ++ ctr)) else .reject := by
  unfold createGenericGmac
  simp only []
  have ht : (p ++ sGcm).take ((p ++ sGcm).length - 3) ++ sCtr = p ++ ctr := by
    have h1 : p ++ sGcm = (p ++ [45]) ++ [103, 99, 109] := by simp [sGcm]
    rw [h1, take_sub (k := 3) (by rfl)]
    simp [sCtr, ctr]
  cases e.ghash
  · rfl
  · rw [if_neg (by simp), if_pos (endsWith_append _ _), ht, withBuf,
      if_pos (by simp [sGcm, ctr]), if_pos rfl]

theorem evalGmac (e : Env) (c : Name) :
    createGenericGmac e (c ++ sPlusGmac) =
      if e.ghash ∧ ¬ ctr <:+ c then genericChecks e c (.genericGmac c) else .reject := by
  unfold createGenericGmac
  simp only []
  cases e.ghash
  · simp
  · rw [if_neg (by simp), not_gcm_gmac, if_neg (by simp), if_pos (endsWith_append _ _)]
    by_cases hs : ctr <:+ c
    · rw [if_pos ((endsWith_iff_suffix _ _).mpr ((ctr_suffix c).mp hs)), if_neg (by simp [hs])]
    · rw [if_neg (fun h => hs ((ctr_suffix c).mpr ((endsWith_iff_suffix _ _).mp h))),
        take_sub (k := 5) (by rfl), withBuf, if_pos (by simp [sPlusGmac]), if_pos ⟨rfl, hs⟩]

theorem evalGmac_ne (e : Env) (name : Name) (h : ¬ ∃ p, name = p ++ sGcm) (h2 : ¬ ∃ p, name = p ++ sPlusGmac) :
    createGenericGmac e name = .reject := by
  unfold createGenericGmac
  simp [not_endsWith h, not_endsWith h2]

theorem evalCGmacCtr (e : Env) (p : Name) :
    createComposedGmac e (p ++ sDashGmac) =
      if e.ghash then composedGmacTail e (p ++ ctr) else .reject := by
  unfold createComposedGmac
  simp only []
  have ht : (p ++ sDashGmac).take ((p ++ sDashGmac).length - 4) ++ sCtr = p ++ ctr := by
    have h1 : p ++ sDashGmac = (p ++ [45]) ++ [103, 109, 97, 99] := by simp [sDashGmac]
    rw [h1, take_sub (k := 4) (by rfl)]
    simp [sCtr, ctr]
  cases e.ghash
  · rfl
  · rw [if_neg (by simp), if_pos (endsWith_append _ _), ht, withBuf,
      if_pos (by simp [sDashGmac, ctr]), if_pos rfl]

theorem evalCGmac (e : Env) (s : Name) :
    createComposedGmac e (s ++ sPlusGmac) =
      if e.ghash ∧ ¬ ctr <:+ s then composedGmacTail e s else .reject := by
  unfold createComposedGmac
  simp only []
  cases e.ghash
  · simp
  · rw [if_neg (by simp), not_dash_plus, if_neg (by simp), if_pos (endsWith_append _ _)]
    by_cases hs : ctr <:+ s
    · rw [if_pos ((endsWith_iff_suffix _ _).mpr ((ctr_suffix s).mp hs)), if_neg (by simp [hs])]
    · rw [if_neg (fun h => hs ((ctr_suffix s).mpr ((endsWith_iff_suffix _ _).mp h))),
        take_sub (k := 5) (by rfl), withBuf, if_pos (by simp [sPlusGmac]), if_pos ⟨rfl, hs⟩]

theorem evalCGmac_ne (e : Env) (name : Name) (h : ¬ ∃ p, name = p ++ sDashGmac)
    (h2 : ¬ ∃ p, name = p ++ sPlusGmac) : createComposedGmac e name = .reject := by
  unfold createComposedGmac
  simp [not_endsWith h, not_endsWith h2]

theorem gmacTail_ne (e : Env) (s : Name) : composedGmacTail e s ≠ .overflow ∧ composedGmacTail e s ≠ .undef := by
  unfold composedGmacTail
  split
  · simp
  · apply composedChecks_ne

theorem umacTail_ne (e : Env) (s : Name) : composedUmacTail e s ≠ .overflow ∧ composedUmacTail e s ≠ .undef := by
  unfold composedUmacTail
  split
  · simp
  · apply composedChecks_ne

/-! ## No provider overflows a buffer -/

theorem create_ne_overflow (e : Env) (name : Name) (p : Provider) : p.create e name ≠ .overflow ∧ p.create e name ≠ .undef := by
  cases p with
  | cipherTest =>
    rw [Provider.create]
    by_cases h : ∃ p, name = p ++ sCipherTest
    · obtain ⟨p, rfl⟩ := h
      rw [evalCipherTest]; split <;> simp
    · rw [evalCipherTest_ne e name h]; simp
  | composedGmac =>
    rw [Provider.create]
    by_cases h : ∃ p, name = p ++ sDashGmac
    · obtain ⟨p, rfl⟩ := h
      rw [evalCGmacCtr]; split
      · apply gmacTail_ne
      · simp
    · by_cases h2 : ∃ p, name = p ++ sPlusGmac
      · obtain ⟨p, rfl⟩ := h2
        rw [evalCGmac]; split
        · apply gmacTail_ne
        · simp
      · rw [evalCGmac_ne e name h h2]; simp
  | composedUmac =>
    rw [Provider.create]
    by_cases h : ∃ p, name = p ++ sPlusUmac
    · obtain ⟨p, rfl⟩ := h
      rw [evalCUmac]; split
      · apply umacTail_ne
      · simp
    · rw [evalCUmac_ne e name h]; simp
  | genericGmac =>
    rw [Provider.create]
    by_cases h : ∃ p, name = p ++ sGcm
    · obtain ⟨p, rfl⟩ := h
      rw [evalGcm]; split
      · apply genericChecks_ne
      · simp
    · by_cases h2 : ∃ p, name = p ++ sPlusGmac
      · obtain ⟨p, rfl⟩ := h2
        rw [evalGmac]; split
        · apply genericChecks_ne
        · simp
      · rw [evalGmac_ne e name h h2]; simp
  | genericPoly1305 =>
    rw [Provider.create]
    by_cases h : ∃ p, name = p ++ sPoly1305
    · obtain ⟨p, rfl⟩ := h
      rw [evalPoly]; apply genericChecks_ne
    · rw [evalPoly_ne e name h]; simp
  | genericUmac =>
    rw [Provider.create]
    by_cases h : ∃ p, name = p ++ sPlusUmac
    · obtain ⟨p, rfl⟩ := h
      rw [evalUmac]; split
      · apply genericChecks_ne
      · simp
    · rw [evalUmac_ne e name h]; simp
  | null => rw [Provider.create]; split <;> simp
  | nullL2tp => rw [Provider.create]; split <;> simp

/-! ## Every provider accepts exactly the names of its methods -/

theorem gmacTail_iff (e : Env) (s : Name) (m : Meth) (he : NoPlus e) :
    composedGmacTail e s = .accept m ↔
      ∃ c g, s = c ++ [43] ++ g ∧ m = .composedGmac c g ∧ (e.iv c = some 0 ∨ Nonced e c) ∧ Nonced e g := by
  unfold composedGmacTail
  constructor
  · intro h
    cases hs : splitPlus s with
    | none => rw [hs] at h; cases h
    | some x =>
      obtain ⟨c, g⟩ := x
      rw [hs] at h
      obtain ⟨h1, h2⟩ := (composedChecks_accept ..).mp h
      exact ⟨c, g, (splitPlus_some _ _ _ hs).1, h1, h2⟩
  · rintro ⟨c, g, rfl, rfl, h⟩
    have hc : (43 : UInt8) ∉ c := by
      rcases h.1 with h | h
      · exact iv_noPlus he h
      · exact nonced_noPlus he h
    rw [splitPlus_append c g hc]
    exact (composedChecks_accept ..).mpr ⟨rfl, h⟩

theorem umacTail_iff (e : Env) (s : Name) (m : Meth) (he : NoPlus e) :
    composedUmacTail e s = .accept m ↔
      ∃ c g, s = c ++ [43] ++ g ∧ m = .composedUmac c g ∧ (e.iv c = some 0 ∨ Nonced e c) ∧ Nonced e g := by
  unfold composedUmacTail
  constructor
  · intro h
    cases hs : splitPlus s with
    | none => rw [hs] at h; cases h
    | some x =>
      obtain ⟨c, g⟩ := x
      rw [hs] at h
      obtain ⟨h1, h2⟩ := (composedChecks_accept ..).mp h
      exact ⟨c, g, (splitPlus_some _ _ _ hs).1, h1, h2⟩
  · rintro ⟨c, g, rfl, rfl, h⟩
    have hc : (43 : UInt8) ∉ c := by
      rcases h.1 with h | h
      · exact iv_noPlus he h
      · exact nonced_noPlus he h
    rw [splitPlus_append c g hc]
    exact (composedChecks_accept ..).mpr ⟨rfl, h⟩

/-- A suffix not containing `+` of a text ending in `+ g` is a suffix of `g` and conversely. -/
theorem ctr_suffix_plus (c g : Name) : ctr <:+ (c ++ [43] ++ g) ↔ ctr <:+ g := by
  constructor
  · intro h
    by_cases hl : ctr.length ≤ g.length
    · exact List.suffix_of_suffix_length_le h (List.suffix_append _ _) hl
    · exfalso
      have hg : [43] ++ g <:+ c ++ [43] ++ g := by
        rw [List.append_assoc]; exact List.suffix_append _ _
      have : [43] ++ g <:+ ctr := List.suffix_of_suffix_length_le hg h (by
        simp only [List.length_append, List.length_cons, List.length_nil]; omega)
      have hm : (43 : UInt8) ∈ ctr := this.subset (by simp)
      exact absurd hm (by decide)
  · intro h
    exact h.trans (List.suffix_append _ _)

theorem create_iff (e : Env) (he : NoPlus e) (name : Name) (p : Provider) (m : Meth) :
    p.create e name = .accept m ↔ m.provider = p ∧ Denotes e name m := by
  constructor
  · intro h
    cases p with
    | cipherTest =>
      rw [Provider.create] at h
      by_cases hs : ∃ p, name = p ++ sCipherTest
      · obtain ⟨c, rfl⟩ := hs
        rw [evalCipherTest] at h
        cases hi : e.iv c with
        | none => rw [hi] at h; cases h
        | some iv => rw [hi] at h; injection h with h; subst h; exact ⟨rfl, .cipherTest hi⟩
      · rw [evalCipherTest_ne e name hs] at h; cases h
    | composedGmac =>
      rw [Provider.create] at h
      by_cases hs : ∃ p, name = p ++ sDashGmac
      · obtain ⟨s, rfl⟩ := hs
        rw [evalCGmacCtr] at h
        split at h
        · rename_i hgh
          obtain ⟨c, g, h1, rfl, h2, h3⟩ := (gmacTail_iff _ _ _ he).mp h
          have hc : ctr <:+ g := (ctr_suffix_plus c g).mp ⟨s, h1⟩
          obtain ⟨q, rfl⟩ := hc
          rw [← List.append_assoc] at h1
          have := (List.append_inj' h1 rfl).1
          subst this
          exact ⟨rfl, .composedGmacCtr hgh h2 h3⟩
        · cases h
      · by_cases hs2 : ∃ p, name = p ++ sPlusGmac
        · obtain ⟨s, rfl⟩ := hs2
          rw [evalCGmac] at h
          split at h
          · rename_i hgh
            obtain ⟨c, g, rfl, rfl, h2, h3⟩ := (gmacTail_iff _ _ _ he).mp h
            exact ⟨rfl, .composedGmac hgh.1 h2 h3 (fun hh => hgh.2 ((ctr_suffix_plus c g).mpr hh))⟩
          · cases h
        · rw [evalCGmac_ne e name hs hs2] at h; cases h
    | composedUmac =>
      rw [Provider.create] at h
      by_cases hs : ∃ p, name = p ++ sPlusUmac
      · obtain ⟨s, rfl⟩ := hs
        rw [evalCUmac] at h
        split at h
        · rename_i hu
          obtain ⟨c, g, rfl, rfl, h2, h3⟩ := (umacTail_iff _ _ _ he).mp h
          exact ⟨rfl, .composedUmac hu h2 h3⟩
        · cases h
      · rw [evalCUmac_ne e name hs] at h; cases h
    | genericGmac =>
      rw [Provider.create] at h
      by_cases hs : ∃ p, name = p ++ sGcm
      · obtain ⟨s, rfl⟩ := hs
        rw [evalGcm] at h
        split at h
        · rename_i hgh
          obtain ⟨rfl, h2⟩ := (genericChecks_accept ..).mp h
          exact ⟨rfl, .genericGcm hgh h2⟩
        · cases h
      · by_cases hs2 : ∃ p, name = p ++ sPlusGmac
        · obtain ⟨s, rfl⟩ := hs2
          rw [evalGmac] at h
          split at h
          · rename_i hgh
            obtain ⟨rfl, h2⟩ := (genericChecks_accept ..).mp h
            exact ⟨rfl, .genericGmac hgh.1 h2 hgh.2⟩
          · cases h
        · rw [evalGmac_ne e name hs hs2] at h; cases h
    | genericPoly1305 =>
      rw [Provider.create] at h
      by_cases hs : ∃ p, name = p ++ sPoly1305
      · obtain ⟨s, rfl⟩ := hs
        rw [evalPoly] at h
        obtain ⟨rfl, h2⟩ := (genericChecks_accept ..).mp h
        exact ⟨rfl, .genericPoly1305 h2⟩
      · rw [evalPoly_ne e name hs] at h; cases h
    | genericUmac =>
      rw [Provider.create] at h
      by_cases hs : ∃ p, name = p ++ sPlusUmac
      · obtain ⟨s, rfl⟩ := hs
        rw [evalUmac] at h
        split at h
        · rename_i hu
          obtain ⟨rfl, h2⟩ := (genericChecks_accept ..).mp h
          exact ⟨rfl, .genericUmac hu h2⟩
        · cases h
      · rw [evalUmac_ne e name hs] at h; cases h
    | null =>
      rw [Provider.create] at h
      split at h
      · rename_i hn; subst hn; injection h with h; subst h; exact ⟨rfl, .null⟩
      · cases h
    | nullL2tp =>
      rw [Provider.create] at h
      split at h
      · rename_i hn; subst hn; injection h with h; subst h; exact ⟨rfl, .nullL2tp⟩
      · cases h
  · rintro ⟨rfl, hd⟩
    cases hd with
    | cipherTest h => simp only [Meth.provider, Provider.create, evalCipherTest, h]
    | @composedGmacCtr c p h1 h2 h3 =>
      simp only [Meth.provider, Provider.create, evalCGmacCtr, h1, if_true]
      exact (gmacTail_iff _ _ _ he).mpr ⟨c, p ++ ctr, by simp, rfl, h2, h3⟩
    | @composedGmac c g h1 h2 h3 h4 =>
      simp only [Meth.provider, Provider.create, evalCGmac]
      rw [if_pos ⟨h1, fun h => h4 ((ctr_suffix_plus c g).mp h)⟩]
      exact (gmacTail_iff _ _ _ he).mpr ⟨c, g, rfl, rfl, h2, h3⟩
    | @composedUmac c u h1 h2 h3 =>
      simp only [Meth.provider, Provider.create, evalCUmac, h1, if_true]
      exact (umacTail_iff _ _ _ he).mpr ⟨c, u, rfl, rfl, h2, h3⟩
    | genericGcm h1 h2 =>
      simp only [Meth.provider, Provider.create, evalGcm, h1, if_true]
      exact (genericChecks_accept ..).mpr ⟨rfl, h2⟩
    | genericGmac h1 h2 h3 =>
      simp only [Meth.provider, Provider.create, evalGmac]
      rw [if_pos ⟨h1, h3⟩]
      exact (genericChecks_accept ..).mpr ⟨rfl, h2⟩
    | genericPoly1305 h1 =>
      simp only [Meth.provider, Provider.create, evalPoly]
      exact (genericChecks_accept ..).mpr ⟨rfl, h1⟩
    | genericUmac h1 h2 =>
      simp only [Meth.provider, Provider.create, evalUmac, h1, if_true]
      exact (genericChecks_accept ..).mpr ⟨rfl, h2⟩
    | null => rfl
    | nullL2tp => rfl

/-! ## The grammar is unambiguous -/

theorem split_unique {a b a' b' : Name} (h : a ++ [43] ++ b = a' ++ [43] ++ b') (ha : (43 : UInt8) ∉ a)
    (ha' : (43 : UInt8) ∉ a') : a = a' ∧ b = b' := by
  have h1 := splitPlus_append a b ha
  rw [h, splitPlus_append a' b' ha'] at h1
  simp only [Option.some.injEq, Prod.mk.injEq] at h1
  exact ⟨h1.1.symm, h1.2.symm⟩

/-- The end of a name together with the rest. -/
inductive Shape
  | cipherTest | dashGmac | plusGmac | umac | gcm | poly | null | l2tp

def Shape.suf : Shape → Name
  | .cipherTest => sCipherTest
  | .dashGmac => sDashGmac
  | .plusGmac => sPlusGmac
  | .umac => sPlusUmac
  | .gcm => sGcm
  | .poly => sPoly1305
  | .null => sNull
  | .l2tp => sNullL2tp

theorem shape_unique {p q : Name} {s t : Shape} (h : p ++ s.suf = q ++ t.suf) : s = t ∧ p = q := by
  have := congrArg List.reverse h
  cases s <;> cases t <;>
    simp [Shape.suf, sCipherTest, sDashGmac, sPlusGmac, sPlusUmac, sGcm, sPoly1305, sNull, sNullL2tp] at this ⊢
  all_goals exact this

/-- What a method's name looks like, by shape. -/
theorem denotes_shape {e : Env} {name : Name} {m : Meth} (h : Denotes e name m) :
    ∃ (s : Shape) (p : Name), name = p ++ s.suf ∧
      match s, m with
      | .cipherTest, .cipherTest c => p = c
      | .dashGmac, .composedGmac c g => (e.iv c = some 0 ∨ Nonced e c) ∧ p ++ ctr = c ++ [43] ++ g ∧ Nonced e g ∧ ctr <:+ g
      | .plusGmac, .composedGmac c g => (e.iv c = some 0 ∨ Nonced e c) ∧ p = c ++ [43] ++ g ∧ ¬ ctr <:+ g
      | .plusGmac, .genericGmac c => p = c ∧ Nonced e c ∧ ¬ ctr <:+ c
      | .umac, .composedUmac c u => (e.iv c = some 0 ∨ Nonced e c) ∧ p = c ++ [43] ++ u
      | .umac, .genericUmac c => p = c ∧ Nonced e c
      | .gcm, .genericGmac c => p ++ ctr = c
      | .poly, .genericPoly1305 c => p = c
      | .null, .null => p = []
      | .l2tp, .nullL2tp => p = []
      | _, _ => False := by
  cases h with
  | cipherTest h => exact ⟨.cipherTest, _, rfl, rfl⟩
  | @composedGmacCtr c p h1 h2 h3 => exact ⟨.dashGmac, _, rfl, h2, by simp, h3, ⟨p, rfl⟩⟩
  | composedGmac h1 h2 h3 h4 => exact ⟨.plusGmac, _, rfl, h2, rfl, h4⟩
  | composedUmac h1 h2 h3 => exact ⟨.umac, _, rfl, h2, rfl⟩
  | genericGcm h1 h2 => exact ⟨.gcm, _, rfl, rfl⟩
  | genericGmac h1 h2 h3 => exact ⟨.plusGmac, _, rfl, rfl, h2, h3⟩
  | genericPoly1305 h1 => exact ⟨.poly, _, rfl, rfl⟩
  | genericUmac h1 h2 => exact ⟨.umac, _, rfl, rfl, h2⟩
  | null => exact ⟨.null, [], rfl, rfl⟩
  | nullL2tp => exact ⟨.l2tp, [], rfl, rfl⟩

theorem first_noPlus {e : Env} (he : NoPlus e) {c : Name} (h : e.iv c = some 0 ∨ Nonced e c) : (43 : UInt8) ∉ c := by
  rcases h with h | h
  · exact iv_noPlus he h
  · exact nonced_noPlus he h

/-- A name denotes at most one method. -/
theorem denotes_functional {e : Env} (he : NoPlus e) {name : Name} {m m' : Meth}
    (h : Denotes e name m) (h' : Denotes e name m') : m = m' := by
  obtain ⟨s, p, h1, h2⟩ := denotes_shape h
  obtain ⟨t, q, h3, h4⟩ := denotes_shape h'
  rw [h1] at h3
  obtain ⟨rfl, rfl⟩ := shape_unique h3
  cases s <;> cases m <;> first | exact absurd h2 id | skip
  all_goals (cases m' <;> first | exact absurd h4 id | skip)
  case cipherTest c c' => rw [← h2, ← h4]
  case dashGmac c g c' g' =>
    obtain ⟨ha, hb, -, -⟩ := h2
    obtain ⟨ha', hb', -, -⟩ := h4
    rw [hb] at hb'
    obtain ⟨rfl, rfl⟩ := split_unique hb' (first_noPlus he ha) (first_noPlus he ha')
    rfl
  case composedGmac.composedGmac c g c' g' =>
    obtain ⟨ha, hb, -⟩ := h2
    obtain ⟨ha', hb', -⟩ := h4
    rw [hb] at hb'
    obtain ⟨rfl, rfl⟩ := split_unique hb' (first_noPlus he ha) (first_noPlus he ha')
    rfl
  case composedGmac.genericGmac c g c' =>
    obtain ⟨ha, hb, -⟩ := h2
    obtain ⟨hb', hc, -⟩ := h4
    exact absurd (nonced_noPlus he hc) (by rw [← hb', hb]; simp)
  case genericGmac.composedGmac c c' g' =>
    obtain ⟨hb', hc, -⟩ := h2
    obtain ⟨ha, hb, -⟩ := h4
    exact absurd (nonced_noPlus he hc) (by rw [← hb', hb]; simp)
  case genericGmac.genericGmac c c' => rw [← h2.1, ← h4.1]
  case umac.composedUmac.composedUmac c g c' g' =>
    obtain ⟨ha, hb⟩ := h2
    obtain ⟨ha', hb'⟩ := h4
    rw [hb] at hb'
    obtain ⟨rfl, rfl⟩ := split_unique hb' (first_noPlus he ha) (first_noPlus he ha')
    rfl
  case umac.composedUmac.genericUmac c g c' =>
    obtain ⟨ha, hb⟩ := h2
    obtain ⟨hb', hc⟩ := h4
    exact absurd (nonced_noPlus he hc) (by rw [← hb', hb]; simp)
  case umac.genericUmac.composedUmac c c' g' =>
    obtain ⟨hb', hc⟩ := h2
    obtain ⟨ha, hb⟩ := h4
    exact absurd (nonced_noPlus he hc) (by rw [← hb', hb]; simp)
  case umac.genericUmac.genericUmac c c' => rw [← h2.1, ← h4.1]
  case gcm c c' => rw [← h2, ← h4]
  case poly c c' => rw [← h2, ← h4]
  case null => rfl
  case l2tp => rfl

/-- A method has at most one name. -/
theorem denotes_injective {e : Env} {name name' : Name} {m : Meth}
    (h : Denotes e name m) (h' : Denotes e name' m) : name = name' := by
  obtain ⟨s, p, rfl, h2⟩ := denotes_shape h
  obtain ⟨t, q, rfl, h4⟩ := denotes_shape h'
  cases m <;> cases s <;> first | exact absurd h2 id | skip
  all_goals (cases t <;> first | exact absurd h4 id | skip)
  case cipherTest => rw [show p = q from h2.trans h4.symm]
  case composedGmac.dashGmac.dashGmac =>
    obtain ⟨-, hb, -, -⟩ := h2
    obtain ⟨-, hb', -, -⟩ := h4
    rw [← hb'] at hb
    rw [(List.append_inj' hb rfl).1]
  case composedGmac.dashGmac.plusGmac => exact absurd h2.2.2.2 h4.2.2
  case composedGmac.plusGmac.dashGmac => exact absurd h4.2.2.2 h2.2.2
  case composedGmac.plusGmac.plusGmac => rw [h2.2.1, h4.2.1]
  case composedUmac => rw [h2.2, h4.2]
  case genericGmac.plusGmac.plusGmac => rw [h2.1, h4.1]
  case genericGmac.plusGmac.gcm => exact absurd ⟨q, h4⟩ h2.2.2
  case genericGmac.gcm.plusGmac => exact absurd ⟨p, h2⟩ h4.2.2
  case genericGmac.gcm.gcm =>
    have h5 : p ++ ctr = q ++ ctr := h2.trans h4.symm
    rw [(List.append_inj' h5 rfl).1]
  case genericPoly1305 => rw [show p = q from h2.trans h4.symm]
  case genericUmac => rw [h2.1, h4.1]
  case null => rw [show p = q from h2.trans h4.symm]
  case nullL2tp => rw [show p = q from h2.trans h4.symm]

/-! ## The property -/

theorem denotes_ne_nil {e : Env} {m : Meth} (h : Denotes e [] m) : False := by
  obtain ⟨s, p, h1, h2⟩ := denotes_shape h
  have := congrArg List.length h1
  cases s <;> simp [Shape.suf, sCipherTest, sDashGmac, sPlusGmac, sPlusUmac, sGcm, sPoly1305, sNull, sNullL2tp] at this

theorem emptyArray_nil {e : Env} {name : Name} {p : Provider} (h : p.emptyArray e name = true) : name = [] := by
  cases p <;> simp_all [Provider.emptyArray]

/-- C64: whichever providers are compiled in and in whatever order they are asked, a name is accepted
as method `m` exactly if `m` is provided by one of them and `name` is its name according to the grammar. -/
theorem C64_accept (e : Env) (he : NoPlus e) (ps : List Provider) (name : Name) (m : Meth) :
    createByName e ps name = .accept m ↔ m.provider ∈ ps ∧ Denotes e name m := by
  induction ps with
  | nil => simp [createByName]
  | cons p ps ih =>
    rw [createByName]
    by_cases hu : p.emptyArray e name = true
    · rw [if_pos hu]
      have := emptyArray_nil hu
      subst this
      exact ⟨(fun h => by cases h), fun h => (denotes_ne_nil h.2).elim⟩
    rw [if_neg hu]
    have hi := fun m => create_iff e he name p m
    cases hc : p.create e name with
    | accept m' =>
      obtain ⟨h1, h2⟩ := (hi m').mp hc
      constructor
      · intro h
        injection h with h
        subst h
        exact ⟨by simp [h1], h2⟩
      · rintro ⟨-, h⟩
        rw [denotes_functional he h h2]
    | reject =>
      simp only [List.mem_cons]
      rw [ih]
      constructor
      · rintro ⟨h1, h2⟩; exact ⟨.inr h1, h2⟩
      · rintro ⟨rfl | h1, h2⟩
        · have := (hi m).mpr ⟨rfl, h2⟩
          rw [hc] at this; cases this
        · exact ⟨h1, h2⟩
    | overflow => exact absurd hc (create_ne_overflow _ _ _).1
    | undef => exact absurd hc (create_ne_overflow _ _ _).2

/-- C64: at most one provider accepts a name, whatever providers there are. -/
theorem C64_one_provider (e : Env) (he : NoPlus e) (name : Name) (p p' : Provider) (m m' : Meth)
    (h : p.create e name = .accept m) (h' : p'.create e name = .accept m') : p = p' ∧ m = m' := by
  obtain ⟨h1, h2⟩ := (create_iff e he name p m).mp h
  obtain ⟨h3, h4⟩ := (create_iff e he name p' m').mp h'
  have := denotes_functional he h2 h4
  subst this
  exact ⟨h1.symm.trans h3, rfl⟩

/-- C64: different names stand for different methods. -/
theorem C64_one_name (e : Env) (he : NoPlus e) (ps ps' : List Provider) (name name' : Name) (m : Meth)
    (h : createByName e ps name = .accept m) (h' : createByName e ps' name' = .accept m) : name = name' :=
  denotes_injective ((C64_accept e he ps name m).mp h).2 ((C64_accept e he ps' name' m).mp h').2

/-- C64: the buffers used for the cipher names are never overrun. -/
theorem C64_no_overflow (e : Env) (ps : List Provider) (name : Name) : createByName e ps name ≠ .overflow := by
  induction ps with
  | nil => simp [createByName]
  | cons p ps ih =>
    rw [createByName]
    split
    · simp
    cases hc : p.create e name with
    | accept m => simp
    | reject => exact ih
    | overflow => exact absurd hc (create_ne_overflow _ _ _).1
    | undef => simp

/-- C64: undefined behaviour occurs for the empty name only, and it does occur if there is one of the composed methods: an array of size 0 is
declared. -/
theorem C64_undef (e : Env) (he : NoPlus e) (ps : List Provider) (name : Name) :
    createByName e ps name = .undef ↔ name = [] ∧ ((.composedGmac ∈ ps ∧ e.ghash = true) ∨ (.composedUmac ∈ ps ∧ e.uhash = true)) := by
  induction ps with
  | nil => simp [createByName]
  | cons p ps ih =>
    rw [createByName]
    by_cases hu : p.emptyArray e name = true
    · rw [if_pos hu]
      refine ⟨fun _ => ⟨emptyArray_nil hu, ?_⟩, fun _ => rfl⟩
      cases p <;> simp_all [Provider.emptyArray]
    · rw [if_neg hu]
      cases hc : p.create e name with
      | accept m =>
        have hd := ((create_iff e he name p m).mp hc).2
        refine ⟨(fun h => by cases h), fun h => ?_⟩
        obtain ⟨rfl, -⟩ := h
        exact (denotes_ne_nil hd).elim
      | reject =>
        show createByName e ps name = .undef ↔ _
        rw [ih]
        cases p <;> cases hg : e.ghash <;> cases hv : e.uhash <;> simp_all [Provider.emptyArray]
      | overflow => exact absurd hc (create_ne_overflow _ _ _).1
      | undef => exact absurd hc (create_ne_overflow _ _ _).2

/-- C64: the cipher lookup used by the grammar finds a cipher exactly if it exists and is available. -/
theorem C64_lookup (e : Env) (hu : (e.ciphers.map Cipher.name).Nodup) (c : Name) (iv : Nat) :
    e.iv c = some iv ↔ ⟨c, iv, true⟩ ∈ e.ciphers := by
  unfold Env.iv
  generalize e.ciphers = cs at *
  induction cs with
  | nil => simp [lookupIn]
  | cons x xs ih =>
    simp only [List.map_cons, List.nodup_cons] at hu
    rw [lookupIn]
    by_cases hx : x.name = c
    · rw [if_neg (by simp [hx])]
      obtain ⟨n, i, a⟩ := x
      simp only [] at hx hu
      subst hx
      have hm : (⟨n, iv, true⟩ : Cipher) ∉ xs := fun hm => hu.1 (List.mem_map.mpr ⟨_, hm, rfl⟩)
      simp only [List.mem_cons, hm, or_false, Cipher.mk.injEq, true_and]
      cases a with
      | true => simp only [if_true, Option.some.injEq, and_true]; exact eq_comm
      | false => simp
    · rw [if_pos hx, ih hu.2, List.mem_cons]
      constructor
      · exact .inr
      · rintro (rfl | h)
        · exact absurd rfl hx
        · exact h

/-- The hypothesis about cipher names holds for the ciphers that exist, whichever of them are compiled
in and available. -/
theorem C64_ciphers (e : Env) (h : ∀ c ∈ e.ciphers, c.name ∈ allCiphers.map Cipher.name) :
    NoPlus e := by
  intro c hc
  have : c.name ∈ allCiphers.map Cipher.name := h c hc
  revert this
  generalize c.name = n
  simp only [allCiphers, List.map_cons, List.map_nil, List.mem_cons, List.not_mem_nil, or_false]
  rintro (rfl | rfl | rfl | rfl) <;> decide

/-! ## Examples -/

private def env : Env := ⟨allCiphers, true, true⟩
private def str (s : String) : Name := s.toUTF8.toList

example : createByName env allProviders (str "salsa2012+umac") = .accept (.genericUmac (str "salsa2012")) := by
  decide +kernel
example : createByName env allProviders (str "aes128-gcm") = .accept (.genericGmac (str "aes128-ctr")) := by
  decide +kernel
example : createByName env allProviders (str "null+salsa2012+umac") =
    .accept (.composedUmac (str "null") (str "salsa2012")) := by decide +kernel
example : createByName env allProviders (str "salsa20+aes128-gmac") =
    .accept (.composedGmac (str "salsa20") (str "aes128-ctr")) := by decide +kernel
example : createByName env allProviders (str "aes128-ctr+gmac") = .reject := by decide +kernel
example : createByName env allProviders (str "null+gmac") = .reject := by decide +kernel
example : createByName env allProviders (str "null@l2tp") = .accept .nullL2tp := by decide +kernel

/-- The empty name, which a configuration may contain -/
example : createByName env allProviders [] = .undef ∧ createByName env [.null, .cipherTest, .genericUmac] [] = .reject := by decide +kernel

end Fastd.Config.MethodNames
