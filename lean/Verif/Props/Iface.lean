import Verif.Config.Iface

/-!
# C58: interface names
-/

namespace Fastd.Config

/-- Specification of accepted patterns: no slash; a plain name, or one `%n`, or one `%k`. -/
inductive Pat : List UInt8 → Prop
  | plain {s : List UInt8} : 0x2f ∉ s → 0x25 ∉ s → Pat s
  | subst {a b : List UInt8} (c : UInt8) : 0x2f ∉ a → 0x25 ∉ a → 0x2f ∉ b → 0x25 ∉ b →
      (c = 0x6e ∨ c = 0x6b) → Pat (a ++ 0x25 :: c :: b)

theorem strchr_none (s : List UInt8) (c : UInt8) : strchr s c = none ↔ c ∉ s := by
  simp [strchr, List.findIdx?_eq_none_iff]
  constructor
  · intro h hc; exact h c hc rfl
  · intro h x hx he; exact h (he ▸ hx)

theorem strchr_append (a b : List UInt8) (c : UInt8) (h : c ∉ a) :
    strchr (a ++ c :: b) c = some a.length := by
  simp only [strchr]
  rw [List.findIdx?_append, (strchr_none a c).mpr h |> fun h => (by simpa [strchr] using h :
    a.findIdx? (· == c) = none)]
  simp [List.findIdx?_cons]

theorem strchr_split (s : List UInt8) (c : UInt8) (i : Nat) (h : strchr s c = some i) :
    ∃ a b, s = a ++ c :: b ∧ c ∉ a ∧ a.length = i := by
  induction s generalizing i with
  | nil => simp [strchr] at h
  | cons x s ih =>
    by_cases hx : x = c
    · subst hx
      simp [strchr, List.findIdx?_cons] at h
      exact ⟨[], s, by simp, by simp, by simp [h]⟩
    · simp only [strchr, List.findIdx?_cons, beq_iff_eq, hx, if_false, Option.map_eq_some_iff] at h
      obtain ⟨j, hj, rfl⟩ := h
      obtain ⟨a, b, e, ha, hl⟩ := ih j hj
      refine ⟨x :: a, b, by rw [e]; rfl, ?_, by simp [hl]⟩
      simp only [List.mem_cons, not_or]
      exact ⟨fun h => hx h.symm, ha⟩

theorem strrchr_append (a b : List UInt8) (c : UInt8) :
    strrchr (a ++ c :: b) c = some a.length ↔ c ∉ b := by
  constructor
  · intro h hb
    simp only [strrchr, Option.map_eq_some_iff] at h
    obtain ⟨j, hj, he⟩ := h
    obtain ⟨x, y, e, hx, hl⟩ := strchr_split _ c j hj
    have e2 := congrArg List.reverse e
    rw [List.reverse_reverse] at e2
    have hlen := congrArg List.length e2
    simp at hlen
    -- the suffix after the last occurrence does not contain c
    have hsuf : b = x.reverse := by
      have h3 := congrArg (List.drop (a.length + 1)) e2
      simp only [List.reverse_append, List.reverse_cons, List.append_assoc, List.singleton_append] at h3
      have l1 : (a ++ c :: b).drop (a.length + 1) = b := by
        rw [← List.drop_drop, List.drop_left]; rfl
      have l2 : (y.reverse ++ c :: x.reverse).drop (a.length + 1) = x.reverse := by
        have : a.length = y.reverse.length := by simp at he ⊢; omega
        rw [this, ← List.drop_drop, List.drop_left]; rfl
      rw [l1] at h3
      rw [h3]; exact l2
    rw [hsuf] at hb
    exact hx (by simpa using hb)
  · intro h
    have : (a ++ c :: b).reverse = b.reverse ++ c :: a.reverse := by simp
    simp only [strrchr, this]
    have := strchr_append b.reverse a.reverse c (by simpa using h)
    simp only [strchr] at this
    rw [this]
    simp

/-- C58. The configuration accepts exactly the patterns described. -/
theorem C58_accept (s : List UInt8) (hz : (0 : UInt8) ∉ s) : acceptIfname s = true ↔ Pat s := by
  unfold acceptIfname
  constructor
  · intro h
    split at h
    · simp at h
    · rename_i hs
      have hs : 0x2f ∉ s := by
        rw [← strchr_none]; simpa using hs
      split at h
      · rename_i i hi
        obtain ⟨a, b, e, ha, hl⟩ := strchr_split s _ i hi
        subst hl
        subst e
        split at h
        · simp at h
        · rename_i hr
          have hb := (strrchr_append a b 0x25).mp (by simpa using hr)
          split at h
          · simp at h
          · rename_i hc
            have e1 : (a ++ (0x25 : UInt8) :: b).getD (a.length + 1) 0 = b.getD 0 0 := by
              simp only [List.getD_eq_getElem?_getD]
              rw [List.getElem?_append_right (by omega)]
              simp
            rw [e1] at hc
            cases b with
            | nil => simp at hc
            | cons c b =>
              simp only [List.getD_cons_zero] at hc
              simp only [List.mem_append, List.mem_cons, not_or] at hs hb
              refine Pat.subst c hs.1 ha hs.2.2.2 hb.2 ?_
              by_cases h1 : c = 0x6e
              · exact .inl h1
              · right
                by_cases h2 : c = 0x6b
                · exact h2
                · exact absurd ⟨h1, h2⟩ hc
      · rename_i hn
        exact Pat.plain hs ((strchr_none s _).mp hn)
  · intro h
    cases h with
    | plain h1 h2 =>
      rw [(strchr_none s _).mpr h1, (strchr_none s _).mpr h2]
      simp
    | @subst a b c h1 h2 h3 h4 h5 =>
      have n1 : (0x2f : UInt8) ∉ a ++ 0x25 :: c :: b := by
        simp only [List.mem_append, List.mem_cons, not_or]
        refine ⟨h1, by decide, ?_, h3⟩
        rcases h5 with rfl | rfl <;> decide
      rw [(strchr_none _ _).mpr n1, strchr_append a _ _ h2]
      have hr := (strrchr_append a (c :: b) 0x25).mpr (by
        simp only [List.mem_cons, not_or]
        refine ⟨?_, h4⟩
        rcases h5 with rfl | rfl <;> decide)
      have e1 : (a ++ (0x25 : UInt8) :: c :: b).getD (a.length + 1) 0 = c := by
        simp only [List.getD_eq_getElem?_getD]
        rw [List.getElem?_append_right (by omega)]
        simp
      simp only [hr, e1]
      rcases h5 with rfl | rfl <;> simp

/-- The pattern that applies: the peer's own one, or the global one; a global name without pattern is
not used for peers if there may be several interfaces. -/
def applies (conf : Option (List UInt8)) (single : Bool) : Option IfPeer → Option (List UInt8)
  | none => conf
  | some p => p.ifname.or (if single then conf else conf.filter fun c => c.contains 0x25)

theorem pattern_eq (conf : Option (List UInt8)) (single : Bool) (peer : Option IfPeer) :
    choosePattern conf single peer = applies conf single peer := by
  have key : ∀ c : List UInt8, (strchr c 0x25).isSome = c.contains 0x25 := by
    intro c
    cases h : c.contains 0x25 with
    | true =>
      cases h2 : strchr c 0x25 with
      | none => rw [strchr_none] at h2; simp at h; exact absurd h h2
      | some i => rfl
    | false =>
      have : strchr c 0x25 = none := by rw [strchr_none]; simpa using h
      rw [this]; rfl
  cases peer with
  | none => rfl
  | some p =>
    simp only [applies, choosePattern]
    cases p.ifname with
    | some i => rfl
    | none =>
      cases conf with
      | none => cases single <;> rfl
      | some c =>
        have hk := key c
        rw [show (none : Option (List UInt8)).or
          (if single then some c else (some c).filter fun c => c.contains 0x25) =
          (if single then some c else (some c).filter fun c => c.contains 0x25) from rfl]
        simp only [Option.any, hk, Option.filter]
        by_cases hc : (0x25 : UInt8) ∈ c <;> cases single <;> simp [hc]

/-- C58. Without an applicable pattern the system chooses the name. -/
theorem C58_none (conf : Option (List UInt8)) (single : Bool) (peer : Option IfPeer)
    (h : applies conf single peer = none) : formatName conf single peer = .ok [] := by
  simp only [formatName]
  rw [pattern_eq, h]

/-- C58. A plain name is used as it is, cut off after 15 bytes. -/
theorem C58_plain (conf : Option (List UInt8)) (single : Bool) (peer : Option IfPeer) (s : List UInt8)
    (h : applies conf single peer = some s) (hp : 0x25 ∉ s) :
    formatName conf single peer = .ok (s.take 15) := by
  simp only [formatName]
  rw [pattern_eq, h]
  simp only [(strchr_none s _).mpr hp]
  rfl

/-- C58. In `%n` and `%k` patterns the name or the first digits of the key are inserted, once, even
if they contain percent signs themselves, and the result is cut off after 15 bytes. If there is no
peer, or it has no name or no key, the pattern is refused. -/
theorem C58_subst (conf : Option (List UInt8)) (single : Bool) (peer : Option IfPeer) (a b : List UInt8)
    (c : UInt8) (h : applies conf single peer = some (a ++ 0x25 :: c :: b)) (ha : 0x25 ∉ a)
    (hc : c = 0x6e ∨ c = 0x6b) :
    formatName conf single peer =
      match peer.bind fun p => if c = 0x6e then p.name else p.key with
      | some v => .ok ((a ++ v ++ b).take 15)
      | none => .refused := by
  simp only [formatName]
  rw [pattern_eq, h]
  have e1 : (a ++ (0x25 : UInt8) :: c :: b).getD (a.length + 1) 0 = c := by
    simp only [List.getD_eq_getElem?_getD]
    rw [List.getElem?_append_right (by omega)]
    simp
  have e2 : (a ++ (0x25 : UInt8) :: c :: b).drop (a.length + 2) = b := by
    rw [← List.drop_drop, List.drop_left]; rfl
  simp only [strchr_append a _ _ ha, e1, e2, List.take_left]
  cases peer with
  | none => rfl
  | some p =>
    simp only [Option.bind_some]
    rcases hc with rfl | rfl
    · simp only [if_true]; cases p.name <;> rfl
    · have : ¬ ((0x6b : UInt8) = 0x6e) := by decide
      simp only [this, if_false, if_true]; cases p.key <;> rfl

/-- C58. With patterns accepted by the configuration the name always fits into the buffer with its
terminating NUL and the internal error is never reached. -/
theorem C58_bounded (conf : Option (List UInt8)) (single : Bool) (peer : Option IfPeer)
    (h1 : ∀ s, conf = some s → Pat s) (h2 : ∀ p s, peer = some p → p.ifname = some s → Pat s) :
    formatName conf single peer ≠ .bug ∧
      ∀ n, formatName conf single peer = .ok n → n.length < IFNAMSIZ := by
  have hp : ∀ s, applies conf single peer = some s → Pat s := by
    intro s hs
    cases peer with
    | none => exact h1 s hs
    | some p =>
      simp only [applies] at hs
      cases hi : p.ifname with
      | some i => rw [hi] at hs; simp at hs; exact h2 p s rfl (by rw [hi, hs])
      | none =>
        rw [hi] at hs
        simp only [Option.none_or] at hs
        cases single with
        | true => exact h1 s (by simpa using hs)
        | false =>
          simp only [Bool.false_eq_true, if_false, Option.filter_eq_some_iff] at hs
          exact h1 s hs.1
  cases ha : applies conf single peer with
  | none => rw [C58_none conf single peer ha]; simp [IFNAMSIZ]
  | some s =>
    cases hp s ha with
    | plain _ hs =>
      rw [C58_plain conf single peer s ha hs]
      simp [IFNAMSIZ]; omega
    | @subst a b c _ hs _ _ hc =>
      rw [C58_subst conf single peer a b c ha hs hc]
      cases peer.bind fun p => if c = 0x6e then p.name else p.key with
      | none => simp
      | some v => simp only [ne_eq, reduceCtorEq, not_false_eq_true, NameRes.ok.injEq, true_and]
                  rintro n rfl; simp [IFNAMSIZ]; omega

private def b (s : String) : List UInt8 := s.toList.map fun c => UInt8.ofNat c.toNat

example : acceptIfname (b "mesh-%n") = true ∧ acceptIfname (b "%k%n") = false ∧
    acceptIfname (b "a/b") = false ∧ acceptIfname (b "a%") = false ∧ acceptIfname (b "a%d") = false := by
  decide +kernel

example : formatName (some (b "m-%n-x")) false (some ⟨none, some (b "100%k"), none⟩) = .ok (b "m-100%k-x") ∧
    formatName (some (b "mesh-%k")) false (some ⟨none, none, some (b "0123456789abcdef")⟩) =
      .ok (b "mesh-0123456789") ∧
    formatName (some (b "mesh-%n")) false (some ⟨none, none, some (b "01")⟩) = .refused ∧
    formatName (some (b "mesh")) false (some ⟨none, none, none⟩) = .ok [] ∧
    formatName (some (b "mesh")) true (some ⟨none, none, none⟩) = .ok (b "mesh") := by decide +kernel

end Fastd.Config
