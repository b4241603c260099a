import Verif.Method.CommonLemmas
import Verif.Spec.Window

/-! Helper lemmas: the bitmap window refines the ideal session. -/

namespace Fastd.Method

open Spec

/-- The bitmap represents the set `seen` of received numbers. -/
structure Win (s : Common) (seen : List Nat) : Prop where
  le : ∀ m ∈ seen, m ≤ s.receiveNonce.val
  par : ∀ m ∈ seen, m % 2 = s.receiveNonce.val % 2
  mem : s.receiveNonce.val ∈ seen
  bits : ∀ k < 64, s.reorderSeen.getLsbD k = true ↔
    ∃ m ∈ seen, m + 2 * (k + 1) = s.receiveNonce.val

theorem parity_byte (a b : UInt8) : ((a &&& (1 : UInt8)) ≠ (b &&& (1 : UInt8))) ↔
    a.toNat % 2 ≠ b.toNat % 2 := by
  rw [ne_eq, ne_eq, ← UInt8.toNat_inj, UInt8.toNat_and, UInt8.toNat_and]
  have : (1 : UInt8).toNat = 1 := rfl
  rw [this, Nat.and_one_is_mod, Nat.and_one_is_mod]

/-- Does the (misplaced) parity test of the code let the nonce pass? -/
def topMatch (s : Common) (n : Nonce) : Prop :=
  n.val / 2 ^ 40 % 2 = s.receiveNonce.val / 2 ^ 40 % 2

theorem isNonceValid_eq (s : Common) (now : Time) (n : Nonce)
    (hp : n.val % 2 = s.receiveNonce.val % 2) (ht : topMatch s n) :
    isNonceValid s now n =
      if s.receiveNonce.val < n.val then some (nonceAge s.receiveNonce n)
      else if s.reorderTimeout ≤ now ∨ n.val + 2 * 64 < s.receiveNonce.val then none
      else some (nonceAge s.receiveNonce n) := by
  have ha := nonceAge_parity s.receiveNonce n hp
  have hb : ¬ (n[0] &&& (1 : UInt8)) ≠ (s.receiveNonce[0] &&& (1 : UInt8)) := by
    rw [parity_byte, first_byte, first_byte]
    exact not_not_intro ht
  unfold isNonceValid
  rw [if_neg hb]
  simp only []
  by_cases h1 : s.receiveNonce.val < n.val
  · rw [if_pos h1, if_neg (by omega)]
  · rw [if_neg h1, if_pos (by omega)]
    by_cases h2 : s.reorderTimeout ≤ now
    · simp [h2]
    · have : timedOut s.reorderTimeout now = false := by simp; omega
      simp only [this, h2, false_or]
      by_cases h3 : n.val + 2 * 64 < s.receiveNonce.val
      · rw [if_pos h3]; simp; omega
      · rw [if_neg h3]; simp; omega

theorem isNonceValid_top (s : Common) (now : Time) (n : Nonce) (ht : ¬ topMatch s n) :
    isNonceValid s now n = none := by
  unfold isNonceValid
  rw [if_pos]
  rw [parity_byte, first_byte, first_byte]
  exact ht

theorem win_inOrder {s : Common} {seen : List Nat} {n : Nonce} {now : Time} (hw : Win s seen)
    (hp : n.val % 2 = s.receiveNonce.val % 2) (hn : s.receiveNonce.val < n.val) :
    ∃ s', reorderCheck s now n (nonceAge s.receiveNonce n) = (.false, s') ∧
      Win s' (n.val :: seen) ∧ s'.receiveNonce = n ∧ s'.reorderTimeout = now + REORDER_TIME ∧
      s'.sendNonce = s.sendNonce ∧ s'.validTill = s.validTill := by
  have ha := nonceAge_parity s.receiveNonce n hp
  have hneg : nonceAge s.receiveNonce n < 0 := by omega
  obtain ⟨sh, hsh⟩ : ∃ sh : Nat, sh = (-nonceAge s.receiveNonce n).toNat := ⟨_, rfl⟩
  have hsh2 : n.val = s.receiveNonce.val + 2 * sh := by omega
  have hpos : 0 < sh := by omega
  unfold reorderCheck
  rw [if_pos hneg]
  simp only [← hsh]
  refine ⟨_, rfl, ⟨?_, ?_, ?_, ?_⟩, rfl, rfl, rfl, rfl⟩
  · intro m hm
    simp only [List.mem_cons] at hm
    rcases hm with rfl | hm
    · exact le_refl _
    · have := hw.le m hm; simp only []; omega
  · intro m hm
    simp only [List.mem_cons] at hm
    rcases hm with rfl | hm
    · rfl
    · have := hw.par m hm; simp only []; omega
  · simp
  · intro k hk
    simp only [List.mem_cons]
    have hmem := hw.mem
    by_cases h1 : sh ≤ 64
    · rw [if_pos h1, bit_set _ _ _ hk]
      simp only [Bool.or_eq_true, decide_eq_true_eq]
      constructor
      · rintro (h | h)
        · by_cases h2 : sh ≥ 64
          · simp [h2] at h
          · rw [if_neg h2, BitVec.getLsbD_shiftLeft] at h
            simp only [Bool.and_eq_true, decide_eq_true_eq, Bool.not_eq_true',
              decide_eq_false_iff_not] at h
            obtain ⟨m, hm, hm2⟩ := (hw.bits (k - sh) (by omega)).1 h.2
            exact ⟨m, Or.inr hm, by omega⟩
        · exact ⟨_, Or.inr hmem, by omega⟩
      · rintro ⟨m, hm | hm, hm2⟩
        · omega
        · have := hw.le m hm
          by_cases h3 : k + 1 = sh
          · right; omega
          · left
            have h2 : ¬ sh ≥ 64 := by omega
            rw [if_neg h2, BitVec.getLsbD_shiftLeft]
            simp only [Bool.and_eq_true, decide_eq_true_eq, Bool.not_eq_true',
              decide_eq_false_iff_not]
            exact ⟨⟨hk, by omega⟩, (hw.bits (k - sh) (by omega)).2 ⟨m, hm, by omega⟩⟩
    · rw [if_neg h1, if_pos (by omega)]
      simp only [BitVec.ofNat_eq_ofNat, BitVec.getLsbD_zero, Bool.false_eq_true, false_iff]
      rintro ⟨m, hm | hm, hm2⟩
      · omega
      · have := hw.le m hm
        omega

theorem win_dup {s : Common} {seen : List Nat} {n : Nonce} {now : Time} (hw : Win s seen)
    (hp : n.val % 2 = s.receiveNonce.val % 2) (hn : n.val ≤ s.receiveNonce.val)
    (h64 : s.receiveNonce.val ≤ n.val + 2 * 64) (hs : n.val ∈ seen) :
    reorderCheck s now n (nonceAge s.receiveNonce n) = (.undef, s) := by
  have ha := nonceAge_parity s.receiveNonce n hp
  unfold reorderCheck
  rw [if_neg (by omega), if_pos]
  by_cases h0 : nonceAge s.receiveNonce n = 0
  · exact Or.inl h0
  · right
    rw [bit_test _ _ (by omega), hw.bits _ (by omega)]
    exact ⟨_, hs, by omega⟩

theorem win_reordered {s : Common} {seen : List Nat} {n : Nonce} {now : Time} (hw : Win s seen)
    (hp : n.val % 2 = s.receiveNonce.val % 2) (hn : n.val ≤ s.receiveNonce.val)
    (h64 : s.receiveNonce.val ≤ n.val + 2 * 64) (hs : n.val ∉ seen) :
    ∃ s', reorderCheck s now n (nonceAge s.receiveNonce n) = (.true, s') ∧
      Win s' (n.val :: seen) ∧ s'.receiveNonce = s.receiveNonce ∧
      s'.reorderTimeout = s.reorderTimeout ∧
      s'.sendNonce = s.sendNonce ∧ s'.validTill = s.validTill := by
  have ha := nonceAge_parity s.receiveNonce n hp
  have hmem := hw.mem
  have hne : n.val ≠ s.receiveNonce.val := fun h => hs (h ▸ hmem)
  unfold reorderCheck
  rw [if_neg (by omega), if_neg]
  · refine ⟨_, rfl, ⟨?_, ?_, ?_, ?_⟩, rfl, rfl, rfl, rfl⟩
    · intro m hm
      simp only [List.mem_cons] at hm
      rcases hm with rfl | hm
      · exact hn
      · exact hw.le m hm
    · intro m hm
      simp only [List.mem_cons] at hm
      rcases hm with rfl | hm
      · exact hp
      · exact hw.par m hm
    · simp [hmem]
    · intro k hk
      simp only []
      rw [bit_set _ _ _ hk]
      simp only [Bool.or_eq_true, decide_eq_true_eq, List.mem_cons]
      rw [hw.bits k hk]
      constructor
      · rintro (⟨m, hm, hm2⟩ | h)
        · exact ⟨m, Or.inr hm, hm2⟩
        · exact ⟨_, Or.inl rfl, by omega⟩
      · rintro ⟨m, rfl | hm, hm2⟩
        · right; omega
        · exact Or.inl ⟨m, hm, hm2⟩
  · rintro (h | h)
    · omega
    · rw [bit_test _ _ (by omega), hw.bits _ (by omega)] at h
      obtain ⟨m, hm, hm2⟩ := h
      have : m = n.val := by omega
      exact hs (this ▸ hm)

end Fastd.Method
