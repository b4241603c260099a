import Verif.Offload.Decode

/-!
# Netlink: lemmas about reading messages
-/

namespace Fastd.Netlink

/-! ## Reading stays within the buffer -/

theorem rd8_some {b : Bytes} {off : Nat} (h : off < b.length) : ∃ n, rd8 b off = some n ∧ n < 256 := by
  refine ⟨b[off].toNat, ?_, UInt8.toNat_lt _⟩
  unfold rd8
  rw [List.getElem?_eq_getElem h]
  rfl

theorem rd16_some {b : Bytes} {off : Nat} (h : off + 1 < b.length) : ∃ n, rd16 b off = some n ∧ n < 65536 := by
  obtain ⟨x, hx, hx'⟩ := rd8_some (b := b) (off := off) (by omega)
  obtain ⟨y, hy, hy'⟩ := rd8_some (b := b) (off := off + 1) (by omega)
  refine ⟨x + 256 * y, ?_, by omega⟩
  unfold rd16
  rw [hx, hy]
  rfl

theorem rd32_some {b : Bytes} {off : Nat} (h : off + 3 < b.length) : ∃ n, rd32 b off = some n ∧ n < 4294967296 := by
  obtain ⟨x, hx, hx'⟩ := rd16_some (b := b) (off := off) (by omega)
  obtain ⟨y, hy, hy'⟩ := rd16_some (b := b) (off := off + 2) (by omega)
  refine ⟨x + 65536 * y, ?_, by omega⟩
  unfold rd32
  rw [hx, hy]
  rfl

theorem strncpy_safe {b : Bytes} {z : Nat} (hz : b[z]? = some 0) (n : Nat) :
    ∀ off, off ≤ z → ∃ l, strncpy b off n = some l ∧ l.length = n := by
  have hzl : z < b.length := by
    rcases Nat.lt_or_ge z b.length with hl | hl
    · exact hl
    · rw [List.getElem?_eq_none hl] at hz; cases hz
  induction n with
  | zero => exact fun off _ => ⟨[], rfl, rfl⟩
  | succ n ih =>
    intro off hoff
    unfold strncpy
    rw [List.getElem?_eq_getElem (show off < b.length by omega)]
    dsimp only
    by_cases hc : b[off]'(by omega) = 0
    · rw [if_pos hc]; exact ⟨_, rfl, by simp⟩
    · rw [if_neg hc]
      have hne : off ≠ z := by
        rintro rfl
        rw [List.getElem?_eq_getElem hzl] at hz
        exact hc (Option.some.inj hz)
      obtain ⟨l, hl, hll⟩ := ih (off + 1) (by omega)
      rw [hl]
      exact ⟨_, rfl, by simp [hll]⟩

/-- An array of 16 bytes with a string -/
def NameOk (l : Bytes) : Prop := l.length = 16 ∧ l.getLast? = some 0

theorem attrCb_safe {b : Bytes} {attr n : Nat} (cb : Cb) (s : St) (hn : rd16 b attr = some n) (h4 : 4 ≤ n) (hb : attr + n ≤ b.length) :
    ∃ r s', attrCb cb b attr s = some (r, s') ∧ (r = 1 ∨ r = -1) ∧ (NameOk s.ifname → NameOk s'.ifname) := by
  obtain ⟨t, ht, -⟩ := rd16_some (b := b) (off := attr + 2) (by omega)
  have hn16 : n < 65536 := by
    obtain ⟨m, hm, hm'⟩ := rd16_some (b := b) (off := attr) (by have := rd16_lt hn; omega)
    rw [hn] at hm
    cases hm; exact hm'
  have hp : attrPayloadLen b attr = some (n - 4) := by
    unfold attrPayloadLen
    rw [hn]
    simp only [Option.bind_eq_bind, Option.bind_some, Option.some.injEq]
    omega
  have hty : attrType b attr = some (t % 16384) := by unfold attrType; rw [ht]; rfl
  unfold attrCb
  rw [hty]
  simp only [Option.bind_eq_bind, Option.bind_some]
  cases cb with
  | getFamily =>
    dsimp only
    split
    · unfold validateU16
      rw [hp]
      simp only [Option.bind_eq_bind, Option.bind_some]
      by_cases h1 : n - 4 < 2
      · rw [if_pos h1]; exact ⟨-1, _, rfl, .inr rfl, id⟩
      · rw [if_neg h1]
        by_cases h2 : n - 4 > 2
        · rw [if_pos h2]; exact ⟨-1, _, rfl, .inr rfl, id⟩
        · rw [if_neg h2]
          obtain ⟨v, hv, -⟩ := rd16_some (b := b) (off := attr + 4) (by omega)
          simp only [Option.bind_some, hv]
          exact ⟨1, _, rfl, .inl rfl, id⟩
    · exact ⟨1, _, rfl, .inl rfl, id⟩
  | getIfname =>
    dsimp only
    split
    · unfold validateNulString
      rw [hp]
      simp only [Option.bind_eq_bind, Option.bind_some]
      by_cases h1 : n - 4 = 0
      · rw [if_pos h1]; exact ⟨-1, _, rfl, .inr rfl, id⟩
      · rw [if_neg h1]
        obtain ⟨c, hc, -⟩ := rd8_some (b := b) (off := attr + 4 + (n - 4 - 1)) (by omega)
        rw [hc]
        simp only [Option.bind_some]
        by_cases h2 : c ≠ 0
        · rw [if_pos h2]; exact ⟨-1, _, rfl, .inr rfl, id⟩
        · rw [if_neg h2]
          have hz : b[attr + 4 + (n - 4 - 1)]? = some 0 := by
            unfold rd8 at hc
            cases hg : b[attr + 4 + (n - 4 - 1)]? with
            | none => rw [hg] at hc; cases hc
            | some x =>
              rw [hg] at hc
              have : x.toNat = 0 := by
                have := Option.some.inj hc
                omega
              rw [UInt8.toNat_inj.1 (show x.toNat = (0 : UInt8).toNat from this)]
          obtain ⟨l, hl, hll⟩ := strncpy_safe hz 15 (attr + 4) (by omega)
          simp only [Option.bind_some, hl]
          exact ⟨1, _, rfl, .inl rfl, fun _ => ⟨by simp [hll], by simp⟩⟩
    · exact ⟨1, _, rfl, .inl rfl, id⟩

theorem int32_eq {n : Int} (h1 : -2147483648 ≤ n) (h2 : n < 2147483648) : int32 n = n := by
  unfold int32
  exact Int.bmod_eq_of_le (by omega) (by omega)

theorem attrLoop_safe {b : Bytes} {tail : Nat} (cb : Cb) (ht : tail ≤ b.length) (ht4 : tail % 4 = 0) (hb : b.length < 1073741824) :
    ∀ (k attr : Nat) (ret : Int) (s : St), b.length - attr ≤ k → attr % 4 = 0 → attr ≤ b.length + 20 →
      (ret = 1 ∨ ret = -1) → ∃ r s', attrLoop cb b tail attr ret s = .done r s' ∧ (r = 1 ∨ r = -1) ∧ (NameOk s.ifname → NameOk s'.ifname) := by
  intro k
  induction k with
  | zero =>
    intro attr ret s hk ha ha2 hr
    unfold attrLoop
    rw [int32_eq (by omega) (by omega)]
    simp only []
    rw [if_neg (by omega)]
    exact ⟨ret, s, rfl, hr, id⟩
  | succ k ih =>
    intro attr ret s hk ha ha2 hr
    unfold attrLoop
    rw [int32_eq (by omega) (by omega)]
    simp only []
    by_cases h4 : (4 : Int) ≤ (tail : Int) - attr
    · rw [if_pos h4]
      obtain ⟨n, hn, -⟩ := rd16_some (b := b) (off := attr) (by omega)
      split
      · rename_i h; rw [hn] at h; cases h
      · rename_i n' h
        rw [hn] at h
        cases h
        by_cases h5 : 4 ≤ n ∧ (n : Int) ≤ (tail : Int) - attr
        · rw [if_pos h5]
          obtain ⟨r, s', hcb, hr', hN⟩ := attrCb_safe cb s hn h5.1 (by omega)
          rw [hcb]
          dsimp only
          by_cases h6 : r ≤ 0
          · rw [if_pos h6]; exact ⟨r, s', rfl, hr', hN⟩
          · rw [if_neg h6]
            obtain ⟨r2, s2, he, hr2, hN2⟩ := ih (attr + align n) r s' (by unfold align; omega) (by unfold align; omega) (by unfold align; omega) hr'
            exact ⟨r2, s2, he, hr2, fun h => hN2 (hN h)⟩
        · rw [if_neg h5]; exact ⟨ret, s, rfl, hr, id⟩
    · rw [if_neg h4]; exact ⟨ret, s, rfl, hr, id⟩

theorem message_safe {b : Bytes} {nlh n type : Nat} (cb : Option Cb) (s : St) (hn : rd32 b nlh = some n) (h16 : 16 ≤ n)
    (hb : nlh + n ≤ b.length) (hb4 : b.length % 4 = 0) (hn4 : nlh % 4 = 0) (hbl : b.length < 1073741824) :
    message cb b nlh type s = none ∨
      ∃ r s', message cb b nlh type s = some (.done r s') ∧ (r = 1 ∨ r = 0 ∨ r = -1) ∧ (NameOk s.ifname → NameOk s'.ifname) := by
  unfold message
  split
  · cases cb with
    | none => exact .inl rfl
    | some cb =>
      right
      simp only [Option.map_some]
      unfold attrParse
      rw [hn]
      dsimp only
      have ha : align32 n = (n + 3) / 4 * 4 := by unfold align32; omega
      obtain ⟨r, s', he, hr, hN⟩ := attrLoop_safe (b := b) (tail := nlh + align32 n) cb (by omega) (by omega) hbl _ (nlh + 16 + align 4) 1 s
        (Nat.le_refl _) (by simp only [align]; omega) (by simp only [align]; omega) (.inl rfl)
      exact ⟨r, s', by rw [he], by omega, hN⟩
  · split
    · exact .inr ⟨1, s, rfl, .inl rfl, id⟩
    · split
      · right
        unfold cbError
        rw [hn]
        dsimp only
        split
        · exact ⟨-1, _, rfl, by omega, id⟩
        · obtain ⟨e, he, -⟩ := rd32_some (b := b) (off := nlh + 16) (by omega)
          rw [he]
          dsimp only
          split
          · exact ⟨0, _, rfl, by omega, id⟩
          · exact ⟨-1, _, rfl, by omega, id⟩
      · split
        · exact .inr ⟨0, s, rfl, by omega, id⟩
        · split
          · exact .inr ⟨1, s, rfl, by omega, id⟩
          · exact .inl rfl

theorem cbLoop_safe {b : Bytes} {len0 : Nat} (cb : Option Cb) (seq portid : Nat) (hl : len0 ≤ b.length) (hb4 : b.length % 4 = 0)
    (hbl : b.length < 1073741824)
    (H : ∀ off n, off % 4 = 0 → off + 16 ≤ len0 → rd32 b off = some n → n < 2147483648) :
    ∀ (fuel nlh : Nat) (len ret : Int) (s : St), len < fuel → 0 < fuel → -3 ≤ len → nlh + len = len0 → nlh % 4 = 0 →
      (ret = 1 ∨ ret = 0 ∨ ret = -1) →
      ∃ r s', cbLoop cb b seq portid fuel nlh len ret s = .done r s' ∧ (r = 1 ∨ r = 0 ∨ r = -1) ∧ (NameOk s.ifname → NameOk s'.ifname) := by
  intro fuel
  induction fuel with
  | zero =>
    intro nlh len ret s _ h0
    omega
  | succ fuel ih =>
    intro nlh len ret s h1 _ h2 h3 h4 h5
    unfold cbLoop
    by_cases h16 : (16 : Int) ≤ len
    · rw [if_pos h16]
      obtain ⟨n, hn, -⟩ := rd32_some (b := b) (off := nlh) (by omega)
      have hn31 := H nlh n h4 (by omega) hn
      rw [hn]
      dsimp only
      rw [int32_eq (by omega) (by omega)]
      by_cases h6 : 16 ≤ n ∧ (n : Int) ≤ len
      · rw [if_pos h6]
        obtain ⟨pid, hpid, -⟩ := rd32_some (b := b) (off := nlh + 12) (by omega)
        obtain ⟨ms, hms, -⟩ := rd32_some (b := b) (off := nlh + 8) (by omega)
        obtain ⟨fl, hfl, -⟩ := rd16_some (b := b) (off := nlh + 6) (by omega)
        obtain ⟨ty, hty, -⟩ := rd16_some (b := b) (off := nlh + 4) (by omega)
        rw [hpid, hms, hfl, hty]
        dsimp only
        have ha : align32 n = (n + 3) / 4 * 4 := by unfold align32; omega
        split
        · exact ⟨-1, _, rfl, by omega, id⟩
        · split
          · exact ⟨-1, _, rfl, by omega, id⟩
          · split
            · exact ⟨-1, _, rfl, by omega, id⟩
            · have hi : int32 (len - align32 n) = len - align32 n := int32_eq (by omega) (by omega)
              rcases message_safe (type := ty) cb s hn h6.1 (by omega) hb4 h4 hbl with hm | ⟨r, s', hm, hr, hN⟩
              · rw [hm]
                dsimp only
                rw [hi]
                exact ih _ _ ret s (by omega) (by omega) (by omega) (by omega) (by omega) h5
              · rw [hm]
                dsimp only
                split
                · exact ⟨r, s', rfl, hr, hN⟩
                · rw [hi]
                  obtain ⟨r2, s2, he, hr2, hN2⟩ := ih (nlh + align32 n) (len - align32 n) r s' (by omega) (by omega) (by omega) (by omega) (by omega) hr
                  exact ⟨r2, s2, he, hr2, fun h => hN2 (hN h)⟩
      · rw [if_neg h6]; exact ⟨ret, s, rfl, h5, id⟩
    · rw [if_neg h16]; exact ⟨ret, s, rfl, h5, id⟩

end Fastd.Netlink
