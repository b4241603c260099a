import Verif.Crypto.Util
import Mathlib.Data.List.GetD
import Mathlib.Data.List.TakeWhile

/-!
# C50, C51, C52, C59: comparison, key text format, key division, random delays
-/

namespace Fastd.Util

/-! ## C50 -/

theorem xor_eq_zero8 (a b : UInt8) : a ^^^ b = 0 ↔ a = b := UInt8.xor_eq_zero_iff
theorem or_eq_zero8 (a b : UInt8) : a ||| b = 0 ↔ a = 0 ∧ b = 0 := UInt8.or_eq_zero_iff

theorem memequalLoop_eq (s1 s2 : Bytes) (n i : Nat) (h1 : i + n ≤ s1.length) (h2 : i + n ≤ s2.length)
    (v : UInt8) :
    ∃ r, memequalLoop s1 s2 i n v = some r ∧
      (r = 0 ↔ v = 0 ∧ (s1.drop i).take n = (s2.drop i).take n) := by
  induction n generalizing i v with
  | zero => exact ⟨v, rfl, by simp⟩
  | succ n ih =>
    have e1 : s1[i]? = some s1[i] := List.getElem?_eq_getElem (by omega)
    have e2 : s2[i]? = some s2[i] := List.getElem?_eq_getElem (by omega)
    obtain ⟨r, hr, hiff⟩ := ih (i + 1) (by omega) (by omega) (v ||| (s1[i] ^^^ s2[i]))
    refine ⟨r, by simp [memequalLoop, e1, e2, hr], ?_⟩
    rw [hiff, or_eq_zero8, xor_eq_zero8]
    rw [List.drop_eq_getElem_cons (show i < s1.length by omega),
      List.drop_eq_getElem_cons (show i < s2.length by omega)]
    simp only [List.take_succ_cons, List.cons.injEq]
    constructor
    · rintro ⟨⟨a, b⟩, c⟩; exact ⟨a, b, c⟩
    · rintro ⟨a, b, c⟩; exact ⟨⟨a, b⟩, c⟩

/-- C50. `secure_memequal` reads only the first `n` bytes of its arguments and returns true exactly
if they are equal. -/
theorem C50_memequal (s1 s2 : Bytes) (n : Nat) (h1 : n ≤ s1.length) (h2 : n ≤ s2.length) :
    secureMemequal s1 s2 n = some (decide (s1.take n = s2.take n)) := by
  obtain ⟨r, hr, hiff⟩ := memequalLoop_eq s1 s2 n 0 (by omega) (by omega) 0
  simp only [List.drop_zero, true_and] at hiff
  simp only [secureMemequal, hr, Option.bind_eq_bind, Option.bind_some, ← hiff]
  rfl

/-- A difference in a single bit of the last byte is noticed; two differences do not cancel out. -/
example : secureMemequal [1, 2, 3] [1, 2, 0x83] 3 = some false ∧
    secureMemequal [1, 2, 3] [0, 3, 3] 3 = some false ∧
    secureMemequal [1, 2, 3] [1, 2, 9] 2 = some true := by decide

/-- C50. `block_equal` returns true exactly for equal blocks. -/
theorem C50_block (a b : Block) : blockEqual a b = true ↔ a = b := by
  cases a; cases b
  simp only [blockEqual, beq_iff_eq, UInt32.or_eq_zero_iff, UInt32.xor_eq_zero_iff, Block.mk.injEq]
  simp [and_assoc]

example : blockEqual ⟨1, 2, 3, 4⟩ ⟨1, 2, 3, 5⟩ = false ∧ blockEqual ⟨1, 2, 3, 4⟩ ⟨1, 2, 3, 4⟩ = true := by
  decide

/-! ## C51 -/

/-- Specification: hexadecimal digits in either case and their values. -/
def specDigit : List (Char × Nat) := [('0', 0), ('1', 1), ('2', 2), ('3', 3), ('4', 4), ('5', 5),
  ('6', 6), ('7', 7), ('8', 8), ('9', 9), ('a', 10), ('b', 11), ('c', 12), ('d', 13), ('e', 14),
  ('f', 15), ('A', 10), ('B', 11), ('C', 12), ('D', 13), ('E', 14), ('F', 15)]

/-- `c` is a hexadecimal digit with value `v`. -/
def IsDigit (c : UInt8) (v : Nat) : Prop := ∃ e ∈ specDigit, e.1.toNat = c.toNat ∧ e.2 = v

instance (c : UInt8) (v : Nat) : Decidable (IsDigit c v) := by unfold IsDigit; infer_instance

/-- `s` is the text form of the 32 byte value `k`: 64 digits, two per byte, high digit first. -/
def Denotes (s k : Bytes) : Prop :=
  s.length = 64 ∧ k.length = 32 ∧
    ∀ i, i < 32 → ∃ h l, IsDigit (s.getD (2 * i) 0) h ∧ IsDigit (s.getD (2 * i + 1) 0) l ∧
      (k.getD i 0).toNat = 16 * h + l

theorem byte_cases (P : UInt8 → Prop) [DecidablePred P]
    (h : (List.range 256).all (fun n => decide (P (UInt8.ofNat n))) = true) (c : UInt8) : P c := by
  have := List.all_eq_true.mp h c.toNat (by simpa using c.toNat_lt)
  simpa using this

theorem keyChars_digit (c : UInt8) : c ∈ keyChars ↔ IsDigit c (hexVal c).toNat := by
  refine byte_cases (fun c => c ∈ keyChars ↔ IsDigit c (hexVal c).toNat) ?_ c
  decide +kernel

theorem keyChars_of_digit (c : UInt8) (v : Nat) (h : IsDigit c v) : c ∈ keyChars ∧ v = (hexVal c).toNat := by
  obtain ⟨e, he, h1, h2⟩ := h
  have key : ∀ e ∈ specDigit, UInt8.ofNat e.1.toNat ∈ keyChars ∧
      e.2 = (hexVal (UInt8.ofNat e.1.toNat)).toNat := by decide +kernel
  have := key e he
  rw [h1, UInt8.ofNat_toNat] at this
  exact ⟨this.1, h2 ▸ this.2⟩

theorem hexVal_lt (c : UInt8) : (hexVal c).toNat < 16 := by
  refine byte_cases (fun c => (hexVal c).toNat < 16) ?_ c
  decide +kernel

theorem spanHex_all (s : Bytes) (h : spanHex s = s.length) : ∀ c ∈ s, c ∈ keyChars := by
  have : s.takeWhile (fun c => keyChars.contains c) = s :=
    (List.takeWhile_sublist _).eq_of_length h
  intro c hc
  rw [List.takeWhile_eq_self_iff] at this
  simpa using this c hc

theorem spanHex_of_all (s : Bytes) (h : ∀ c ∈ s, c ∈ keyChars) : spanHex s = s.length := by
  have : s.takeWhile (fun c => keyChars.contains c) = s := by
    rw [List.takeWhile_eq_self_iff]
    intro c hc
    simpa using h c hc
  rw [spanHex, this]

theorem nibbles (h l : UInt8) (hh : h.toNat < 16) (hl : l.toNat < 16) :
    (h * 16 + l).toNat = 16 * h.toNat + l.toNat := by
  simp only [UInt8.toNat_add, UInt8.toNat_mul, UInt8.reduceToNat]
  omega

/-- C51. A string is accepted as a key exactly if it is 64 hexadecimal digits, and the key is the
value it denotes. -/
theorem C51_accept (s k : Bytes) : readKey s = some k ↔ Denotes s k := by
  unfold readKey Denotes
  constructor
  · intro h
    split at h
    · simp at h
    · rename_i hc
      simp only [not_or, Decidable.not_not] at hc
      simp only [Option.some.injEq] at h
      subst h
      have hall := spanHex_all s (by omega)
      refine ⟨hc.1, by simp [scanKey], ?_⟩
      intro i hi
      have m1 : s.getD (2 * i) 0 ∈ s := by
        rw [List.getD_eq_getElem _ _ (show 2 * i < s.length by omega)]; exact List.getElem_mem _
      have m2 : s.getD (2 * i + 1) 0 ∈ s := by
        rw [List.getD_eq_getElem _ _ (show 2 * i + 1 < s.length by omega)]; exact List.getElem_mem _
      refine ⟨_, _, (keyChars_digit _).mp (hall _ m1), (keyChars_digit _).mp (hall _ m2), ?_⟩
      rw [scanKey, List.getD_eq_getElem?_getD, List.getElem?_map, List.getElem?_range hi]
      simp only [Option.map_some, Option.getD_some]
      exact nibbles _ _ (hexVal_lt _) (hexVal_lt _)
  · rintro ⟨h1, h2, h3⟩
    have hall : ∀ c ∈ s, c ∈ keyChars := by
      intro c hc
      obtain ⟨j, hj, rfl⟩ := List.getElem_of_mem hc
      obtain ⟨h, l, d1, d2, _⟩ := h3 (j / 2) (by omega)
      rcases Nat.mod_two_eq_zero_or_one j with hm | hm
      · rw [show 2 * (j / 2) = j by omega, List.getD_eq_getElem _ _ hj] at d1
        exact (keyChars_of_digit _ _ d1).1
      · rw [show 2 * (j / 2) + 1 = j by omega, List.getD_eq_getElem _ _ hj] at d2
        exact (keyChars_of_digit _ _ d2).1
    rw [if_neg (by rw [spanHex_of_all s hall]; omega)]
    congr 1
    apply List.ext_getElem (by simp [scanKey, h2])
    intro i hi1 hi2
    obtain ⟨h, l, d1, d2, d3⟩ := h3 i (by omega)
    apply UInt8.toNat_inj.mp
    rw [List.getD_eq_getElem _ _ hi2] at d3
    rw [d3, (keyChars_of_digit _ _ d1).2, (keyChars_of_digit _ _ d2).2,
      ← nibbles _ _ (hexVal_lt _) (hexVal_lt _)]
    simp [scanKey]

theorem fmt02x_digits (b : UInt8) : IsDigit ((fmt02x b).getD 0 0) (b.toNat / 16) ∧
    IsDigit ((fmt02x b).getD 1 0) (b.toNat % 16) := by
  refine byte_cases (fun b => IsDigit ((fmt02x b).getD 0 0) (b.toNat / 16) ∧
    IsDigit ((fmt02x b).getD 1 0) (b.toNat % 16)) ?_ b
  decide +kernel

theorem hexdump_length (d : Bytes) : (hexdump d).length = 2 * d.length := by
  induction d with
  | nil => rfl
  | cons b d ih => simp only [hexdump, List.flatMap_cons, List.length_append] at *; simp [ih, fmt02x]; omega

theorem hexdump_getD (d : Bytes) (i : Nat) (hi : i < d.length) (j : Nat) (hj : j < 2) :
    (hexdump d).getD (2 * i + j) 0 = (fmt02x (d.getD i 0)).getD j 0 := by
  induction d generalizing i with
  | nil => simp at hi
  | cons b d ih =>
    simp only [hexdump, List.flatMap_cons, List.getD_eq_getElem?_getD]
    cases i with
    | zero =>
      rw [List.getElem?_append_left (by simp [fmt02x]; omega)]
      simp
    | succ i =>
      rw [List.getElem?_append_right (by simp [fmt02x]; omega)]
      have := ih i (by simpa using hi)
      simp only [hexdump, List.getD_eq_getElem?_getD] at this
      simp only [List.getElem?_cons_succ, ← this]
      congr 2
      simp [fmt02x]; omega

/-- C51. The printed form of a key denotes it ... -/
theorem C51_print (k : Bytes) (h : k.length = 32) : Denotes (hexdump k) k := by
  refine ⟨by rw [hexdump_length, h], h, ?_⟩
  intro i hi
  have d := fmt02x_digits (k.getD i 0)
  rw [← hexdump_getD k i (by omega) 0 (by omega), ← hexdump_getD k i (by omega) 1 (by omega)] at d
  exact ⟨_, _, d.1, d.2, by omega⟩

/-- ... so that it is parsed back to the same key. -/
theorem C51_roundtrip (k : Bytes) (h : k.length = 32) : readKey (hexdump k) = some k :=
  (C51_accept _ _).mpr (C51_print k h)

example : hexdump ((List.range 32).map fun i => UInt8.ofNat (255 - i)) =
    ("fffefdfcfbfaf9f8f7f6f5f4f3f2f1f0efeeedecebeae9e8e7e6e5e4e3e2e1e0").toUTF8.toList := by
  decide +kernel

example : readKey ("00ABcdef00000000000000000000000000000000000000000000000000000001").toUTF8.toList =
    some ([0x00, 0xab, 0xcd, 0xef] ++ List.replicate 27 0 ++ [1]) ∧
    readKey ("0xABcdef00000000000000000000000000000000000000000000000000000001").toUTF8.toList = none ∧
    readKey ("0ABcdef00000000000000000000000000000000000000000000000000000001").toUTF8.toList = none := by
  decide +kernel

/-! ## C52 -/

/-- Specification: the number represented by a little endian byte string. -/
def leVal : Bytes → Nat
  | [] => 0
  | b :: rest => b.toNat + 256 * leVal rest

theorem shr3_or (b : UInt8) (c : Nat) (hc : c < 8) :
    ((b >>> 3) ||| UInt8.ofNat (32 * c)).toNat = b.toNat / 8 + 32 * c := by
  have hb := b.toNat_lt
  simp only [UInt8.toNat_or, UInt8.toNat_shiftRight, UInt8.toNat_ofNat']
  rw [show (3 : UInt8).toNat % 8 = 3 from rfl, Nat.shiftRight_eq_div_pow,
    Nat.mod_eq_of_lt (by omega : 32 * c < 2 ^ 8), Nat.or_comm, show 32 * c = c <<< 5 by
    rw [Nat.shiftLeft_eq]; omega, ← Nat.shiftLeft_add_eq_or_of_lt (by omega), Nat.shiftLeft_eq]
  omega

theorem shl5 (b : UInt8) : b <<< 5 = UInt8.ofNat (32 * (b.toNat % 8)) := by
  apply UInt8.toNat_inj.mp
  simp only [UInt8.toNat_shiftLeft, UInt8.toNat_ofNat']
  rw [show (5 : UInt8).toNat % 8 = 5 from rfl, Nat.shiftLeft_eq]
  omega

theorem divideLoop_eq (k : Bytes) :
    (divideLoop k).1 = UInt8.ofNat (32 * (leVal k % 8)) ∧ leVal (divideLoop k).2 = leVal k / 8 ∧
      (divideLoop k).2.length = k.length := by
  induction k with
  | nil => exact ⟨rfl, rfl, rfl⟩
  | cons b k ih =>
    obtain ⟨i1, i2, i3⟩ := ih
    simp only [divideLoop, leVal, List.length_cons]
    refine ⟨?_, ?_, by rw [i3]⟩
    · rw [shl5]; congr 1; omega
    · rw [i1, i2, shr3_or _ _ (by omega)]; omega

/-- C52. The secret key preparation yields a key of the same length whose value is one eighth of the
given one, rounded down, and succeeds exactly if the division is exact. -/
theorem C52_divide (k : Bytes) :
    (divideKey k).2.length = k.length ∧ leVal (divideKey k).2 = leVal k / 8 ∧
      ((divideKey k).1 = true ↔ 8 ∣ leVal k) := by
  obtain ⟨i1, i2, i3⟩ := divideLoop_eq k
  refine ⟨i3, i2, ?_⟩
  simp only [divideKey, i1, beq_iff_eq]
  rw [← UInt8.toNat_inj, UInt8.toNat_ofNat']
  simp only [UInt8.reduceToNat]
  omega

/-- C52. On success, multiplying by 8 gives back the key. -/
theorem C52_exact (k : Bytes) (h : (divideKey k).1 = true) : 8 * leVal (divideKey k).2 = leVal k := by
  obtain ⟨_, h2, h3⟩ := C52_divide k
  rw [h2]
  have := h3.mp h
  omega

example : divideKey [0x08, 0x01, 0x40] = (true, [0x21, 0x00, 0x08]) ∧
    (divideKey [0x0c, 0x01, 0x40]).1 = false := by decide

/-! ## C59 -/

/-- C59. `fastd_rand` returns a value in the half-open interval, for every result of `random()`,
and every value of the interval can occur. -/
theorem C59_rand (min max : Int) (hmin : -2 ^ 31 ≤ min) (hmax : max < 2 ^ 31) (h : min < max)
    (hd : max - min < 2 ^ 31) :
    (∀ r, ∃ x, fastdRand r min max = some x ∧ min ≤ x ∧ x < max) ∧
    (∀ x, min ≤ x → x < max → ∃ r, r < 2 ^ 31 ∧ fastdRand r min max = some x) := by
  have hu : toU32 (max - min) = (max - min).toNat := by
    rw [toU32, Int.emod_eq_of_lt (by omega) (by omega)]
  have key : ∀ r, fastdRand r min max =
      some (((r % 2 ^ 32) % (max - min).toNat : Nat) + min) := by
    intro r
    rw [fastdRand, if_neg (by omega), hu, if_neg (by omega)]
    have hlt : (r % 2 ^ 32) % (max - min).toNat < (max - min).toNat := Nat.mod_lt _ (by omega)
    generalize (r % 2 ^ 32) % (max - min).toNat = y at *
    have hm : (toU32 min : Int) = min % 2 ^ 32 := by
      rw [toU32, Int.toNat_of_nonneg]; omega
    simp only [toInt32]
    split <;> (congr 1; omega)
  constructor
  · intro r
    refine ⟨_, key r, ?_, ?_⟩
    · omega
    · have : (r % 2 ^ 32) % (max - min).toNat < (max - min).toNat := Nat.mod_lt _ (by omega)
      omega
  · intro x h1 h2
    refine ⟨(x - min).toNat, by omega, ?_⟩
    rw [key]
    congr 1
    rw [Nat.mod_eq_of_lt (by omega : (x - min).toNat < 2 ^ 32), Nat.mod_eq_of_lt (by omega)]
    omega

/-- C59. The delay between handshake attempts is 20 seconds with a jitter of 2.5 seconds. -/
theorem C59_handshake (r : Nat) : ∃ x, handshakeDefaultRand r = some x ∧ 17500 ≤ x ∧ x < 22500 :=
  (C59_rand 17500 22500 (by decide) (by decide) (by decide) (by decide)).1 r

/-- C59. The first handshake is sent at once, or with group constraints within 3 seconds. -/
theorem C59_first (r : Nat) (constrained : Bool) :
    ∃ x, initHandshakeDelay r constrained = some x ∧ 0 ≤ x ∧ x < 3000 ∧ (constrained = false → x = 0) := by
  cases constrained with
  | false => exact ⟨0, rfl, by decide, by decide, fun _ => rfl⟩
  | true =>
    obtain ⟨x, h1, h2, h3⟩ := (C59_rand 0 3000 (by decide) (by decide) (by decide) (by decide)).1 r
    exact ⟨x, h1, h2, h3, by simp⟩

/-- C59. A session wants to be refreshed between 50 and 55 minutes after it was started, before it
expires after 60 minutes. -/
theorem C59_refresh (r : Nat) (now : Time) :
    ∃ t, refreshAfter r now = some t ∧ now + 3000000 < t ∧ t ≤ now + 3300000 ∧ t < now + KEY_VALID := by
  obtain ⟨x, h1, h2, h3⟩ := (C59_rand 0 300000 (by decide) (by decide) (by decide) (by decide)).1 r
  refine ⟨now + KEY_REFRESH - x, ?_, ?_⟩
  · simp only [refreshAfter, KEY_REFRESH_SPLAY, h1]; rfl
  · simp only [KEY_REFRESH, KEY_VALID]; omega

/-- C59. The table chosen for an unknown address is one of the 16 tables. -/
theorem C59_table (r : Nat) : ∃ x, backoffTable r = some x ∧ 0 ≤ x ∧ x < 16 :=
  (C59_rand 0 16 (by decide) (by decide) (by decide) (by decide)).1 r

example : handshakeDefaultRand 0 = some 17500 ∧ handshakeDefaultRand 4999 = some 22499 ∧
    handshakeDefaultRand 5000 = some 17500 ∧ handshakeDefaultRand (2 ^ 31 - 1) = some 21147 := by decide

/-- With a negative lower bound the unsigned arithmetic still yields the right value. -/
example : fastdRand 3 (-5) 5 = some (-2) ∧ fastdRand 7 3 3 = none := by decide

end Fastd.Util
