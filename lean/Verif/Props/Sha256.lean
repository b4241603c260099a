import Verif.Crypto.Sha256Lemmas

/-!
# C46, C47: SHA-256, HMAC-SHA256 and HKDF are computed correctly
-/

namespace Fastd.Crypto

/-- C46. `fastd_sha256` on a buffer: for every message shorter than 2^29 bytes the result is its
SHA-256 hash as defined in FIPS 180-4, and nothing outside the message is read or matters (`tail` is
whatever follows it in memory). -/
theorem C46_buffer (m tail : Bytes) (hm : m.length < 2 ^ 29) :
    sha256 (m ++ tail) m.length = some (Spec.Sha256.sha256 m) :=
  sha256List_eq m hm _ (covers_ptrs m tail)

/-- C46. The same when nothing follows the message: no byte after it is accessed. -/
theorem C46_exact_read (m : Bytes) (hm : m.length < 2 ^ 29) :
    sha256 m m.length = some (Spec.Sha256.sha256 m) := by
  simpa using C46_buffer m [] hm

/-- C46. `fastd_sha256_blocks` on any number of 32 byte blocks, odd or even, hashes their
concatenation. -/
theorem C46_blocks (blocks : List Bytes) (h : ∀ b ∈ blocks, b.length = 32)
    (hn : blocks.length < 2 ^ 24) :
    sha256Blocks blocks = some (Spec.Sha256.sha256 blocks.flatten) := by
  have hl := flatten_length blocks h
  rw [sha256Blocks, ← hl]
  exact sha256List_eq _ (by omega) _ (covers_blocks blocks h)

/-- FIPS 180-4 test vector "abc", evaluated with the model; with `C46_buffer` this is the value of
the specification. -/
example : sha256 [0x61, 0x62, 0x63] 3 = some [
    0xba, 0x78, 0x16, 0xbf, 0x8f, 0x01, 0xcf, 0xea, 0x41, 0x41, 0x40, 0xde, 0x5d, 0xae, 0x22, 0x23,
    0xb0, 0x03, 0x61, 0xa3, 0x96, 0x17, 0x7a, 0x9c, 0xb4, 0x10, 0xff, 0x61, 0xf2, 0x00, 0x15, 0xad] := by
  decide +kernel

example : (Spec.Sha256.sha256 [0x61, 0x62, 0x63]).take 4 = [0xba, 0x78, 0x16, 0xbf] := by
  have h := C46_exact_read [0x61, 0x62, 0x63] (by decide)
  have e : (sha256 [0x61, 0x62, 0x63] 3).map (·.take 4) = some [0xba, 0x78, 0x16, 0xbf] := by
    decide +kernel
  rw [show (3 : Nat) = [(0x61 : UInt8), 0x62, 0x63].length from rfl, h] at e
  simpa using e

/-- Two block messages (56 bytes do not leave room for the length field). -/
example : (sha256 (List.replicate 56 0x61) 56).map (·.take 4) = some [0xb3, 0x54, 0x39, 0xa4] := by
  decide +kernel

/-- The wrong claim without the length limit: the code stores only the low 32 bits of the bit
length, so that at 2^29 bytes the last word of the padding is 0 instead of continuing in `w[14]`. -/
example : UInt32.ofNat ((2 ^ 29) <<< 3) = 0 := by decide

/-- C47. `fastd_hmacsha256` on a buffer. -/
theorem C47_hmac (key m tail : Bytes) (hk : key.length = 32) (hm : m.length + 64 < 2 ^ 29) :
    hmacsha256 key (m ++ tail) m.length = some (Spec.Sha256.hmac key m) :=
  hmacList_eq key m hk hm _ (covers_ptrs m tail)

/-- C47. `fastd_hmacsha256_blocks` on complete blocks. -/
theorem C47_hmac_blocks (key : Bytes) (blocks : List Bytes) (hk : key.length = 32)
    (h : ∀ b ∈ blocks, b.length = 32) (hn : blocks.length + 2 < 2 ^ 24) :
    hmacsha256Blocks key blocks = some (Spec.Sha256.hmac key blocks.flatten) := by
  have hl := flatten_length blocks h
  rw [hmacsha256Blocks, ← hl]
  exact hmacList_eq _ _ hk (by omega) _ (covers_blocks blocks h)

/-- C47. `fastd_hkdf_sha256_extract`. -/
theorem C47_extract (salt ikm tail : Bytes) (hs : salt.length = 32) (hm : ikm.length + 64 < 2 ^ 29) :
    hkdfExtract salt (ikm ++ tail) ikm.length = some (Spec.Sha256.hkdfExtract salt ikm) :=
  C47_hmac salt ikm tail hs hm

theorem hmac_length (key m : Bytes) : (Spec.Sha256.hmac key m).length = 32 := by
  simp [Spec.Sha256.hmac, spec_sha256_length]

theorem hkdfLoop_eq (prk info : Bytes) (hk : prk.length = 32) (hm : info.length + 97 < 2 ^ 29)
    (n i : Nat) :
    hkdfLoop prk info n (Spec.Sha256.T prk info (i + 1)) (UInt8.ofNat (i + 1)) =
      some ((List.range' (i + 1) n).flatMap fun j => Spec.Sha256.T prk info (j + 1)) := by
  induction n generalizing i with
  | zero => rfl
  | succ n ih =>
    have hT : (Spec.Sha256.T prk info (i + 1)).length = 32 := hmac_length _ _
    have e : UInt8.ofNat (i + 1) + 1 = UInt8.ofNat (i + 2) := by
      apply UInt8.toNat_inj.mp
      simp only [UInt8.toNat_add, UInt8.toNat_ofNat', UInt8.reduceToNat]
      omega
    have hh := C47_hmac prk (Spec.Sha256.T prk info (i + 1) ++ info ++ [UInt8.ofNat (i + 2)]) [] hk
      (by simp [hT]; omega)
    rw [List.append_nil] at hh
    rw [hkdfLoop, e, show 32 + info.length + 1 =
      (Spec.Sha256.T prk info (i + 1) ++ info ++ [UInt8.ofNat (i + 2)]).length by simp [hT]; omega, hh]
    simp only [Option.bind_eq_bind, Option.bind_some]
    rw [show Spec.Sha256.hmac prk (Spec.Sha256.T prk info (i + 1) ++ info ++ [UInt8.ofNat (i + 2)]) =
      Spec.Sha256.T prk info (i + 1 + 1) from rfl, ih (i + 1)]
    simp [List.range'_succ]

/-- C47. `fastd_hkdf_sha256_expand` yields the blocks T(1), T(2), ... of RFC 5869. (For more than 255
blocks RFC 5869 does not define a result; the model and the specification above both let the counter
byte wrap around.) -/
theorem C47_expand (prk info : Bytes) (n : Nat) (hk : prk.length = 32)
    (hm : info.length + 97 < 2 ^ 29) :
    hkdfExpand n prk info = some (Spec.Sha256.hkdfExpand prk info n) := by
  cases n with
  | zero => rfl
  | succ n =>
    have hh := C47_hmac prk (info ++ [1]) [] hk (by simp; omega)
    rw [List.append_nil] at hh
    rw [hkdfExpand, show info.length + 1 = (info ++ [(1 : UInt8)]).length by simp, hh]
    simp only [Option.bind_eq_bind, Option.bind_some]
    have hT : Spec.Sha256.hmac prk (info ++ [1]) = Spec.Sha256.T prk info (0 + 1) := rfl
    have hl := hkdfLoop_eq prk info hk hm n 0
    rw [show UInt8.ofNat (0 + 1) = 1 from rfl] at hl
    rw [hT, hl]
    simp [Spec.Sha256.hkdfExpand, List.range_eq_range', List.range'_succ]

/-- RFC 5869-style instance, evaluated: two blocks with an info string of 3 bytes. -/
example : (hkdfExpand 2 (List.replicate 32 7) [1, 2, 3]).map (·.length) = some 64 := by
  rw [C47_expand _ _ _ (by simp) (by simp)]
  simp [Spec.Sha256.hkdfExpand, List.range_succ, Spec.Sha256.T, hmac_length]

/-- HMAC-SHA256 with key 00..1f and message "abc". -/
example : (hmacsha256 ((List.range 32).map UInt8.ofNat) [0x61, 0x62, 0x63] 3).map (·.take 4) =
    some [0xf0, 0x13, 0x37, 0x29] := by
  decide +kernel

end Fastd.Crypto
