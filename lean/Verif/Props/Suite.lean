import Verif.Props.Aead
import Verif.Props.Salsa20
import Verif.Props.Salsa20X86
import Verif.Props.GhashClmul
import Verif.Props.Uhash
import Verif.Method.Suite

/-!
# C108: the payload methods with fastd's ciphers and MACs

The methods of `Verif.Props.Aead`, together with the implementations of ciphers and MACs: what is sent and what is received is determined by the specification
`Verif.Spec.Suite`, whichever implementations are used.
-/

namespace Fastd.Method.Suite

open Fastd.Spec Fastd.Spec.Suite
open Fastd.Buffer hiding Bytes

/-- What is assumed about libraries: their Salsa20 is that of the specification, OpenSSL's `EVP_aes_128_ctr` is counter mode with some block cipher `e` and
does not fail, results of Poly1305 have 16 bytes. -/
structure LibOk (lib : Lib) (e : BlockCipher) : Prop where
  salsa20 : ∀ key iv x, key.length = 32 → iv.length = 8 → lib.salsa20 key iv x = stream (Cipher.salsa20.ks e key) iv x
  salsa2012 : ∀ key iv x, key.length = 32 → iv.length = 8 → lib.salsa2012 key iv x = stream (Cipher.salsa2012.ks e key) iv x
  evpInit : ∀ key iv, key.length = 16 → iv.length = 16 → lib.evpInit key iv = true
  evpUpdate : ∀ key iv x, key.length = 16 → iv.length = 16 → lib.evpUpdate key iv x = some (stream (ctr e key) iv x)
  evpFinal : ∀ key iv x, key.length = 16 → iv.length = 16 → lib.evpFinal key iv x = some []
  poly1305 : ∀ k x, (lib.poly1305 k x).length = 16

/-! ### Ciphers -/

theorem stream_congr (r : Nat) {k k' n n' : Nat → UInt8} (hk : ∀ i, i < 32 → k i = k' i) (hn : ∀ i, i < 8 → n i = n' i) (i : Nat) :
    Salsa20.stream r k n i = Salsa20.stream r k' n' i := by
  have hw : ∀ j, j < 8 → Salsa20.word k j = Salsa20.word k' j := by
    intro j hj
    unfold Salsa20.word
    rw [hk _ (by omega), hk _ (by omega), hk _ (by omega), hk _ (by omega)]
  have hv : ∀ j, j < 2 → Salsa20.word n j = Salsa20.word n' j := by
    intro j hj
    unfold Salsa20.word
    rw [hn _ (by omega), hn _ (by omega), hn _ (by omega), hn _ (by omega)]
  unfold Salsa20.stream Salsa20.expand
  rw [hw 0 (by decide), hw 1 (by decide), hw 2 (by decide), hw 3 (by decide), hw 4 (by decide), hw 5 (by decide), hw 6 (by decide), hw 7 (by decide),
    hv 0 (by decide), hv 1 (by decide)]

theorem output_eq (r : Nat) (key iv x : Bytes) (mem : Crypto.SalsaXmm.Mem) (hp : Placed key iv x mem) (out : Nat → UInt8)
    (h : ∀ p, p < x.length → out p = mem .input p ^^^ Salsa20.stream r (mem .key) (mem .nonce) p) :
    (List.range x.length).map out = stream (fun iv i => Salsa20.stream r (key.getD · 0) (iv.getD · 0) i) iv x := by
  obtain ⟨h1, h2, h3⟩ := hp
  apply List.ext_getElem
  · simp [stream]
  · intro i hi1 hi2
    have hi : i < x.length := by simpa using hi1
    simp only [List.getElem_map, List.getElem_range, stream, List.getElem_mapIdx]
    rw [h i hi, h3 i hi, stream_congr r h1 h2]
    simp [List.getD, List.getElem?_eq_getElem hi]

theorem call64_eq (rounds : UInt64) (r : Nat) (key iv x : Bytes) (res : Option Bytes) (hx : x.length ≤ 2 ^ 38)
    (hE : ∀ len regs v mem, len ≤ 2 ^ 38 → Crypto.SalsaXmm.Ends rounds .output len regs v mem (Crypto.SalsaXmm.Encrypted r .output len mem))
    (h : Call64 rounds key iv x res) : res = some (stream (fun iv i => Salsa20.stream r (key.getD · 0) (iv.getD · 0) i) iv x) := by
  obtain ⟨regs, v, mem, k, s, hp, hrun, hr⟩ := h
  obtain ⟨k', s', h1, h2, _, h3, _⟩ := hE x.length regs v mem hx
  have e := (hrun (k + k') (by omega)).symm.trans (h1 (k + k') (by omega))
  injection e with e
  subst e
  rw [hr, if_pos h2]
  congr 1
  exact output_eq r key iv x mem hp _ h3

theorem call32_eq (rounds : UInt32) (r : Nat) (key iv x : Bytes) (res : Option Bytes) (hx : x.length < 2 ^ 32)
    (hE : ∀ len hi regs v slot mem, len < 2 ^ 32 →
      Crypto.SalsaX86.Ends rounds .output len hi regs v slot mem (Crypto.SalsaXmm.Encrypted r .output len mem))
    (h : Call32 rounds key iv x res) : res = some (stream (fun iv i => Salsa20.stream r (key.getD · 0) (iv.getD · 0) i) iv x) := by
  obtain ⟨regs, v, slot, mem, k, s, hp, hrun, hr⟩ := h
  obtain ⟨k', s', h1, h2, _, h3, _⟩ := hE x.length _ regs v slot mem hx
  have e := (hrun (k + k') (by omega)).symm.trans (h1 (k + k') (by omega))
  injection e with e
  subst e
  rw [hr, if_pos h2]
  congr 1
  exact output_eq r key iv x mem hp _ h3

theorem stream_zero (ks : KeyStream) (iv x : Bytes) (h : ∀ i, ks iv i = 0) : stream ks iv x = x := by
  unfold stream
  apply List.ext_getElem
  · simp
  · intro i h1 h2
    simp [h]

/-- **C108, ciphers.** Whatever implementation is used, a cipher combines the message with the specified key stream. -/
theorem C108_cipher {lib : Lib} {e : BlockCipher} (hl : LibOk lib e) (maxLen : Nat) (hm : maxLen < 2 ^ 32) (impl : CImpl) (c : Cipher) (key : Bytes)
    (hk : key.length = c.keyLen) (crypt : Crypt) (h : Runs lib maxLen impl c key crypt) (iv x : Bytes) (hiv : c ≠ .null → iv.length = c.ivLen)
    (hx : x.length ≤ maxLen) : crypt iv x = some (stream (c.ks e key) iv x) := by
  have hr := h iv x hiv hx
  generalize crypt iv x = r at hr
  cases c with
  | null =>
    rw [hr.2, stream_zero]
    intro i; rfl
  | salsa20 =>
    have hiv := hiv (by decide)
    cases impl with
    | xmm64 => exact call64_eq 20 10 key iv x r (by omega) (fun len regs v mem h => Crypto.SalsaXmm.C106_salsa20 .output (Or.inr rfl) len h regs v mem) hr
    | xmm32 => exact call32_eq 20 10 key iv x r (by omega) (fun len hi regs v slot mem h => Crypto.SalsaX86.C107_salsa20 .output (Or.inr rfl) len h hi regs v slot mem) hr
    | nacl => exact hr.trans (congrArg some (hl.salsa20 key iv x hk hiv))
    | memcpy => exact hr.elim
    | openssl => exact hr.elim
  | salsa2012 =>
    have hiv := hiv (by decide)
    cases impl with
    | xmm64 => exact call64_eq 12 6 key iv x r (by omega) (fun len regs v mem h => Crypto.SalsaXmm.C106_salsa2012 .output (Or.inr rfl) len h regs v mem) hr
    | xmm32 => exact call32_eq 12 6 key iv x r (by omega) (fun len hi regs v slot mem h => Crypto.SalsaX86.C107_salsa2012 .output (Or.inr rfl) len h hi regs v slot mem) hr
    | nacl => exact hr.trans (congrArg some (hl.salsa2012 key iv x hk hiv))
    | memcpy => exact hr.elim
    | openssl => exact hr.elim
  | aes128ctr =>
    have hiv := hiv (by decide)
    rw [hr.2]
    unfold aesCrypt
    rw [hl.evpInit key iv hk hiv, hl.evpUpdate key iv x hk hiv, hl.evpFinal key iv x hk hiv]
    simp [Cipher.ks]

/-! ### MACs -/

theorem beNat_digits (v n : Nat) (acc : Nat) :
    ((List.range n).map fun i => UInt8.ofNat (v / 256 ^ (n - 1 - i))).foldl (fun n x => n * 256 + x.toNat) acc = acc * 256 ^ n + v % 256 ^ n := by
  induction n generalizing acc with
  | zero => simp [Nat.mod_one]
  | succ n ih =>
    rw [List.range_succ_eq_map, List.map_cons, List.foldl_cons, List.map_map]
    have e : ((fun i => UInt8.ofNat (v / 256 ^ (n + 1 - 1 - i))) ∘ Nat.succ) = fun i => UInt8.ofNat (v / 256 ^ (n - 1 - i)) := by
      funext i
      simp only [Function.comp, Nat.succ_eq_add_one]
      congr 3
      omega
    rw [e, ih]
    have e2 : (UInt8.ofNat (v / 256 ^ (n + 1 - 1 - 0))).toNat = v / 256 ^ n % 256 := by
      rw [UInt8.toNat_ofNat']; simp
    rw [e2, Nat.pow_succ, Nat.mod_mul, Nat.add_mul, Nat.mul_assoc, Nat.mul_comm 256 (256 ^ n)]
    rw [Nat.mul_comm (v / 256 ^ n % 256)]
    omega

theorem blockBytes_length (v : Ghash.Block) : (blockBytes v).length = 16 := by simp [blockBytes]

theorem blockBytes_ofBytes (b : Bytes) (h : b.length = 16) : blockBytes (Ghash.ofBytes b) = b := by
  have h1 : Ghash.ofBytes (blockBytes (Ghash.ofBytes b)) = Ghash.ofBytes b := by
    generalize Ghash.ofBytes b = v
    have e := beNat_digits v.toNat 16 0
    unfold blockBytes Ghash.ofBytes
    rw [show (16 : Nat) - 1 = 15 from rfl] at e
    rw [e, Nat.zero_mul, Nat.zero_add, show (256 : Nat) ^ 16 = 2 ^ 128 by norm_num, Nat.mod_eq_of_lt v.isLt]
    simp
  exact Crypto.Ghash.ofBytes_inj _ _ (blockBytes_length _) h h1

theorem take_pad16 (m : Bytes) : (pad16 m).take m.length = m := by simp [pad16]

theorem ghash_is (impl : GImpl) (h : Bytes) (hh : h.length = 16) (shift : Bool) (maxLen : Nat) (hm : maxLen < 2 ^ 29) :
    MacIs maxLen (ghashDigest impl h shift) (if shift then ghashA h else ghashC h) := by
  intro m hml
  obtain ⟨out, h1, h2, h3⟩ := Crypto.Ghash.C48 h hh shift m [] (by omega)
  rw [List.append_nil] at h1
  have e : ghashDigest impl h shift (pad16 m) m.length = some out := by
    cases impl with
    | builtin =>
      show exceptOption (Crypto.Ghash.digest _ (pad16 m) _) = _
      unfold pad16
      rw [h1]; rfl
    | pclmulqdq =>
      show exceptOption (Crypto.GhashClmul.digest _ (pad16 m) _) = _
      rw [Crypto.GhashClmul.C48_pclmulqdq h hh]
      unfold pad16
      rw [h1]; rfl
  rw [e]
  have e2 : (if shift then ghashA h else ghashC h) (pad16 m) m.length = out := by
    cases shift
    · simp only [Bool.false_eq_true, if_false] at h3 ⊢
      unfold ghashC
      rw [take_pad16, ← h3, blockBytes_ofBytes out h2]
    · simp only [if_true] at h3 ⊢
      unfold ghashA
      rw [take_pad16, ← h3, blockBytes_ofBytes out h2]
  rw [e2]
  exact ⟨rfl, h2⟩

theorem uhash_length (key x : Bytes) (n : Nat) : (Spec.Suite.uhash key x n).length = 16 := by
  unfold Spec.Suite.uhash Uhash.uhash
  simp [Uhash.iteration, Uhash.l3hash, Uhash.uint2str4]

theorem uhash_is (key : Bytes) (hk : key.length = 1440) (maxLen : Nat) (hm : maxLen ≤ 2 ^ 24) :
    MacIs maxLen (uhashDigest key) (Spec.Suite.uhash key) := by
  intro m hml
  refine ⟨?_, uhash_length _ _ _⟩
  have h1 := Crypto.Uhash.C49 key hk m [] (by omega)
  rw [List.append_nil] at h1
  have e : (m.length + 15) / 16 * 16 - m.length = (16 - m.length % 16) % 16 := by omega
  rw [e] at h1
  unfold uhashDigest
  rw [show pad16 m = m ++ List.replicate ((16 - m.length % 16) % 16) 0 from rfl, h1]
  unfold exceptOption Spec.Suite.uhash
  simp

/-! ### Sessions -/

theorem readKey_eq {secret : Bytes} {off len : Nat} {k : Bytes} (h : readKey secret off len = some k) :
    k = part secret off len ∧ k.length = len := by
  unfold readKey at h
  split at h
  · next hle =>
    injection h with h
    subst h
    refine ⟨rfl, ?_⟩
    rw [List.length_take, List.length_drop]; omega
  · cases h

theorem hashKey_eq (ks : KeyStream) (n : Nat) : stream ks (List.replicate n 0) (List.replicate 16 0) = hashKey ks n := by
  unfold stream hashKey
  apply List.ext_getElem
  · simp
  · intro i h1 h2
    rw [List.getElem_mapIdx, List.getElem_map, List.getElem_replicate, List.getElem_range, UInt8.zero_xor]

theorem hashKey_length (ks : KeyStream) (n : Nat) : (hashKey ks n).length = 16 := by simp [hashKey]

theorem runs_cipherIs {lib : Lib} {e : BlockCipher} (hl : LibOk lib e) {maxLen : Nat} (hm : maxLen < 2 ^ 32) {impl : CImpl} {c : Cipher} {key : Bytes}
    (hk : key.length = c.keyLen) {crypt : Crypt} (h : Runs lib maxLen impl c key crypt) : CipherIs maxLen c.ivLen crypt (c.ks e key) :=
  fun iv x h1 _ h2 => C108_cipher hl maxLen hm impl c key hk crypt h iv x (fun _ => h1) h2

theorem ct_cipherIs {lib : Lib} {e : BlockCipher} (hl : LibOk lib e) {maxLen : Nat} (hm : maxLen < 2 ^ 32) {impl : CImpl} {c : Cipher} {key : Bytes}
    (hk : key.length = c.keyLen) {crypt : Crypt} (h : Runs lib maxLen impl c key crypt) :
    CipherIs maxLen (if c.ivLen = 0 then 1 else c.ivLen) crypt (c.ks e key) := by
  intro iv x h1 _ h2
  apply C108_cipher hl maxLen hm impl c key hk crypt h iv x _ h2
  intro hn
  cases c <;> first | exact absurd rfl hn | exact h1

theorem ct_spec (e : BlockCipher) (c : Cipher) (key : Bytes) :
    Spec.cipherTest (c.ks e key) (expandNonce · (if c.ivLen = 0 then 1 else c.ivLen)) = Spec.cipherTest (c.ks e key) (expandNonce · c.ivLen) := by
  cases c <;> rfl

/-- The size of the buffer for a packet with a payload of `len` bytes -/
def encryptSize (len : Nat) : Meth → Nat
  | .cipherTest _ => 16 + len
  | .genericPoly1305 _ => 48 + len
  | _ => 32 + len

/-- The size of the buffer for the payload of a packet of `len` bytes, which leaves `headroom` bytes (`conf.encrypt_headroom`) before the payload -/
def decryptSize (headroom len : Nat) : Meth → Nat
  | .cipherTest _ => headroom + (len - 8)
  | .genericPoly1305 _ => headroom - 32 + (len + 8)
  | _ => headroom - 16 + (len - 8)

/-- **C108, sending.** Any session for a secret sends the specified packet, whichever implementations are used; nothing is read or written outside of the buffers. -/
theorem C108_encrypt {lib : Lib} {e : BlockCipher} (hl : LibOk lib e) (m : Meth) (impls : Impls) (secret : Bytes) (maxBuffer : Nat) (hmax : maxBuffer ≤ 2 ^ 24)
    (s : Sess) (hs : SessionInit lib maxBuffer impls secret s m) (h16 : 16 ≤ maxBuffer) (common : Common) (b : Buf) (st : Bytes) (hw : b.WF)
    (hb : b.base.length % 16 = 0) (hal : b.off % 16 = 0) (hhr : encryptHeadroom m ≤ b.off) (hst : Storage st maxBuffer)
    (hfit : alignto (encryptSize b.len m) 16 ≤ maxBuffer) :
    ∃ out, encrypt lib s maxBuffer common b st m = .ok (some (out, { common with sendNonce := incrNonce common.sendNonce })) ∧ out.WF ∧
      out.data = packet (m.aead e lib.poly1305 secret) common b.data := by
  have hfit1 : alignto (32 + b.len) 16 ≤ maxBuffer → alignto (16 + (16 + b.len)) 16 ≤ maxBuffer := by
    rw [show 16 + (16 + b.len) = 32 + b.len by omega]; exact id
  have hfit3 : alignto (48 + b.len) 16 ≤ maxBuffer → alignto (16 + (32 + b.len)) 16 ≤ maxBuffer := by
    rw [show 16 + (32 + b.len) = 48 + b.len by omega]; exact id
  cases m with
  | cipherTest c =>
    obtain ⟨k, h1, h2⟩ := hs
    obtain ⟨rfl, hk⟩ := readKey_eq h1
    have := C62_cipher_test_encrypt (if c.ivLen = 0 then 1 else c.ivLen) maxBuffer s.crypt (c.ks e _) (ct_cipherIs hl (by omega) hk h2) common b st hw hb hal hst hfit
    rw [ct_spec] at this
    exact this
  | genericGmac c =>
    obtain ⟨k, h, h1, h2, h3, h4⟩ := hs
    obtain ⟨rfl, hk⟩ := readKey_eq h1
    have hc := runs_cipherIs hl (by omega) hk h2
    rw [hc _ _ (by simp) (by simp) (by simpa using h16), hashKey_eq] at h3
    injection h3 with h3
    subst h3
    have := C62_generic_encrypt c.ivLen maxBuffer s.crypt _ hc s.digest _ (h4 ▸ ghash_is impls.ghash _ (hashKey_length _ _) false maxBuffer (by omega)) common b st
      hw hb hal hhr hst (hfit1 hfit)
    exact this
  | genericUmac c =>
    obtain ⟨k, ku, h1, h2, h3, h4⟩ := hs
    obtain ⟨rfl, hk⟩ := readKey_eq h1
    obtain ⟨rfl, hku⟩ := readKey_eq h3
    exact C62_generic_encrypt c.ivLen maxBuffer s.crypt _ (runs_cipherIs hl (by omega) hk h2) s.digest _ (h4 ▸ uhash_is _ hku maxBuffer hmax) common b st
      hw hb hal hhr hst (hfit1 hfit)
  | genericPoly1305 c =>
    obtain ⟨k, h1, h2⟩ := hs
    obtain ⟨rfl, hk⟩ := readKey_eq h1
    exact C62_poly_encrypt c.ivLen maxBuffer s.crypt _ (runs_cipherIs hl (by omega) hk h2) lib.poly1305 hl.poly1305 common b st hw hb hal hhr hst (hfit3 hfit)
  | composedGmac c m =>
    obtain ⟨k, km, h, h1, h2, h3, h4, h5, h6⟩ := hs
    obtain ⟨rfl, hk⟩ := readKey_eq h1
    obtain ⟨rfl, hkm⟩ := readKey_eq h3
    have hcm := runs_cipherIs hl (by omega) hkm h4
    rw [hcm _ _ (by simp) (by simp) (by simpa using h16), hashKey_eq] at h5
    injection h5 with h5
    subst h5
    exact C62_composed_encrypt c.ivLen m.ivLen maxBuffer s.crypt s.macCrypt _ _ (runs_cipherIs hl (by omega) hk h2) hcm s.digest _
      (h6 ▸ ghash_is impls.ghash _ (hashKey_length _ _) true maxBuffer (by omega)) common b st hw hb hal hst (hfit1 hfit)
  | composedUmac c m =>
    obtain ⟨k, km, ku, h1, h2, h3, h4, h5, h6⟩ := hs
    obtain ⟨rfl, hk⟩ := readKey_eq h1
    obtain ⟨rfl, hkm⟩ := readKey_eq h3
    obtain ⟨rfl, hku⟩ := readKey_eq h5
    exact C62_composed_encrypt c.ivLen m.ivLen maxBuffer s.crypt s.macCrypt _ _ (runs_cipherIs hl (by omega) hk h2) (runs_cipherIs hl (by omega) hkm h4) s.digest _
      (h6 ▸ uhash_is _ hku maxBuffer hmax) common b st hw hb hal hst (hfit1 hfit)

/-- **C108, receiving.** Any session for a secret treats every packet as specified, whichever implementations are used; a packet that is rejected is
left unchanged for the other session. -/
theorem C108_decrypt {lib : Lib} {e : BlockCipher} (hl : LibOk lib e) (m : Meth) (impls : Impls) (secret : Bytes) (maxBuffer : Nat) (hmax : maxBuffer ≤ 2 ^ 24)
    (s : Sess) (hs : SessionInit lib maxBuffer impls secret s m) (h16 : 16 ≤ maxBuffer) (encHeadroom : Nat) (common : Common) (now : Time) (b : Buf) (st : Bytes)
    (hr : Received b) (hst : Storage st maxBuffer) (hea : encHeadroom % 16 = 0) (hfit : alignto (decryptSize encHeadroom b.len m) 16 ≤ maxBuffer) :
    ∃ d, decrypt lib s encHeadroom maxBuffer common now b st m = .ok d ∧ d.view = recv (m.aead e lib.poly1305 secret) common now b.data ∧
      ∀ b', d = .null b' → b'.data = b.data ∧ b'.off = b.off ∧ b'.len = b.len := by
  cases m with
  | cipherTest c =>
    obtain ⟨k, h1, h2⟩ := hs
    obtain ⟨rfl, hk⟩ := readKey_eq h1
    have := C62_cipher_test_decrypt (if c.ivLen = 0 then 1 else c.ivLen) encHeadroom maxBuffer s.crypt (c.ks e _) (ct_cipherIs hl (by omega) hk h2) common now b st
      hr hst hea hfit
    rw [ct_spec] at this
    exact this
  | genericGmac c =>
    obtain ⟨k, h, h1, h2, h3, h4⟩ := hs
    obtain ⟨rfl, hk⟩ := readKey_eq h1
    have hc := runs_cipherIs hl (by omega) hk h2
    rw [hc _ _ (by simp) (by simp) (by simpa using h16), hashKey_eq] at h3
    injection h3 with h3
    subst h3
    have := C62_generic_decrypt c.ivLen encHeadroom maxBuffer s.crypt _ hc s.digest _ (h4 ▸ ghash_is impls.ghash _ (hashKey_length _ _) false maxBuffer (by omega))
      common now b st hr hst hea hfit
    exact this
  | genericUmac c =>
    obtain ⟨k, ku, h1, h2, h3, h4⟩ := hs
    obtain ⟨rfl, hk⟩ := readKey_eq h1
    obtain ⟨rfl, hku⟩ := readKey_eq h3
    exact C62_generic_decrypt c.ivLen encHeadroom maxBuffer s.crypt _ (runs_cipherIs hl (by omega) hk h2) s.digest _ (h4 ▸ uhash_is _ hku maxBuffer hmax)
      common now b st hr hst hea hfit
  | genericPoly1305 c =>
    obtain ⟨k, h1, h2⟩ := hs
    obtain ⟨rfl, hk⟩ := readKey_eq h1
    exact C62_poly_decrypt c.ivLen encHeadroom maxBuffer s.crypt _ (runs_cipherIs hl (by omega) hk h2) lib.poly1305 common now b st hr.1 hr.2.1 hr.2.2.1 hst hea hfit
  | composedGmac c m =>
    obtain ⟨k, km, h, h1, h2, h3, h4, h5, h6⟩ := hs
    obtain ⟨rfl, hk⟩ := readKey_eq h1
    obtain ⟨rfl, hkm⟩ := readKey_eq h3
    have hcm := runs_cipherIs hl (by omega) hkm h4
    rw [hcm _ _ (by simp) (by simp) (by simpa using h16), hashKey_eq] at h5
    injection h5 with h5
    subst h5
    exact C62_composed_decrypt c.ivLen m.ivLen encHeadroom maxBuffer s.crypt s.macCrypt _ _ (runs_cipherIs hl (by omega) hk h2) hcm s.digest _
      (h6 ▸ ghash_is impls.ghash _ (hashKey_length _ _) true maxBuffer (by omega)) common now b st hr hst hea hfit
  | composedUmac c m =>
    obtain ⟨k, km, ku, h1, h2, h3, h4, h5, h6⟩ := hs
    obtain ⟨rfl, hk⟩ := readKey_eq h1
    obtain ⟨rfl, hkm⟩ := readKey_eq h3
    obtain ⟨rfl, hku⟩ := readKey_eq h5
    exact C62_composed_decrypt c.ivLen m.ivLen encHeadroom maxBuffer s.crypt s.macCrypt _ _ (runs_cipherIs hl (by omega) hk h2) (runs_cipherIs hl (by omega) hkm h4)
      s.digest _ (h6 ▸ uhash_is _ hku maxBuffer hmax) common now b st hr hst hea hfit

theorem aead_sound {lib : Lib} {e : BlockCipher} (hl : LibOk lib e) (m : Meth) (secret : Bytes) : (m.aead e lib.poly1305 secret).Sound := by
  cases m with
  | cipherTest c => exact cipherTest_sound _ _
  | genericGmac c => exact generic_sound _ _ _ fun x n => blockBytes_length _
  | genericUmac c => exact generic_sound _ _ _ fun x n => uhash_length _ _ _
  | genericPoly1305 c => exact poly_sound _ _ _ hl.poly1305
  | composedGmac c m => exact composed_sound _ _ _ _ _ fun x n => blockBytes_length _
  | composedUmac c m => exact composed_sound _ _ _ _ _ fun x n => uhash_length _ _ _

/-- **C108.** Two ends that have agreed on a secret understand each other whatever implementations of ciphers and MACs they use (32 or 64 bits, assembly or
libraries, tables or carry-less multiplication): a packet sent at one end is delivered at the other one with its payload, unless its number is refused
(see C01-C03) or it is a duplicate. -/
theorem C108_interop {lib lib' : Lib} {e : BlockCipher} (hl : LibOk lib e) (hl' : LibOk lib' e) (hpoly : lib'.poly1305 = lib.poly1305) (m : Meth)
    (impls impls' : Impls) (secret : Bytes) (maxBuffer : Nat) (hmax : maxBuffer ≤ 2 ^ 24) (h16 : 16 ≤ maxBuffer)
    (s s' : Sess) (hs : SessionInit lib maxBuffer impls secret s m) (hs' : SessionInit lib' maxBuffer impls' secret s' m)
    (snd rcv : Common) (hcompat : rcv.compat = snd.compat) (b : Buf) (st : Bytes) (hw : b.WF)
    (hb : b.base.length % 16 = 0) (hal : b.off % 16 = 0) (hhr : encryptHeadroom m ≤ b.off) (hst : Storage st maxBuffer)
    (hfit : alignto (encryptSize b.len m) 16 ≤ maxBuffer) :
    ∃ out, encrypt lib s maxBuffer snd b st m = .ok (some (out, { snd with sendNonce := incrNonce snd.sendNonce })) ∧ out.WF ∧
      ∀ (b' : Buf) (st' : Bytes) (encHeadroom : Nat) (now : Time), Received b' → b'.data = out.data → Storage st' maxBuffer → encHeadroom % 16 = 0 →
        alignto (decryptSize encHeadroom b'.len m) 16 ≤ maxBuffer →
        ∃ d, decrypt lib' s' encHeadroom maxBuffer rcv now b' st' m = .ok d ∧
          d.view = match receive rcv now snd.sendNonce with
            | (.rejected, _) => .reject
            | (.inOrder, r) => .payload b.data r (some false)
            | (.reordered, r) => .payload b.data r (some true)
            | (.duplicate, r) => .payload [] r none := by
  obtain ⟨out, h1, h2, h3⟩ := C108_encrypt hl m impls secret maxBuffer hmax s hs h16 snd b st hw hb hal hhr hst hfit
  refine ⟨out, h1, h2, ?_⟩
  intro b' st' encHeadroom now hr hd hst' hea hfit'
  obtain ⟨d, d1, d2, _⟩ := C108_decrypt hl' m impls' secret maxBuffer hmax s' hs' h16 encHeadroom rcv now b' st' hr hst' hea hfit'
  refine ⟨d, d1, ?_⟩
  rw [d2, hd, h3, hpoly, C62_delivery _ (aead_sound hl m secret) snd rcv now b.data hcompat]
  rcases receive rcv now snd.sendNonce with ⟨_ | _ | _ | _, r⟩ <;> rfl

/-! ### Sessions exist -/

theorem placed_exists (key iv x : Bytes) : ∃ mem : Crypto.SalsaXmm.Mem, Placed key iv x mem := by
  refine ⟨fun r p => match r with | .key => key.getD p 0 | .nonce => iv.getD p 0 | .input => x.getD p 0 | _ => 0, ?_, ?_, ?_⟩ <;> intro i _ <;> rfl

theorem result_exists (lib : Lib) (impl : CImpl) (c : Cipher) (h : impl.supports c = true) (key iv x : Bytes) (hx : x.length < 2 ^ 32) :
    ∃ r, Result lib impl key iv x r c := by
  obtain ⟨mem, hp⟩ := placed_exists key iv x
  have h64 : ∀ rounds r, (∀ len regs v mem, len ≤ 2 ^ 38 → Crypto.SalsaXmm.Ends rounds .output len regs v mem (Crypto.SalsaXmm.Encrypted r .output len mem)) →
      ∃ r, Call64 rounds key iv x r := by
    intro rounds r hE
    obtain ⟨k, s, h1, _⟩ := hE x.length (fun _ => 0) ⟨fun _ _ => 0, fun _ => 0⟩ mem (by omega)
    exact ⟨_, _, _, mem, k, s, hp, h1, rfl⟩
  have h32 : ∀ rounds r, (∀ len hi regs v slot mem, len < 2 ^ 32 →
      Crypto.SalsaX86.Ends rounds .output len hi regs v slot mem (Crypto.SalsaXmm.Encrypted r .output len mem)) → ∃ r, Call32 rounds key iv x r := by
    intro rounds r hE
    obtain ⟨k, s, h1, _⟩ := hE x.length (UInt32.ofNat (x.length / 2 ^ 32)) (fun _ => 0) ⟨fun _ _ => 0, fun _ => 0⟩ (fun _ => .num 0) mem hx
    exact ⟨_, _, _, _, mem, k, s, hp, h1, rfl⟩
  cases c with
  | null => cases impl <;> first | exact ⟨_, rfl, rfl⟩ | cases h
  | salsa20 =>
    cases impl <;> first
      | exact h64 20 10 (fun len regs v mem h => Crypto.SalsaXmm.C106_salsa20 .output (Or.inr rfl) len h regs v mem)
      | exact h32 20 10 (fun len hi regs v slot mem h => Crypto.SalsaX86.C107_salsa20 .output (Or.inr rfl) len h hi regs v slot mem)
      | exact ⟨_, rfl⟩
      | cases h
  | salsa2012 =>
    cases impl <;> first
      | exact h64 12 6 (fun len regs v mem h => Crypto.SalsaXmm.C106_salsa2012 .output (Or.inr rfl) len h regs v mem)
      | exact h32 12 6 (fun len hi regs v slot mem h => Crypto.SalsaX86.C107_salsa2012 .output (Or.inr rfl) len h hi regs v slot mem)
      | exact ⟨_, rfl⟩
      | cases h
  | aes128ctr => cases impl <;> first | exact ⟨_, rfl, rfl⟩ | cases h

theorem runs_exists (lib : Lib) (maxLen : Nat) (hm : maxLen < 2 ^ 32) (impl : CImpl) (c : Cipher) (h : impl.supports c = true) (key : Bytes) :
    ∃ crypt, Runs lib maxLen impl c key crypt := by
  classical
  refine ⟨fun iv x => if hx : x.length < 2 ^ 32 then (result_exists lib impl c h key iv x hx).choose else none, ?_⟩
  intro iv x _ hx
  have hx' : x.length < 2 ^ 32 := by omega
  simp only [dif_pos hx']
  exact (result_exists lib impl c h key iv x hx').choose_spec

theorem readKey_some {secret : Bytes} {off len : Nat} (h : off + len ≤ secret.length) : readKey secret off len = some (part secret off len) := by
  unfold readKey
  rw [if_pos h]
  rfl

theorem readKey_le {secret : Bytes} {off len : Nat} {k : Bytes} (h : readKey secret off len = some k) : off + len ≤ secret.length := by
  unfold readKey at h
  split at h
  · assumption
  · cases h

/-- **C108, keys.** A session is set up if and only if the secret has the length that the method asks for, or more: exactly these bytes are read. -/
theorem C108_session {lib : Lib} {e : BlockCipher} (hl : LibOk lib e) (m : Meth) (impls : Impls) (himpl : ∀ c, (impls.cipher c).supports c = true)
    (secret : Bytes) (maxLen : Nat) (hmax : maxLen < 2 ^ 32) (h16 : 16 ≤ maxLen) :
    (∃ s, SessionInit lib maxLen impls secret s m) ↔ keyLength m ≤ secret.length := by
  have hx := fun c key => runs_exists lib maxLen hmax (impls.cipher c) c (himpl c) key
  constructor
  · rintro ⟨s, hs⟩
    cases m with
    | cipherTest c => obtain ⟨k, h1, _⟩ := hs; have := readKey_le h1; simp only [keyLength]; omega
    | genericGmac c => obtain ⟨k, h, h1, _⟩ := hs; have := readKey_le h1; simp only [keyLength]; omega
    | genericUmac c => obtain ⟨k, ku, h1, _, h3, _⟩ := hs; have := readKey_le h3; simp only [keyLength]; omega
    | genericPoly1305 c => obtain ⟨k, h1, _⟩ := hs; have := readKey_le h1; simp only [keyLength]; omega
    | composedGmac c m => obtain ⟨k, km, h, h1, _, h3, _⟩ := hs; have := readKey_le h3; simp only [keyLength]; omega
    | composedUmac c m => obtain ⟨k, km, ku, h1, _, h3, _, h5, _⟩ := hs; have := readKey_le h5; simp only [keyLength]; omega
  · intro hlen
    have hkl : ∀ off len, off + len ≤ secret.length → (part secret off len).length = len := by
      intro off len h
      unfold part
      rw [List.length_take, List.length_drop]; omega
    cases m with
    | cipherTest c =>
      simp only [keyLength] at hlen
      obtain ⟨crypt, hc⟩ := hx c (part secret 0 c.keyLen)
      exact ⟨⟨crypt, crypt, uhashDigest []⟩, _, readKey_some (by omega), hc⟩
    | genericGmac c =>
      simp only [keyLength] at hlen
      obtain ⟨crypt, hc⟩ := hx c (part secret 0 c.keyLen)
      have hh := C108_cipher hl maxLen hmax _ c _ (hkl 0 _ (by omega)) crypt hc (List.replicate c.ivLen 0) (List.replicate 16 0) (by simp) (by simpa using h16)
      exact ⟨⟨crypt, crypt, _⟩, _, _, readKey_some (by omega), hc, hh, rfl⟩
    | genericUmac c =>
      simp only [keyLength] at hlen
      obtain ⟨crypt, hc⟩ := hx c (part secret 0 c.keyLen)
      exact ⟨⟨crypt, crypt, _⟩, _, _, readKey_some (by omega), hc, readKey_some (by omega), rfl⟩
    | genericPoly1305 c =>
      simp only [keyLength] at hlen
      obtain ⟨crypt, hc⟩ := hx c (part secret 0 c.keyLen)
      exact ⟨⟨crypt, crypt, uhashDigest []⟩, _, readKey_some (by omega), hc⟩
    | composedGmac c m =>
      simp only [keyLength] at hlen
      obtain ⟨crypt, hc⟩ := hx c (part secret 0 c.keyLen)
      obtain ⟨cryptm, hcm⟩ := hx m (part secret c.keyLen m.keyLen)
      have hh := C108_cipher hl maxLen hmax _ m _ (hkl c.keyLen _ (by omega)) cryptm hcm (List.replicate m.ivLen 0) (List.replicate 16 0) (by simp) (by simpa using h16)
      exact ⟨⟨crypt, cryptm, _⟩, _, _, _, readKey_some (by omega), hc, readKey_some (by omega), hcm, hh, rfl⟩
    | composedUmac c m =>
      simp only [keyLength] at hlen
      obtain ⟨crypt, hc⟩ := hx c (part secret 0 c.keyLen)
      obtain ⟨cryptm, hcm⟩ := hx m (part secret c.keyLen m.keyLen)
      exact ⟨⟨crypt, cryptm, _⟩, _, _, _, readKey_some (by omega), hc, readKey_some (by omega), hcm, readKey_some (by omega), rfl⟩

/-- No method needs more key material than HKDF with SHA-256 can give, which is 255 times 32 bytes (RFC 5869). -/
theorem C108_key_length (m : Meth) : keyLength m ≤ 1504 ∧ (keyLength m + 31) / 32 ≤ 255 := by
  have h : ∀ c : Cipher, c.keyLen ≤ 32 := by intro c; cases c <;> decide
  cases m with
  | cipherTest c => have := h c; simp only [keyLength]; omega
  | genericGmac c => have := h c; simp only [keyLength]; omega
  | genericUmac c => have := h c; simp only [keyLength]; omega
  | genericPoly1305 c => have := h c; simp only [keyLength]; omega
  | composedGmac c m => have := h c; have := h m; simp only [keyLength]; omega
  | composedUmac c m => have := h c; have := h m; simp only [keyLength]; omega

/-- A library that keeps to the assumptions -/
def exampleLib (e : BlockCipher) : Lib where
  salsa20 key iv x := stream (Cipher.salsa20.ks e key) iv x
  salsa2012 key iv x := stream (Cipher.salsa2012.ks e key) iv x
  evpInit _ _ := true
  evpUpdate key iv x := some (stream (ctr e key) iv x)
  evpFinal _ _ _ := some []
  poly1305 _ _ := List.replicate 16 7

theorem exampleLib_ok (e : BlockCipher) : LibOk (exampleLib e) e :=
  ⟨fun _ _ _ _ _ => rfl, fun _ _ _ _ _ => rfl, fun _ _ _ _ => rfl, fun _ _ _ _ _ => rfl, fun _ _ _ _ _ => rfl, fun _ _ => rfl⟩

/-- There are sessions of salsa2012+umac with the assembly for 64 and for 32 bits. -/
example (e : BlockCipher) (secret : Bytes) (h : secret.length = 1472) :
    (∃ s, SessionInit (exampleLib e) 2000 ⟨fun | .null => .memcpy | .aes128ctr => .openssl | _ => .xmm64, .builtin⟩ secret s (.genericUmac .salsa2012)) ∧
    ∃ s, SessionInit (exampleLib e) 2000 ⟨fun | .null => .memcpy | .aes128ctr => .openssl | _ => .xmm32, .pclmulqdq⟩ secret s (.genericUmac .salsa2012) :=
  ⟨(C108_session (exampleLib_ok e) _ _ (by intro c; cases c <;> rfl) secret 2000 (by decide) (by decide)).2 (by rw [h]; decide),
    (C108_session (exampleLib_ok e) _ _ (by intro c; cases c <;> rfl) secret 2000 (by decide) (by decide)).2 (by rw [h]; decide)⟩

/-- The specification is not trivial: the secret and the number matter, and a changed packet is not accepted. -/
example :
    let a := Meth.aead (fun _ _ _ => 0) (fun _ _ => []) ((List.range 32).map UInt8.ofNat) (.genericGmac .salsa2012)
    let a' := Meth.aead (fun _ _ _ => 0) (fun _ _ => []) ((List.range 32).map fun i => UInt8.ofNat (i + 1)) (.genericGmac .salsa2012)
    let n : Nonce := #v[0, 0, 0, 0, 0, 2]
    let c := a.enc n [1, 2, 3]
    a.dec n c = some [1, 2, 3] ∧ a.dec n (c.set 17 0) = none ∧ a.dec #v[0, 0, 0, 0, 0, 4] c = none ∧ a'.dec n c = none := by
  decide +kernel

end Fastd.Method.Suite
