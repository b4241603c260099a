import Verif.Method.Aead
import Verif.Spec.Suite
import Verif.Crypto.SalsaXmm
import Verif.Crypto.SalsaX86
import Verif.Crypto.Uhash
import Verif.Crypto.GhashClmul

/-!
# The methods with the implementations of their ciphers and MACs

Model of the `init` and `crypt` functions of the ciphers (src/crypto/cipher/*/*/*.c) and of `method_session_init` of the methods, put together with the models
of the implementations and of the methods. What registers and the stack contain when machine code is called is arbitrary, so that the results of ciphers are
given as a relation. That keys are zeroed when sessions end, and the memory of the states, are not modelled.
-/

namespace Fastd.Method.Suite

open Fastd.Spec Fastd.Spec.Suite
open Fastd.Buffer hiding Bytes

/-- Implementations of ciphers; there are two for the name "xmm", depending on the machine. -/
inductive CImpl
  | memcpy | xmm64 | xmm32 | nacl | openssl
deriving DecidableEq, Repr

/-- Implementations of GHASH -/
inductive GImpl
  | builtin | pclmulqdq
deriving DecidableEq, Repr

/-- Functions of libraries: Salsa20 of NaCl or libsodium (`crypto_stream_salsa20_xor`, `crypto_stream_salsa2012_xor`), from key, nonce and message;
`EVP_EncryptInit_ex`, `EVP_EncryptUpdate` and `EVP_EncryptFinal` of OpenSSL (`none`, `false` for an error) from the key, the IV and the message;
`crypto_onetimeauth_poly1305` -/
structure Lib where
  salsa20 : Bytes → Bytes → Bytes → Bytes
  salsa2012 : Bytes → Bytes → Bytes → Bytes
  evpInit : Bytes → Bytes → Bool
  evpUpdate : Bytes → Bytes → Bytes → Option Bytes
  evpFinal : Bytes → Bytes → Bytes → Option Bytes
  poly1305 : Bytes → Bytes → Bytes

/-- `aes128_ctr_crypt` (src/crypto/cipher/aes128_ctr/openssl/aes128_ctr_openssl.c:41-61) -/
def aesCrypt (lib : Lib) (key iv x : Bytes) : Option Bytes :=
  if lib.evpInit key iv = false then none
  else
    match lib.evpUpdate key iv x with
    | none => none
    | some o =>
      match lib.evpFinal key iv x with
      | none => none
      | some o' => if o.length + o'.length ≠ x.length then none else some (o ++ o')

/-- Memory with the arguments of a call; what is behind them is arbitrary. -/
def Placed (key iv x : Bytes) (mem : Crypto.SalsaXmm.Mem) : Prop :=
  (∀ i, i < 32 → mem .key i = key.getD i 0) ∧ (∀ i, i < 8 → mem .nonce i = iv.getD i 0) ∧ ∀ i, i < x.length → mem .input i = x.getD i 0

/-- `salsa20_crypt` (src/crypto/cipher/salsa20/xmm/salsa20_xmm.c:56-61) and `salsa2012_crypt` (src/crypto/cipher/salsa2012/xmm/salsa2012_xmm.c:56-61) on
x86-64: a possible result `r`, `none` if the code accesses other memory -/
def Call64 (rounds : UInt64) (key iv x : Bytes) (r : Option Bytes) : Prop :=
  ∃ regs v mem k s, Placed key iv x mem ∧
    (∀ n, k ≤ n → Crypto.SalsaXmm.run (Crypto.SalsaXmm.layout .output x.length) (Crypto.SalsaXmm.prog rounds) n .entry
      (Crypto.SalsaXmm.initial .output (UInt64.ofNat x.length) regs v mem) = some s) ∧
    r = if s.ok then some ((List.range x.length).map (s.mem .output)) else none

/-- The same functions on 32-bit x86; the length is passed as 64 bits. -/
def Call32 (rounds : UInt32) (key iv x : Bytes) (r : Option Bytes) : Prop :=
  ∃ regs v slot mem k s, Placed key iv x mem ∧
    (∀ n, k ≤ n → Crypto.SalsaX86.run (Crypto.SalsaXmm.layout .output x.length) (Crypto.SalsaX86.prog rounds) n .entry
      (Crypto.SalsaX86.initial .output (UInt32.ofNat x.length) (UInt32.ofNat (x.length / 2 ^ 32)) regs v slot mem) = some s) ∧
    r = if s.ok then some ((List.range x.length).map (s.mem .output)) else none

/-- Possible results of `crypt` with a state for `key`: `null_memcpy` (src/crypto/cipher/null/memcpy/null_memcpy.c:27-32), `salsa20_crypt`
(src/crypto/cipher/salsa20/nacl/salsa20_nacl.c:43-48), `salsa2012_crypt` (src/crypto/cipher/salsa2012/nacl/salsa2012_nacl.c:43-48) and those above.
Other combinations do not exist (src/crypto/cipher/*/meson.build). -/
def Result (lib : Lib) (impl : CImpl) (key iv x : Bytes) (r : Option Bytes) : Cipher → Prop
  | .null => impl = .memcpy ∧ r = some x
  | .salsa20 =>
    match impl with
    | .xmm64 => Call64 20 key iv x r
    | .xmm32 => Call32 20 key iv x r
    | .nacl => r = some (lib.salsa20 key iv x)
    | _ => False
  | .salsa2012 =>
    match impl with
    | .xmm64 => Call64 12 key iv x r
    | .xmm32 => Call32 12 key iv x r
    | .nacl => r = some (lib.salsa2012 key iv x)
    | _ => False
  | .aes128ctr => impl = .openssl ∧ r = aesCrypt lib key iv x

/-- `crypt` behaves like the implementation for messages of up to `maxLen` bytes. The null cipher does not use the IV, which has one byte in
src/methods/cipher_test/cipher_test.c. -/
def Runs (lib : Lib) (maxLen : Nat) (impl : CImpl) (c : Cipher) (key : Bytes) (crypt : Crypt) : Prop :=
  ∀ iv x, (c ≠ .null → iv.length = c.ivLen) → x.length ≤ maxLen → Result lib impl key iv x (crypt iv x) c

/-- Reading a key from the secret, as the `init` functions do (e.g. src/crypto/cipher/salsa20/xmm/salsa20_xmm.c:46-53); `none` if this is beyond its end. -/
def readKey (secret : Bytes) (off len : Nat) : Option Bytes :=
  if off + len ≤ secret.length then some ((secret.drop off).take len) else none

/-- `method_key_length` (src/methods/cipher_test/cipher_test.c:68-70, generic_gmac/generic_gmac.c:85-87, generic_umac/generic_umac.c:78-80,
generic_poly1305/generic_poly1305.c:84-86, composed_gmac/composed_gmac.c:112-114, composed_umac/composed_umac.c:104-106); the key of UHASH has 1440 bytes
(src/crypto/mac/uhash/uhash.c). -/
def keyLength : Meth → Nat
  | .cipherTest c => c.keyLen
  | .genericGmac c => c.keyLen
  | .genericUmac c => c.keyLen + 1440
  | .genericPoly1305 c => c.keyLen
  | .composedGmac c m => c.keyLen + m.keyLen
  | .composedUmac c m => c.keyLen + m.keyLen + 1440

/-- `encrypt_headroom` of the methods (src/methods/cipher_test/cipher_test.c:195, generic_gmac/generic_gmac.c:248, generic_umac/generic_umac.c:228,
generic_poly1305/generic_poly1305.c:238, composed_gmac/composed_gmac.c:294, composed_umac/composed_umac.c:272) -/
def encryptHeadroom : Meth → Nat
  | .cipherTest _ => 0
  | .genericGmac _ => 16
  | .genericUmac _ => 16
  | .genericPoly1305 _ => 32
  | .composedGmac _ _ => 0
  | .composedUmac _ _ => 0

/-- The implementations that exist (src/crypto/cipher/*/*/meson.build) -/
def CImpl.supports : CImpl → Cipher → Bool
  | .memcpy, .null => true
  | .xmm64, .salsa20 => true
  | .xmm64, .salsa2012 => true
  | .xmm32, .salsa20 => true
  | .xmm32, .salsa2012 => true
  | .nacl, .salsa20 => true
  | .nacl, .salsa2012 => true
  | .openssl, .aes128ctr => true
  | _, _ => false

def exceptOption {ε α : Type} : Except ε α → Option α
  | .ok a => some a
  | .error _ => none

/-- `ghash_init` and `ghash_digest` of both implementations; accesses to other memory and `exit_bug` are `none` here. -/
def ghashDigest (impl : GImpl) (h : Bytes) (shift : Bool) : Digest := fun x n =>
  match impl with
  | .builtin => exceptOption (Crypto.Ghash.digest (Crypto.Ghash.init h shift) x n)
  | .pclmulqdq => exceptOption (Crypto.GhashClmul.digest (Crypto.GhashClmul.init h shift) x n)

/-- `uhash_init` and `uhash_digest` -/
def uhashDigest (key : Bytes) : Digest := fun x n => exceptOption (Crypto.Uhash.digest (Crypto.Uhash.init key) x n)

/-- The part of `fastd_method_session_state_t` for ciphers and MACs -/
structure Sess where
  crypt : Crypt
  macCrypt : Crypt
  digest : Digest

/-- The implementations chosen for the ciphers (`fastd_cipher_get`) and GHASH (`fastd_mac_get`) -/
structure Impls where
  cipher : Cipher → CImpl
  ghash : GImpl

/-- `method_session_init` (src/methods/cipher_test/cipher_test.c:73-85, generic_gmac/generic_gmac.c:90-117, generic_umac/generic_umac.c:83-97,
generic_poly1305/generic_poly1305.c:89-99, composed_gmac/composed_gmac.c:117-149, composed_umac/composed_umac.c:109-127): `s` is a possible session. There is
none if the secret is read beyond its end, or if the key of GHASH cannot be computed, when `NULL` is returned. Methods with IVs of 6 bytes or less do not
exist, except those with the null cipher and separate or no authentication (C64); the arrays for the zero IV are not empty for this reason. -/
def SessionInit (lib : Lib) (maxLen : Nat) (impls : Impls) (secret : Bytes) (s : Sess) : Meth → Prop
  | .cipherTest c => ∃ k, readKey secret 0 c.keyLen = some k ∧ Runs lib maxLen (impls.cipher c) c k s.crypt
  | .genericGmac c => ∃ k h, readKey secret 0 c.keyLen = some k ∧ Runs lib maxLen (impls.cipher c) c k s.crypt ∧
      s.crypt (List.replicate c.ivLen 0) (List.replicate 16 0) = some h ∧ s.digest = ghashDigest impls.ghash h false
  | .genericUmac c => ∃ k ku, readKey secret 0 c.keyLen = some k ∧ Runs lib maxLen (impls.cipher c) c k s.crypt ∧
      readKey secret c.keyLen 1440 = some ku ∧ s.digest = uhashDigest ku
  | .genericPoly1305 c => ∃ k, readKey secret 0 c.keyLen = some k ∧ Runs lib maxLen (impls.cipher c) c k s.crypt
  | .composedGmac c m => ∃ k km h, readKey secret 0 c.keyLen = some k ∧ Runs lib maxLen (impls.cipher c) c k s.crypt ∧
      readKey secret c.keyLen m.keyLen = some km ∧ Runs lib maxLen (impls.cipher m) m km s.macCrypt ∧
      s.macCrypt (List.replicate m.ivLen 0) (List.replicate 16 0) = some h ∧ s.digest = ghashDigest impls.ghash h true
  | .composedUmac c m => ∃ k km ku, readKey secret 0 c.keyLen = some k ∧ Runs lib maxLen (impls.cipher c) c k s.crypt ∧
      readKey secret c.keyLen m.keyLen = some km ∧ Runs lib maxLen (impls.cipher m) m km s.macCrypt ∧
      readKey secret (c.keyLen + m.keyLen) 1440 = some ku ∧ s.digest = uhashDigest ku

/-- `encrypt` of the method -/
def encrypt (lib : Lib) (s : Sess) (maxBuffer : Nat) (common : Common) (b : Buf) (st : Bytes) : Meth → Res (Option (Buf × Common))
  | .cipherTest c => ctEncrypt s.crypt (if c.ivLen = 0 then 1 else c.ivLen) maxBuffer common b st
  | .genericGmac c => genEncrypt s.crypt s.digest c.ivLen maxBuffer common b st
  | .genericUmac c => genEncrypt s.crypt s.digest c.ivLen maxBuffer common b st
  | .genericPoly1305 c => polyEncrypt s.crypt lib.poly1305 c.ivLen maxBuffer common b st
  | .composedGmac c m => compEncrypt s.crypt s.macCrypt s.digest c.ivLen m.ivLen maxBuffer common b st
  | .composedUmac c m => compEncrypt s.crypt s.macCrypt s.digest c.ivLen m.ivLen maxBuffer common b st

/-- `decrypt` of the method -/
def decrypt (lib : Lib) (s : Sess) (encHeadroom maxBuffer : Nat) (common : Common) (now : Time) (b : Buf) (st : Bytes) : Meth → Res Dec
  | .cipherTest c => ctDecrypt s.crypt (if c.ivLen = 0 then 1 else c.ivLen) encHeadroom maxBuffer common now b st
  | .genericGmac c => genDecrypt s.crypt s.digest c.ivLen encHeadroom maxBuffer common now b st
  | .genericUmac c => genDecrypt s.crypt s.digest c.ivLen encHeadroom maxBuffer common now b st
  | .genericPoly1305 c => polyDecrypt s.crypt lib.poly1305 c.ivLen encHeadroom maxBuffer common now b st
  | .composedGmac c m => compDecrypt s.crypt s.macCrypt s.digest c.ivLen m.ivLen encHeadroom maxBuffer common now b st
  | .composedUmac c m => compDecrypt s.crypt s.macCrypt s.digest c.ivLen m.ivLen encHeadroom maxBuffer common now b st

end Fastd.Method.Suite
