import Verif.Spec.Aead
import Verif.Spec.Salsa20
import Verif.Spec.Ghash
import Verif.Spec.Uhash

/-!
# Specification of the payload methods with their ciphers and MACs

What each method computes from the session secret, in terms of Salsa20 (`Verif.Spec.Salsa20`), counter mode of a block cipher, GHASH
(`Verif.Spec.Ghash`) and UHASH (`Verif.Spec.Uhash`). The block cipher (AES-128) and Poly1305 are parameters.
-/

namespace Fastd.Spec.Suite

open Fastd.Spec Fastd.Method

inductive Cipher
  | null | salsa20 | salsa2012 | aes128ctr
deriving DecidableEq, Repr

/-- Length of keys -/
def Cipher.keyLen : Cipher → Nat
  | .null => 0
  | .salsa20 => 32
  | .salsa2012 => 32
  | .aes128ctr => 16

/-- Length of IVs -/
def Cipher.ivLen : Cipher → Nat
  | .null => 0
  | .salsa20 => 8
  | .salsa2012 => 8
  | .aes128ctr => 16

/-- Length of the blocks of the key stream -/
def Cipher.blockLen : Cipher → Nat
  | .aes128ctr => 16
  | _ => 64

/-- A block cipher: byte of the result for a key and a block that is given as a number (the first byte is the most significant one) -/
abbrev BlockCipher := Bytes → Nat → Nat → UInt8

/-- Counter mode (NIST SP 800-38A, section 6.5) with a counter of 128 bits -/
def ctr (e : BlockCipher) (key : Bytes) : KeyStream := fun iv i => e key ((beVal iv + i / 16) % 2 ^ 128) (i % 16)

/-- The key stream of a cipher -/
def Cipher.ks (e : BlockCipher) : Cipher → Bytes → KeyStream
  | .null, _ => fun _ _ => 0
  | .salsa20, key => fun iv i => Salsa20.stream 10 (key.getD · 0) (iv.getD · 0) i
  | .salsa2012, key => fun iv i => Salsa20.stream 6 (key.getD · 0) (iv.getD · 0) i
  | .aes128ctr, key => ctr e key

/-- Where a byte of the key stream comes from: the input of the core function of the cipher, i.e. of the hash function of Salsa20 or of the block cipher,
and the index of the byte in its output -/
inductive Source
  | zero
  | salsa (w : Salsa20.Words) (j : Nat)
  | block (b j : Nat)
deriving DecidableEq, Repr

def Cipher.source (key iv : Bytes) (i : Nat) : Cipher → Source
  | .null => .zero
  | .salsa20 => .salsa (Salsa20.expand (key.getD · 0) (iv.getD · 0) (i / 64)) (i % 64)
  | .salsa2012 => .salsa (Salsa20.expand (key.getD · 0) (iv.getD · 0) (i / 64)) (i % 64)
  | .aes128ctr => .block ((beVal iv + i / 16) % 2 ^ 128) (i % 16)

/-- A block of 128 bits as 16 bytes -/
def blockBytes (v : Ghash.Block) : Bytes := (List.range 16).map fun i => UInt8.ofNat (v.toNat / 256 ^ (15 - i))

/-- GHASH of the message as ciphertext -/
def ghashC (h : Bytes) (x : Bytes) (n : Nat) : Bytes := blockBytes (Ghash.gcm (Ghash.ofBytes h) [] (x.take n))

/-- GHASH of the message as additional authenticated data -/
def ghashA (h : Bytes) (x : Bytes) (n : Nat) : Bytes := blockBytes (Ghash.gcm (Ghash.ofBytes h) (x.take n) [])

/-- UHASH with 16 byte results: 1072 bytes of key for the first layer, 96 for the second, 256 and 16 for the third -/
def uhash (key : Bytes) (x : Bytes) (n : Nat) : Bytes :=
  Uhash.uhash (Uhash.sub key 0 1072) (Uhash.sub key 1072 96) (Uhash.sub key 1168 256) (Uhash.sub key 1424 16) (x.take n)

inductive Meth
  | cipherTest (c : Cipher)
  | genericGmac (c : Cipher)
  | genericUmac (c : Cipher)
  | genericPoly1305 (c : Cipher)
  | composedGmac (c m : Cipher)
  | composedUmac (c m : Cipher)
deriving DecidableEq, Repr

/-- The length of the session secret -/
def Meth.keyLen : Meth → Nat
  | .cipherTest c => c.keyLen
  | .genericGmac c => c.keyLen
  | .genericUmac c => c.keyLen + 1440
  | .genericPoly1305 c => c.keyLen
  | .composedGmac c m => c.keyLen + m.keyLen
  | .composedUmac c m => c.keyLen + m.keyLen + 1440

/-- A part of the secret -/
def part (secret : Bytes) (off len : Nat) : Bytes := (secret.drop off).take len

/-- The key of GHASH: the beginning of the key stream for the zero IV -/
def hashKey (ks : KeyStream) (ivLen : Nat) : Bytes := (List.range 16).map (ks (List.replicate ivLen 0))

/-- What a method does with a session secret: the secret is divided into the keys, in the order encryption, authentication, hash. -/
def Meth.aead (e : BlockCipher) (poly : Bytes → Bytes → Bytes) (secret : Bytes) : Meth → Aead
  | .cipherTest c => Spec.cipherTest (c.ks e (part secret 0 c.keyLen)) (expandNonce · c.ivLen)
  | .genericGmac c =>
    let ks := c.ks e (part secret 0 c.keyLen)
    Spec.generic ks (expandNonce · c.ivLen) (ghashC (hashKey ks c.ivLen))
  | .genericUmac c =>
    Spec.generic (c.ks e (part secret 0 c.keyLen)) (expandNonce · c.ivLen) (uhash (part secret c.keyLen 1440))
  | .genericPoly1305 c => Spec.poly1305 (c.ks e (part secret 0 c.keyLen)) (expandNonce · c.ivLen) poly
  | .composedGmac c m =>
    let ksm := m.ks e (part secret c.keyLen m.keyLen)
    Spec.composed (c.ks e (part secret 0 c.keyLen)) ksm (expandNonce · c.ivLen) (expandNonce · m.ivLen) (ghashA (hashKey ksm m.ivLen))
  | .composedUmac c m =>
    Spec.composed (c.ks e (part secret 0 c.keyLen)) (m.ks e (part secret c.keyLen m.keyLen)) (expandNonce · c.ivLen) (expandNonce · m.ivLen)
      (uhash (part secret (c.keyLen + m.keyLen) 1440))

end Fastd.Spec.Suite
