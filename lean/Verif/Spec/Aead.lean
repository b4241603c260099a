import Verif.Method.Common

/-!
# Specification of the payload methods

What each method computes, on byte strings, independent of buffers: `enc` turns a payload into the
part of the packet behind the common header, `dec` does the reverse. A cipher is given by its key
stream `ks iv i` (byte `i` for IV `iv`), a MAC by the function `mac` of the zero padded message and
its length.
-/

namespace Fastd.Spec

open Fastd.Method

abbrev Bytes := List UInt8

abbrev KeyStream := Bytes → Nat → UInt8

/-- Exclusive or with the key stream. -/
def stream (ks : KeyStream) (iv : Bytes) (l : Bytes) : Bytes := l.mapIdx fun i b => b ^^^ ks iv i

/-- Message padded with zero bytes to a multiple of 16 bytes. -/
def pad16 (l : Bytes) : Bytes := l ++ List.replicate ((16 - l.length % 16) % 16) 0

def xor (a b : Bytes) : Bytes := List.zipWith (· ^^^ ·) a b

/-- A method: sealing and opening with a nonce. -/
structure Aead where
  enc : Nonce → Bytes → Bytes
  dec : Nonce → Bytes → Option Bytes

/-- generic-gmac and generic-umac: the first 16 bytes of the key stream mask the tag. -/
def generic (ks : KeyStream) (iv : Nonce → Bytes) (mac : Bytes → Nat → Bytes) : Aead where
  enc n p :=
    let c := stream ks (iv n) (List.replicate 16 0 ++ p)
    xor (c.take 16) (mac (pad16 (c.drop 16)) p.length) ++ c.drop 16
  dec n c :=
    if c.length < 16 then none
    else
      let p := stream ks (iv n) c
      if p.take 16 = mac (pad16 (c.drop 16)) (c.length - 16) then some (p.drop 16) else none

/-- composed-gmac and composed-umac: a second cipher masks the tag. -/
def composed (ks ksMac : KeyStream) (iv ivMac : Nonce → Bytes) (mac : Bytes → Nat → Bytes) : Aead where
  enc n p :=
    let c := stream ks (iv n) p
    xor (stream ksMac (ivMac n) (List.replicate 16 0)) (mac (pad16 c) p.length) ++ c
  dec n c :=
    if c.length < 16 then none
    else if stream ksMac (ivMac n) (c.take 16) = mac (pad16 (c.drop 16)) (c.length - 16) then
      some (stream ks (iv n) (c.drop 16))
    else none

/-- generic-poly1305: the first 32 bytes of the key stream are the one-time key. -/
def poly1305 (ks : KeyStream) (iv : Nonce → Bytes) (auth : Bytes → Bytes → Bytes) : Aead where
  enc n p :=
    let c := stream ks (iv n) (List.replicate 32 0 ++ p)
    auth (c.take 32) (c.drop 32) ++ c.drop 32
  dec n c :=
    if c.length < 16 then none
    else
      let p := stream ks (iv n) (List.replicate 32 0 ++ c.drop 16)
      if auth (p.take 32) (c.drop 16) = c.take 16 then some (p.drop 32) else none

/-- cipher-test: encryption only. -/
def cipherTest (ks : KeyStream) (iv : Nonce → Bytes) : Aead where
  enc n p := stream ks (iv n) p
  dec n c := some (stream ks (iv n) c)

/-- What is received was sent: opening a sealed payload gives the payload. -/
def Aead.Sound (a : Aead) : Prop := ∀ n p, a.dec n (a.enc n p) = some p

end Fastd.Spec

namespace Fastd.Spec

open Fastd.Method

/-- What a receiver does with a packet. -/
inductive Recv
  | reject
  | payload (p : Bytes) (s : Common) (reordered : Option Bool)

/-- Receiving the data packet `pkt` in session `s` with method `a`: the packet must have the type used
in this session, no flags and an acceptable nonce in a valid session, and it must open under that
nonce; then the payload is delivered, unless it is a duplicate (empty payload). `Fastd.Method.receive`
is the treatment of the nonce, see C01-C03 for its specification. -/
def recv (a : Aead) (s : Common) (now : Time) : Bytes → Recv
  | t :: f :: n0 :: n1 :: n2 :: n3 :: n4 :: n5 :: c =>
    let n : Nonce := #v[n0, n1, n2, n3, n4, n5]
    if t = packetType s.compat ∧ f = 0 then
      match receive s now n, a.dec n c with
      | (.rejected, _), _ => .reject
      | _, none => .reject
      | (.inOrder, s'), some p => .payload p s' (some false)
      | (.reordered, s'), some p => .payload p s' (some true)
      | (.duplicate, s'), some _ => .payload [] s' none
    else .reject
  | _ => .reject

/-- The packet sent for payload `p`. -/
def packet (a : Aead) (s : Common) (p : Bytes) : Bytes :=
  [packetType s.compat, 0] ++ s.sendNonce.toList ++ a.enc s.sendNonce p

end Fastd.Spec
