import Verif.Spec.Sha256
import Mathlib.GroupTheory.OrderOfElement

/-!
# FHMQV-C as used by fastd (`doc/source/crypto/fhmqvc.rst`)

Independent of the model. The group is written additively, `P` is the base point, `enc` the encoding of points; `a` and `b` are the secret keys
of the initiator and the responder, `x` and `y` those generated for the handshake.
-/

namespace Fastd.Spec.Fhmqvc

open Fastd.Spec.Sha256

variable {G : Type} [AddCommGroup G] (P : G) (enc : G → Bytes)

/-- Little endian number. -/
def le : Bytes → Nat
  | [] => 0
  | b :: bs => b.toNat + 256 * le bs

/-- The order of the base point. -/
def order : Nat := 2 ^ 252 + 27742317777372353535851937790883648493

/-- The 128 bit number given by 16 bytes, with the highest bit set. -/
def coefficient (h : Bytes) : Nat := 2 ^ 127 + le h % 2 ^ 127

/-- `d` and `e` are the two halves of the hash of `Y`, `X`, `B` and `A`. -/
def coefficients (a b x y : Nat) : Nat × Nat :=
  let h := sha256 (enc (y • P) ++ enc (x • P) ++ enc (b • P) ++ enc (a • P))
  (coefficient (h.take 16), coefficient (h.drop 16))

/-- The shared secret: `(x + d a) (y + e b) P`. -/
def secret (a b x y : Nat) : G :=
  let (d, e) := coefficients P enc a b x y
  ((x + d * a) * (y + e * b)) • P

/-- The key that handshake packets are authenticated with. -/
def macKey (a b x y : Nat) : Bytes :=
  hkdfExpand (hkdfExtract (List.replicate 32 0) (enc (secret P enc a b x y)))
    (enc (a • P) ++ enc (b • P) ++ enc (x • P) ++ enc (y • P)) 1

/-- The key of a session: `n` blocks for the method called `name`. The documentation says that the public keys are used in the same order as above,
but they are not; both parties use the order given here. -/
def sessionKey (a b x y : Nat) (name : Bytes) (n : Nat) : Bytes :=
  hkdfExpand (hkdfExtract (macKey P enc a b x y) (enc (secret P enc a b x y)))
    (enc (x • P) ++ enc (y • P) ++ enc (a • P) ++ enc (b • P) ++ name) n

end Fastd.Spec.Fhmqvc
