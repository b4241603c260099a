import Verif.Basic

/-!
# Handshake keys of ec25519-fhmqvc (src/protocols/ec25519_fhmqvc/state.c, handshake.h)

Model only. `κ` is the type of key pairs.
-/

namespace Fastd.Protocol

/-- `handshake_key_t` (src/protocols/ec25519_fhmqvc/handshake.h:25-38) -/
structure HKey (κ : Type) where
  serial : Nat
  preferredTill : Time
  validTill : Time
  key : κ
deriving DecidableEq

/-- `struct fastd_protocol_state` (src/protocols/ec25519_fhmqvc/handshake.h:45-48) -/
structure HKeys (κ : Type) where
  prev : HKey κ
  cur : HKey κ
deriving DecidableEq

/-- `init_protocol_state` (src/protocols/ec25519_fhmqvc/state.c:19-26); `zero` is the all-zero key pair. -/
def HKeys.init {κ : Type} (zero : κ) (now : Time) : HKeys κ := ⟨⟨0, now, 0, zero⟩, ⟨0, now, 0, zero⟩⟩

/-- `is_handshake_key_valid` (src/protocols/ec25519_fhmqvc/handshake.h:52-54) -/
def HKey.valid {κ : Type} (k : HKey κ) (now : Time) : Bool := !timedOut k.validTill now

/-- `is_handshake_key_preferred` (src/protocols/ec25519_fhmqvc/handshake.h:57-59) -/
def HKey.preferred {κ : Type} (k : HKey κ) (now : Time) : Bool := !timedOut k.preferredTill now

/-- `fastd_protocol_ec25519_fhmqvc_maintenance` (src/protocols/ec25519_fhmqvc/state.c:48-63); `fresh` is the
key pair from `new_handshake_key` (lines 29-40). -/
def HKeys.maintenance {κ : Type} (s : HKeys κ) (now : Time) (fresh : κ) : HKeys κ :=
  if !s.cur.preferred now then
    { prev := s.cur
      cur := { serial := s.cur.serial + 1, preferredTill := now + 15000, validTill := now + 30000, key := fresh } }
  else s

/-- The key lookup in `fastd_protocol_ec25519_fhmqvc_handshake_handle`
(src/protocols/ec25519_fhmqvc/handshake.c:727-744); `isKey` compares the public key with the record. -/
def HKeys.find {κ : Type} (s : HKeys κ) (now : Time) (isKey : κ → Bool) : Option (HKey κ) :=
  if s.cur.valid now && isKey s.cur.key then some s.cur
  else if s.prev.valid now && isKey s.prev.key then some s.prev
  else none

end Fastd.Protocol
