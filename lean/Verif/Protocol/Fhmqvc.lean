import Verif.Crypto.Sha256
import Verif.Crypto.Util
import Mathlib.GroupTheory.OrderOfElement

/-!
# The key exchange of ec25519-fhmqvc (src/protocols/ec25519_fhmqvc/handshake.c, ec25519_fhmqvc.c, state.c)

Model only. The arithmetic on the curve belongs to libuecc and is a parameter; what is assumed of it is `Ecc.Lawful` in Verif.Protocol.FhmqvcLemmas.
Points are elements of a type `G`. A result `none` stands for a memory error in the code.
-/

namespace Fastd.Protocol.Fhmqvc

open Fastd.Crypto
open Fastd.Util (divideKey secureMemequal)

/-- The functions of libuecc that are used. -/
structure Ecc (G : Type) where
  /-- `ecc_25519_gf_sanitize_secret` -/
  sanitize : Bytes → Bytes
  /-- `ecc_25519_gf_mult` -/
  gfMult : Bytes → Bytes → Bytes
  /-- `ecc_25519_gf_add` -/
  gfAdd : Bytes → Bytes → Bytes
  /-- `ecc_25519_scalarmult_base` -/
  scalarmultBase : Bytes → G
  /-- `ecc_25519_scalarmult` -/
  scalarmult : Bytes → G → G
  /-- `ecc_25519_scalarmult_bits` -/
  scalarmultBits : Bytes → G → Nat → G
  /-- `ecc_25519_add` -/
  add : G → G → G
  /-- `ecc_25519_double` -/
  double : G → G
  /-- `ecc_25519_is_identity` -/
  isIdentity : G → Bool
  /-- `ecc_25519_load_packed_legacy` -/
  load : Bytes → Option G
  /-- `ecc_25519_store_packed_legacy` -/
  store : G → Bytes

variable {G : Type} (E : Ecc G)

/-- `keypair_t` (src/protocols/ec25519_fhmqvc/ec25519_fhmqvc.h:41-44) -/
structure Pair where
  secret : Bytes
  pub : Bytes
deriving DecidableEq

/-- `fastd_protocol_key_t` (src/protocols/ec25519_fhmqvc/ec25519_fhmqvc.h:47-53) -/
structure PeerKey (G : Type) where
  key : Bytes
  unpacked : G

/-- The key pair for a secret key, as it is computed from the configured one in `protocol_init` (src/protocols/ec25519_fhmqvc/ec25519_fhmqvc.c:51-56);
`none`: the daemon exits. -/
def protocolInit (s : Bytes) : Option Pair :=
  let pub := E.store (E.scalarmultBase s)
  let (ok, secret) := divideKey s
  if ok then some ⟨secret, pub⟩ else none

/-- `new_handshake_key` (src/protocols/ec25519_fhmqvc/state.c:29-40); `r` are the random bytes. -/
def newHandshakeKey (r : Bytes) : Option Pair :=
  let s := E.sanitize r
  let pub := E.store (E.scalarmultBase s)
  let (ok, secret) := divideKey s
  if ok then some ⟨secret, pub⟩ else none

/-- `protocol_read_key` after the hexadecimal digits have been decoded (src/protocols/ec25519_fhmqvc/ec25519_fhmqvc.c:62-74) -/
def readKey (key : Bytes) : Option (PeerKey G) :=
  match E.load key with
  | some p => if !E.isIdentity p then some ⟨key, p⟩ else none
  | none => none

/-- `derive_key` (src/protocols/ec25519_fhmqvc/handshake.c:39-56) -/
def deriveKey (blocks : Nat) (salt methodName A B X Y sigma : Bytes) : Option Bytes := do
  let info := A ++ B ++ X ++ Y ++ methodName
  let prk ← hkdfExtract salt sigma 32
  hkdfExpand blocks prk info

/-- `octuple_point` (src/protocols/ec25519_fhmqvc/ec25519_fhmqvc.h:143-148) -/
def octuple (p : G) : G :=
  let work := E.double p
  let work := E.double work
  E.double work

/-- `x[15] |= 0x80` -/
def setBit (x : Bytes) : Bytes := x.set 15 (x.getD 15 0 ||| 0x80)

/-- `make_shared_handshake_key` (src/protocols/ec25519_fhmqvc/handshake.c:176-250). `own` is `conf.protocol_config->key`; the result is `none` if
the function returns false, otherwise sigma and the shared handshake key. -/
def makeShared (own : Pair) (initiator : Bool) (hk : Pair) (peer : PeerKey G) (peerHk : Bytes) : Option (Option (Bytes × Bytes)) :=
  match E.load peerHk with
  | none => some none
  | some workXY => do
    if E.isIdentity workXY then return none
    let A := if initiator then own.pub else peer.key
    let B := if initiator then peer.key else own.pub
    let X := if initiator then hk.pub else peerHk
    let Y := if initiator then peerHk else hk.pub
    let hash ← sha256Blocks [Y, X, B, A]
    let d := setBit (hash.take 16 ++ List.replicate 16 0)
    let e := setBit (hash.drop 16 ++ List.replicate 16 0)
    let s := if initiator then E.gfAdd (E.gfMult d own.secret) hk.secret else E.gfAdd (E.gfMult e own.secret) hk.secret
    let work := if initiator then E.scalarmultBits e peer.unpacked 128 else E.scalarmultBits d peer.unpacked 128
    let work := E.add workXY work
    let work := octuple E work
    let work := E.scalarmult s work
    if E.isIdentity work then return none
    let sigma := E.store work
    let shared ← deriveKey 1 (List.replicate 32 0) [] A B X Y sigma
    return some (sigma, shared)

/-- `block_count` (src/util.h) -/
def blockCount (l a : Nat) : Nat := (l + a - 1) / a

/-- The key for `session_init` in `new_session` (src/protocols/ec25519_fhmqvc/handshake.c:92-94), with the arguments given to `establish` by
`finish_handshake` (lines 341-345) -/
def sessionKeyInitiator (own hk : Pair) (peer : PeerKey G) (peerHk sigma shared methodName : Bytes) (keyLength : Nat) : Option Bytes :=
  deriveKey (blockCount keyLength 32) shared methodName hk.pub peerHk own.pub peer.key sigma

/-- The same with those given by `handle_finish_handshake` (lines 396-399) -/
def sessionKeyResponder (own hk : Pair) (peer : PeerKey G) (peerHk sigma shared methodName : Bytes) (keyLength : Nat) : Option Bytes :=
  deriveKey (blockCount keyLength 32) shared methodName peerHk hk.pub peer.key own.pub sigma

/-! ## The cache of the responder -/

/-- The handshake cache in `struct fastd_protocol_peer_state` (src/protocols/ec25519_fhmqvc/ec25519_fhmqvc.h:81-86) -/
structure Cache where
  serial : Nat
  peerHk : Bytes
  sigma : Bytes
  shared : Bytes
deriving DecidableEq

/-- `clear_shared_handshake_key` (src/protocols/ec25519_fhmqvc/handshake.c:272-278), also the state of a new peer -/
def Cache.clear : Cache := ⟨0, List.replicate 32 0, List.replicate 32 0, List.replicate 32 0⟩

/-- `update_shared_handshake_key` (src/protocols/ec25519_fhmqvc/handshake.c:253-269): the result is the return value and the cache.
If `make_shared_handshake_key` fails, it has not written its results. -/
def Cache.update (own : Pair) (peer : PeerKey G) (serial : Nat) (hk : Pair) (peerHk : Bytes) (c : Cache) : Option (Bool × Cache) := do
  if c.serial = serial then
    if (← secureMemequal c.peerHk peerHk 32) then return (true, c)
  match ← makeShared E own false hk peer peerHk with
  | none => return (false, c)
  | some (sigma, shared) => return (true, ⟨serial, peerHk, sigma, shared⟩)

end Fastd.Protocol.Fhmqvc
