import Verif.Daemon.State
import Verif.Buffer.Path
import Verif.Method.Suite
import Verif.Protocol.Fhmqvc
import Verif.Spec.Sha256

/-!
# The daemon with its cryptography

Model only. The daemon (Verif.Daemon.State and following) is modelled over an environment in which key exchange, key derivation and payload methods are
arbitrary functions. Here they are those of the code: ec25519-fhmqvc (Verif.Protocol.Fhmqvc) and the methods made of ciphers and MACs (Verif.Method.Suite).
Everything else of the environment is taken from another one. The two methods without keys (`null` and `null@l2tp`) are left out.
-/

namespace Fastd.Daemon.Real

open Fastd.Daemon (Env)
open Fastd.Method (Common)
open Fastd.Spec (Bytes)
open Fastd.Protocol.Fhmqvc (Ecc Pair)

/-- What a daemon uses -/
structure Node where
  /-- `conf.protocol_config->key` -/
  own : Pair
  /-- the pairs of handshake keys that are generated, numbered -/
  pair : Nat → Pair
  /-- `conf.methods`: the names with the methods created for them (src/config.c:493-527) -/
  meths : List (Bytes × Spec.Suite.Meth)
  lib : Method.Suite.Lib
  impls : Method.Suite.Impls
  /-- the sizes of buffers: `conf.encrypt_headroom` and `ctx.max_buffer` -/
  sizes : Path.Cfg

/-- `fastd_method_session_state_t` -/
abbrev Sess := Method.Suite.Sess × Common

variable {G : Type} (E : Ecc G) (N : Node)

/-- `make_shared_handshake_key` (src/protocols/ec25519_fhmqvc/handshake.c:176-250); the key of the peer was unpacked when it was configured. -/
def shared (initiator : Bool) (x : Nat) (key hk : Bytes) : Option (Bytes × Bytes) :=
  match Protocol.Fhmqvc.readKey E key with
  | none => none
  | some peer => (Protocol.Fhmqvc.makeShared E N.own initiator (N.pair x) peer hk).join

/-- The key for `session_init` in `new_session` (src/protocols/ec25519_fhmqvc/handshake.c:92-94) -/
def deriveKey (i : Nat) (A B X Y sigma salt : Bytes) : Bytes :=
  match N.meths[i]? with
  | none => []
  | some (name, m) =>
    (Protocol.Fhmqvc.deriveKey (Protocol.Fhmqvc.blockCount (Method.Suite.keyLength m) 32) salt name A B X Y sigma).getD []

open Classical in
/-- `session_init` (src/protocols/ec25519_fhmqvc/handshake.c:96-100, src/methods/common.c:18-33): one of the sessions that are possible for the secret. `n` is the random number for `fastd_rand` in `fastd_method_common_init`. -/
noncomputable def sessInit (maxBuffer i : Nat) (secret : Bytes) (initiator compat : Bool) (n : Nat) (now : Time) : Option Sess :=
  match N.meths[i]? with
  | none => none
  | some (_, m) =>
    if h : ∃ s, Method.Suite.SessionInit N.lib maxBuffer N.impls secret s m then
      some (h.choose, Common.init initiator compat now (n % KEY_REFRESH_SPLAY))
    else none

/-- A buffer with data (src/buffer.c:53-75) behind `off` bytes of other memory and zeros behind it up to the end of the block -/
def bufOf (off : Nat) (data : Bytes) : Buffer.Buf :=
  ⟨List.replicate off 0 ++ data ++ List.replicate (Buffer.alignto (off + data.length) 16 - (off + data.length)) 0, off, data.length⟩

/-- The memory of a free buffer (src/buffer.c:36-41) -/
def storage (maxBuffer : Nat) : Bytes := List.replicate (Buffer.alignto maxBuffer 16) 0

/-- `encrypt`, called by `session_send` (src/protocols/ec25519_fhmqvc/ec25519_fhmqvc.c:164-183). Payload is read from an interface into a buffer with
`conf.encrypt_headroom` bytes before it (src/iface.c:427-446). For packets without payload there is less space, that of the method itself
rounded up (src/protocols/ec25519_fhmqvc/ec25519_fhmqvc.c:201-203), which makes no difference: what is sent does not depend on it (C108). -/
def encrypt (maxBuffer i : Nat) (s : Sess) (data : Bytes) : Option (Bytes × Sess) :=
  match N.meths[i]? with
  | none => none
  | some (_, m) =>
    match Method.Suite.encrypt N.lib s.1 maxBuffer s.2 (bufOf N.sizes.enc data) (storage maxBuffer) m with
    | .ok (some (out, c)) => some (out.data, s.1, c)
    | _ => none

/-- `decrypt`; packets are received into buffers 8 bytes behind a block boundary and padded with zeros (src/receive.c:240-275,
see C12). -/
def decrypt (maxBuffer i : Nat) (s : Sess) (pkt : Bytes) (now : Time) : Option (Bytes × Bool × Sess) :=
  match N.meths[i]? with
  | none => none
  | some (_, m) =>
    match Method.Suite.decrypt N.lib s.1 N.sizes.enc maxBuffer s.2 now (bufOf 8 pkt) (storage maxBuffer) m with
    | .ok (.out b c r) => some (b.data, r.getD false, s.1, c)
    | _ => none

/-- The environment with these functions; methods are found by name as in src/method.h:74-85. `fastd_hmacsha256` is the specified HMAC for keys of 32 bytes and packets (C47). -/
@[reducible] noncomputable def env (base : Env) : Env where
  Sess := Sess
  tape := base.tape
  pktinfoErr := base.pktinfoErr
  mode := base.mode
  forward := base.forward
  mtu := base.mtu
  protocolName := base.protocolName
  version := base.version
  maxBuffer := N.sizes.maxBuffer
  sharedIface := base.sharedIface
  ifacePersist := base.ifacePersist
  onVerify := base.onVerify
  verifyGroup := base.verifyGroup
  sockV4 := base.sockV4
  sockV6 := base.sockV6
  chain := base.chain
  maxConn := base.maxConn
  groupMethods := base.groupMethods
  methodByName name := N.meths.findIdx? (·.1 = name)
  methodName i := (N.meths[i]?.map (·.1)).getD []
  forceKeepalive := base.forceKeepalive
  ownKey := N.own.pub
  pub n := (N.pair n).pub
  pointOk key := (Protocol.Fhmqvc.readKey E key).isSome
  shared := shared E N
  hmac := Spec.Sha256.hmac
  deriveKey := deriveKey N
  sessInit := sessInit N N.sizes.maxBuffer
  sessValid _ s now := s.2.isValid now
  sessInitiator _ s := s.2.initiator
  sessWantRefresh _ s now := s.2.wantRefresh now
  sessSuperseded _ s now := (s.1, s.2.superseded now)
  encrypt := encrypt N N.sizes.maxBuffer
  decrypt := decrypt N N.sizes.maxBuffer

end Fastd.Daemon.Real
