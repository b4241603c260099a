import Verif.Protocol.Fhmqvc

/-!
# The commands that deal with keys (src/protocols/ec25519_fhmqvc/util.c:17-54, src/fastd.c:419-435)

Model only. What is written to stdout is a list of bytes; log messages go to stderr and are not modelled. Checking the configuration (`--verify-config`) is the
subject of `Config/Check`.
-/

namespace Fastd.Protocol.Fhmqvc

open Fastd.Crypto

/-- How a run ends: with an exit status and what it has printed, or fastd goes on. -/
inductive KeyRun
  | exit (status : Nat) (out : Bytes)
  | goesOn (key : Pair)
deriving DecidableEq

/-- `fastd_random_bytes` (src/random.c:41-59), `secure`: `dev` is what /dev/random returns, `none` if it can't be opened; result `none`: exit -/
def randomBytes (dev : Option Bytes) (n : Nat) : Option Bytes :=
  match dev with
  | none => none
  | some l => if l.length < n then none else some (l.take n)

/-- A string constant -/
def ascii (s : String) : Bytes := s.toList.map fun c => UInt8.ofNat c.toNat

/-- `print_hexdump` (src/protocols/ec25519_fhmqvc/util.c:18-23) -/
def printHexdump (desc d : Bytes) : Bytes := desc ++ Util.hexdump d ++ [0x0a]

variable {G : Type} (E : Ecc G)

/-- `fastd_protocol_ec25519_fhmqvc_generate_key` (src/protocols/ec25519_fhmqvc/util.c:26-46) -/
def generateKey (machine : Bool) (dev : Option Bytes) : Option Bytes :=
  match randomBytes dev 32 with
  | none => none
  | some r =>
    let secret := E.sanitize r
    let work := E.scalarmultBase secret
    let pub := E.store work
    if machine then some (printHexdump [] secret)
    else some (printHexdump (ascii "Secret: ") secret ++ printHexdump (ascii "Public: ") pub)

/-- `fastd_protocol_ec25519_fhmqvc_show_key` (src/protocols/ec25519_fhmqvc/util.c:49-54) -/
def showKey (machine : Bool) (key : Pair) : Bytes :=
  if machine then printHexdump [] key.pub else printHexdump (ascii "Public: ") key.pub

/-- `protocol_init` (src/protocols/ec25519_fhmqvc/ec25519_fhmqvc.c:42-59); `none`: exit -/
def initKey (secret : Option Bytes) : Option Pair :=
  match secret with
  | none => none
  | some s =>
    match Util.readKey s with
    | none => none
    | some k => protocolInit E k

/-- `protocol_read_key` (src/protocols/ec25519_fhmqvc/ec25519_fhmqvc.c:62-74) -/
def readPeerKey (s : Bytes) : Option (PeerKey G) :=
  match Util.readKey s with
  | none => none
  | some k => readKey E k

/-- The part of the configuration that is used here -/
structure KeyConf where
  generate : Bool
  show_ : Bool
  machine : Bool
  secret : Option Bytes

/-- `init_config` from line 425 to 435 (src/fastd.c); `exit_error` exits with status 1. -/
def keyCommands (c : KeyConf) (dev : Option Bytes) : KeyRun :=
  if c.generate then
    match generateKey E c.machine dev with
    | some out => .exit 0 out
    | none => .exit 1 []
  else
    match initKey E c.secret with
    | none => .exit 1 []
    | some key => if c.show_ then .exit 0 (showKey c.machine key) else .goesOn key

end Fastd.Protocol.Fhmqvc
