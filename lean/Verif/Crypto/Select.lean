/-!
# Choice of implementations of ciphers and MACs
(src/crypto/cipher/ciphers.c.in, src/crypto/mac/macs.c.in, src/cpuid.h)

Model only. The code for ciphers and for MACs is the same except for names, so that there is one model of both.
The tables are generated by the build system (src/crypto/cipher/meson.build, src/crypto/mac/meson.build); they are
parameters here. Pointers to `fastd_cipher_info_t` are represented by numbers, those to implementations by the name
of the implementation, the cipher being known from the context.
-/

namespace Fastd.Select

/-- An entry of `impls`: name and the implementation's `available()` (true if there is no such function). -/
structure Impl where
  name : String
  available : Bool
deriving DecidableEq, Repr

/-- A `cipher_entry_t` (src/crypto/cipher/ciphers.c.in:27-31); `impls` without the terminating entry of `NULL`s. -/
structure Entry where
  name : String
  info : Nat
  impls : List Impl
deriving DecidableEq, Repr

/-- `cipher_conf`: for each entry the chosen implementation, `none` for `NULL`. -/
abbrev Conf := List (Option String)

/-- The inner loop of `fastd_cipher_init` (lines 52-57): stops at the first available one or at the end. -/
def firstAvailable : List Impl → Option String
  | [] => none
  | i :: r => if i.available then some i.name else firstAvailable r

/-- `fastd_cipher_init` (src/crypto/cipher/ciphers.c.in:49-59) -/
def init (table : List Entry) : Conf := table.map fun e => firstAvailable e.impls

/-- The inner loop of `fastd_cipher_config` (lines 66-74): `none` if it returns false. -/
def findImpl (impl : String) : List Impl → Option String
  | [] => none
  | i :: r => if i.name = impl then (if i.available then some i.name else none) else findImpl impl r

/-- `fastd_cipher_config` (src/crypto/cipher/ciphers.c.in:61-81): `none` if it returns false. -/
def config (name impl : String) : List Entry → Conf → Option Conf
  | e :: t, c :: r =>
    if e.name = name then
      match findImpl impl e.impls with
      | some n => some (some n :: r)
      | none => none
    else (config name impl t r).map (c :: ·)
  | _, _ => none

/-- `fastd_cipher_info_get_by_name` (src/crypto/cipher/ciphers.c.in:83-96) -/
def infoByName (name : String) : List Entry → Conf → Option Nat
  | e :: t, c :: r =>
    if e.name = name then (if c.isSome then some e.info else none) else infoByName name t r
  | _, _ => none

/-- `fastd_cipher_get` (src/crypto/cipher/ciphers.c.in:98-106) -/
def get (info : Nat) : List Entry → Conf → Option String
  | e :: t, c :: r => if e.info = info then c else get info t r
  | _, _ => none

/-- `fastd_config_cipher` for all `cipher` statements of a configuration (src/config.c:107-112): an error ends
fastd. -/
def configAll (table : List Entry) : Conf → List (String × String) → Option Conf
  | c, [] => some c
  | c, (n, i) :: r => (config n i table c).bind fun c => configAll table c r

/-- What fastd uses in the end: `fastd_cipher_init` before the configuration is read (src/fastd.c:410-411). -/
def chosen (table : List Entry) (stmts : List (String × String)) : Option Conf := configAll table (init table) stmts

/-- `CPUID_FXSR`, `CPUID_SSE2`, `CPUID_PCLMULQDQ`, `CPUID_SSSE3` (src/cpuid.h:17-27) -/
def cpuidFxsr : UInt64 := 0x1000000
def cpuidSse2 : UInt64 := 0x4000000
def cpuidPclmulqdq : UInt64 := 0x200000000
def cpuidSsse3 : UInt64 := 0x20000000000

/-- `salsa20_available`, `salsa2012_available` (src/crypto/cipher/salsa20/xmm/salsa20_xmm.c:41-43,
src/crypto/cipher/salsa2012/xmm/salsa2012_xmm.c:41-43) -/
def xmmAvailable (cpuid : UInt64) : Bool := cpuid &&& cpuidSse2 != 0

/-- `ghash_available` (src/crypto/mac/ghash/pclmulqdq/ghash_pclmulqdq.c:19-23) -/
def ghashAvailable (cpuid : UInt64) : Bool :=
  let req : UInt64 := cpuidFxsr ||| cpuidSsse3 ||| cpuidPclmulqdq
  cpuid &&& req == req

/-- The table of ciphers of a build for x86 with everything enabled (src/crypto/cipher/*/meson.build). -/
def ciphers (cpuid : UInt64) : List Entry :=
  [⟨"aes128-ctr", 0, [⟨"openssl", true⟩]⟩, ⟨"null", 1, [⟨"memcpy", true⟩]⟩,
   ⟨"salsa20", 2, [⟨"xmm", xmmAvailable cpuid⟩, ⟨"nacl", true⟩]⟩, ⟨"salsa2012", 3, [⟨"xmm", xmmAvailable cpuid⟩, ⟨"nacl", true⟩]⟩]

/-- The table of MACs of a build for x86 with everything enabled (src/crypto/mac/*/meson.build). -/
def macs (cpuid : UInt64) : List Entry :=
  [⟨"ghash", 0, [⟨"pclmulqdq", ghashAvailable cpuid⟩, ⟨"builtin", true⟩]⟩, ⟨"uhash", 1, [⟨"builtin", true⟩]⟩]

end Fastd.Select
