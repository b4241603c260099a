import Verif.Config.Methods

/-!
# Method names (src/methods/*/*.c: `method_create_by_name`)

Model only. Names are C strings (byte lists). The character arrays the providers use have the sizes
given in the code; a write beyond the end is the separate outcome `overflow`.
-/

namespace Fastd.Config.MethodNames

open Fastd.Config (Name)

/-- The ciphers known to the program (src/crypto/cipher/ciphers.c.in:36-42): name, `iv_length`, and
whether an implementation is available (`cipher_conf[i]` not null). -/
structure Cipher where
  name : Name
  iv : Nat
  available : Bool

/-- A method together with its provider; `fastd_method_t` consists of cipher infos, which we identify
with the ciphers' names. -/
inductive Meth
  | cipherTest (cipher : Name)
  | composedGmac (cipher gmacCipher : Name)
  | composedUmac (cipher umacCipher : Name)
  | genericGmac (cipher : Name)
  | genericPoly1305 (cipher : Name)
  | genericUmac (cipher : Name)
  | null
  | nullL2tp
deriving DecidableEq

inductive CRes
  /-- return true -/
  | accept (m : Meth)
  /-- return false -/
  | reject
  | overflow
  /-- behaviour that is not defined: an array of size 0 -/
  | undef
deriving DecidableEq

/-- Compile-time and start-up configuration: ciphers, and which MACs are available. -/
structure Env where
  ciphers : List Cipher
  ghash : Bool
  uhash : Bool

/-- `fastd_cipher_info_get_by_name` (src/crypto/cipher/ciphers.c.in:84-97), giving the `iv_length` -/
def lookupIn : List Cipher → Name → Option Nat
  | [], _ => none
  | c :: cs, n => if c.name ≠ n then lookupIn cs n else if c.available then some c.iv else none

def Env.iv (e : Env) (n : Name) : Option Nat := lookupIn e.ciphers n

/-- `COMMON_NONCEBYTES` (src/methods/common.h:18) -/
def noncebytes : Nat := 6

/-- `len >= k && !strcmp(name + len - k, suf)` with `k = strlen(suf)` -/
def endsWith (name suf : Name) : Bool :=
  decide (name.length ≥ suf.length) && decide (name.drop (name.length - suf.length) = suf)

/-- ASCII strings used below -/
def sCipherTest : Name := [43, 99, 105, 112, 104, 101, 114, 45, 116, 101, 115, 116]  -- "+cipher-test"
def sDashGmac : Name := [45, 103, 109, 97, 99]  -- "-gmac"
def sPlusGmac : Name := [43, 103, 109, 97, 99]  -- "+gmac"
def sCtrGmac : Name := [45, 99, 116, 114, 43, 103, 109, 97, 99]  -- "-ctr+gmac"
def sGcm : Name := [45, 103, 99, 109]  -- "-gcm"
def sPlusUmac : Name := [43, 117, 109, 97, 99]  -- "+umac"
def sPoly1305 : Name := [43, 112, 111, 108, 121, 49, 51, 48, 53]  -- "+poly1305"
def sNull : Name := [110, 117, 108, 108]  -- "null"
def sNullL2tp : Name := [110, 117, 108, 108, 64, 108, 50, 116, 112]  -- "null@l2tp"
def sCtr : Name := [99, 116, 114]  -- "ctr"

/-- A string stored in an array of `size` bytes. -/
def withBuf (size : Nat) (s : Name) (k : Name → CRes) : CRes :=
  if s.length + 1 ≤ size then k s else .overflow

/-- `strchr(cipher_name, '+')`, `*p = 0; p++`: the parts before and after the first plus sign. -/
def splitPlus : Name → Option (Name × Name)
  | [] => none
  | c :: cs =>
    if c = 43 then some ([], cs)
    else
      match splitPlus cs with
      | none => none
      | some (a, b) => some (c :: a, b)

/-- The cipher checks shared by the composed methods
(src/methods/composed_gmac/composed_gmac.c:86-98, src/methods/composed_umac/composed_umac.c:78-90). -/
def composedChecks (e : Env) (c m : Name) (r : Meth) : CRes :=
  match e.iv c with
  | none => .reject
  | some ivc =>
    if ivc ≠ 0 ∧ ivc ≤ noncebytes then .reject
    else
      match e.iv m with
      | none => .reject
      | some ivm => if ivm ≤ noncebytes then .reject else .accept r

/-- The cipher check of the generic methods (e.g. src/methods/generic_gmac/generic_gmac.c:66-71). -/
def genericChecks (e : Env) (c : Name) (r : Meth) : CRes :=
  match e.iv c with
  | none => .reject
  | some iv => if iv ≤ noncebytes then .reject else .accept r

inductive Provider
  | cipherTest | composedGmac | composedUmac | genericGmac | genericPoly1305 | genericUmac | null | nullL2tp
deriving DecidableEq

/-- `method_create_by_name` (src/methods/cipher_test/cipher_test.c:38-60) -/
def createCipherTest (e : Env) (name : Name) : CRes :=
  let len := name.length
  if len < 12 then .reject
  else if name.drop (len - 12) ≠ sCipherTest then .reject
  else
    withBuf (len - 11) (name.take (len - 12)) fun c =>
      match e.iv c with
      | none => .reject
      | some _ => .accept (.cipherTest c)

def composedGmacTail (e : Env) (s : Name) : CRes :=
  match splitPlus s with
  | none => .reject
  | some (c, g) => composedChecks e c g (.composedGmac c g)

/-- `method_create_by_name` (src/methods/composed_gmac/composed_gmac.c:55-104) -/
def createComposedGmac (e : Env) (name : Name) : CRes :=
  let len := name.length
  if !e.ghash then .reject
  else if endsWith name sDashGmac then
    withBuf len (name.take (len - 4) ++ sCtr) (composedGmacTail e)
  else if endsWith name sPlusGmac then
    if endsWith name sCtrGmac then .reject
    else withBuf len (name.take (len - 5)) (composedGmacTail e)
  else .reject

def composedUmacTail (e : Env) (s : Name) : CRes :=
  match splitPlus s with
  | none => .reject
  | some (c, u) => composedChecks e c u (.composedUmac c u)

/-- `method_create_by_name` (src/methods/composed_umac/composed_umac.c:53-96) -/
def createComposedUmac (e : Env) (name : Name) : CRes :=
  let len := name.length
  if !e.uhash then .reject
  else if endsWith name sPlusUmac then
    withBuf len (name.take (len - 5)) (composedUmacTail e)
  else .reject

/-- `method_create_by_name` (src/methods/generic_gmac/generic_gmac.c:43-77) -/
def createGenericGmac (e : Env) (name : Name) : CRes :=
  let len := name.length
  if !e.ghash then .reject
  else if endsWith name sGcm then
    withBuf (len + 1) (name.take (len - 3) ++ sCtr) fun c => genericChecks e c (.genericGmac c)
  else if endsWith name sPlusGmac then
    if endsWith name sCtrGmac then .reject
    else withBuf (len + 1) (name.take (len - 5)) fun c => genericChecks e c (.genericGmac c)
  else .reject

/-- `method_create_by_name` (src/methods/generic_poly1305/generic_poly1305.c:51-76) -/
def createGenericPoly1305 (e : Env) (name : Name) : CRes :=
  let len := name.length
  if len < 9 then .reject
  else if name.drop (len - 9) ≠ sPoly1305 then .reject
  else withBuf (len - 8) (name.take (len - 9)) fun c => genericChecks e c (.genericPoly1305 c)

/-- `method_create_by_name` (src/methods/generic_umac/generic_umac.c:42-70) -/
def createGenericUmac (e : Env) (name : Name) : CRes :=
  let len := name.length
  if !e.uhash then .reject
  else if endsWith name sPlusUmac then
    withBuf (len + 1) (name.take (len - 5)) fun c => genericChecks e c (.genericUmac c)
  else .reject

/-- `method_create_by_name` of a provider; for `null` and `null@l2tp` see src/methods/null/null.c:25-27
and src/methods/null-l2tp/null-l2tp.c:35-37. -/
def Provider.create (e : Env) (name : Name) : Provider → CRes
  | .cipherTest => createCipherTest e name
  | .composedGmac => createComposedGmac e name
  | .composedUmac => createComposedUmac e name
  | .genericGmac => createGenericGmac e name
  | .genericPoly1305 => createGenericPoly1305 e name
  | .genericUmac => createGenericUmac e name
  | .null => if name = sNull then .accept .null else .reject
  | .nullL2tp => if name = sNullL2tp then .accept .nullL2tp else .reject

/-- The declaration `char cipher_name[len]` that comes before the checks of the name (src/methods/composed_gmac/composed_gmac.c:63,
src/methods/composed_umac/composed_umac.c:61), reached if there is the MAC; the size of a variable length array must be greater than 0. -/
def Provider.emptyArray (e : Env) (name : Name) : Provider → Bool
  | .composedGmac => e.ghash && name.isEmpty
  | .composedUmac => e.uhash && name.isEmpty
  | _ => false

/-- `fastd_method_create_by_name` (src/methods/methods.c.in:25-35) for a list of providers. -/
def createByName (e : Env) : List Provider → Name → CRes
  | [], _ => .reject
  | p :: ps, name =>
    if p.emptyArray e name then .undef
    else
      match p.create e name with
      | .accept m => .accept m
      | .reject => createByName e ps name
      | .overflow => .overflow
      | .undef => .undef

/-- The providers in the order of src/methods/meson.build:3-10 (each may be disabled at compile time). -/
def allProviders : List Provider :=
  [.cipherTest, .composedGmac, .composedUmac, .genericGmac, .genericPoly1305, .genericUmac, .null, .nullL2tp]

/-- The ciphers of src/crypto/cipher/meson.build:3-6 with the `iv_length` of
src/crypto/cipher/{aes128_ctr/aes128_ctr,null/null,salsa20/salsa20,salsa2012/salsa2012}.c:20. -/
def allCiphers : List Cipher :=
  [⟨[97, 101, 115, 49, 50, 56, 45, 99, 116, 114], 16, true⟩,  -- "aes128-ctr"
   ⟨[110, 117, 108, 108], 0, true⟩,                            -- "null"
   ⟨[115, 97, 108, 115, 97, 50, 48], 8, true⟩,                 -- "salsa20"
   ⟨[115, 97, 108, 115, 97, 50, 48, 49, 50], 8, true⟩]         -- "salsa2012"

end Fastd.Config.MethodNames
