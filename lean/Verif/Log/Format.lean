/-!
# Log message formatting (src/log.c)

Model only. Memory is a list of bytes; writing outside of it is a distinct outcome.
-/

namespace Fastd.Log

abbrev Bytes := List UInt8

/-- Outcome of a C function on memory. -/
inductive Res (α : Type)
  | ok (a : α)
  /-- a write outside of the given buffer -/
  | overrun
  /-- `va_arg` without a matching argument (undefined behaviour in C) -/
  | badArg
deriving DecidableEq, Repr

def Res.bind {α β : Type} (x : Res α) (f : α → Res β) : Res β :=
  match x with
  | .ok a => f a
  | .overrun => .overrun
  | .badArg => .badArg

instance : Monad Res where
  pure := .ok
  bind := Res.bind

/-- Writes `data` at offset `off`. -/
def writeAt (mem : Bytes) (off : Nat) (data : Bytes) : Res Bytes :=
  if off + data.length ≤ mem.length then
    .ok (mem.take off ++ data ++ mem.drop (off + data.length))
  else .overrun

/-- `vsnprintf(mem + off, size, ...)` of the C library where `text` is the text to be printed: writes
at most `size` bytes including the terminating NUL and returns the length of the text. -/
def snprintf (mem : Bytes) (off size : Nat) (text : Bytes) : Res (Bytes × Nat) := do
  if size = 0 then return (mem, text.length)
  let mem ← writeAt mem off (text.take (size - 1) ++ [0])
  return (mem, text.length)

/-- `snprintf_safe` (src/log.c:22-32). `text = none` is an error return of `vsnprintf`; it is assumed
to leave the buffer unchanged. -/
def snprintfSafe (mem : Bytes) (off size : Nat) (text : Option Bytes) : Res (Bytes × Nat) :=
  match text with
  | none => .ok (mem, 0)
  | some t => do
    let (mem, ret) ← snprintf mem off size t
    return (mem, min ret size)

/-- A literal. -/
def str (s : String) : Bytes := s.toList.map fun c => UInt8.ofNat c.toNat

/-- How `fastd_snprint_peer_address` (src/log.c:35-74) prints an address. -/
inductive AddrText
  /-- the `AF_UNSPEC` case without `bind_address` (line 45) uses plain `snprintf` -/
  | any
  /-- all other cases: the text for `snprintf_safe`, or nothing if `inet_ntop` fails -/
  | text (t : Option Bytes)
deriving DecidableEq, Repr

/-- `fastd_snprint_peer_address` (src/log.c:35-74): the number of bytes the caller advances by. -/
def snprintAddr (mem : Bytes) (off size : Nat) (a : AddrText) : Res (Bytes × Nat) :=
  match a with
  | .any => snprintf mem off size (str "any")
  | .text none => .ok (mem, 0)
  | .text (some t) => snprintfSafe mem off size (some t)

def hexDigit (n : Nat) : UInt8 :=
  (str "0123456789abcdef").getD n 0

/-- `"%02x"` -/
def fmt02x (b : UInt8) : Bytes := [hexDigit (b.toNat / 16), hexDigit (b.toNat % 16)]

/-- `snprint_hexdump` (src/log.c:92-98), the loop for the remaining bytes `d`; `n` is the current
value of `n`. -/
def hexdumpLoop (mem : Bytes) (off size : Nat) : Bytes → Nat → Res (Bytes × Nat)
  | [], n => .ok (mem, n)
  | b :: d, n =>
    if n < size then do
      let (mem, k) ← snprintfSafe mem (off + n) (size - n) (some (fmt02x b))
      hexdumpLoop mem off size d (n + k)
    else .ok (mem, n)

/-- Arguments, after conversion to text by the C library or `inet_ntop`. -/
inductive Arg
  /-- for `%i %u %U %Z %s %p %P` -/
  | text (t : Option Bytes)
  /-- `%E`: `none` is a null pointer, otherwise the text (address or `[hidden]`) -/
  | eth (t : Option Bytes)
  /-- `%H`: pointer and length -/
  | hex (d : Bytes)
  /-- `%I`, `%B`, `%L`: `none` is a null pointer -/
  | addr (a : Option AddrText)
deriving DecidableEq, Repr

/-- The conversion characters taking an `Arg.text`. -/
def textConv : Bytes := str "iuUZspP"
/-- The conversion characters taking an `Arg.addr`. (The interface name taken by `%L` is part of the
address text.) -/
def addrConv : Bytes := str "IBL"

/-- One conversion, from the `switch` (src/log.c:123-198): the new memory, the number of bytes to
advance, the remaining arguments; `none` is the `default` case. -/
def conv (mem : Bytes) (off size : Nat) (c : UInt8) (args : List Arg) :
    Res (Option (Bytes × Nat × List Arg)) :=
  if c = 37 /- % -/ then do
    let (mem, n) ← snprintfSafe mem off size (some (str "%"))
    return some (mem, n, args)
  else if textConv.contains c then
    match args with
    | .text t :: args => do
      let (mem, n) ← snprintfSafe mem off size t
      return some (mem, n, args)
    | _ => .badArg
  else if c = 69 /- E -/ then
    match args with
    | .eth (some t) :: args => do
      let (mem, n) ← snprintfSafe mem off size (some t)
      return some (mem, n, args)
    | .eth none :: args => do
      let (mem, n) ← snprintfSafe mem off size (some (str "(null)"))
      return some (mem, n, args)
    | _ => .badArg
  else if c = 72 /- H -/ then
    match args with
    | .hex d :: args => do
      let (mem, n) ← hexdumpLoop mem off size d 0
      return some (mem, n, args)
    | _ => .badArg
  else if addrConv.contains c then
    match args with
    | .addr (some a) :: args => do
      let (mem, n) ← snprintAddr mem off size a
      return some (mem, n, args)
    | .addr none :: args => do
      let (mem, n) ← snprintfSafe mem off size (some (str "(null)"))
      return some (mem, n, args)
    | _ => .badArg
  else return none

/-- The final NUL of `fastd_vsnprintf` (src/log.c:201-202). -/
def finish (mem : Bytes) (size off : Nat) : Res Bytes :=
  if off < size then writeAt mem off [0] else .ok mem

/-- The loop of `fastd_vsnprintf` (src/log.c:107-199) and what follows it (lines 201-204). `off` is
`buffer - buffer_start`. The result is the return value, `none` for -1. A `%` at the end of the format
is followed by the terminating NUL, which is not a conversion character. -/
def vsnprintfLoop (mem : Bytes) (size : Nat) : Bytes → Nat → List Arg → Res (Bytes × Option Nat)
  | [], off, _ => do
    let mem ← finish mem size off
    return (mem, some off)
  | [c], off, _ =>
    if off ≥ size then return (mem, some off)
    else if c ≠ 37 then do
      let mem ← writeAt mem off [c]
      let mem ← finish mem size (off + 1)
      return (mem, some (off + 1))
    else do
      let mem ← writeAt mem 0 [0]
      return (mem, none)
  | c :: c' :: fmt, off, args =>
    if off ≥ size then return (mem, some off)
    else if c ≠ 37 then do
      let mem ← writeAt mem off [c]
      vsnprintfLoop mem size (c' :: fmt) (off + 1) args
    else do
      match ← conv mem off (size - off) c' args with
      | none => do
        let mem ← writeAt mem 0 [0]
        return (mem, none)
      | some (mem, n, args) => vsnprintfLoop mem size fmt (off + n) args

/-- `fastd_vsnprintf` (src/log.c:101-205). For an unknown conversion the function also logs a warning
before it returns; see `logf`. -/
def vsnprintf (mem : Bytes) (fmt : Bytes) (args : List Arg) : Res (Bytes × Option Nat) := do
  let mem ← writeAt mem 0 [0]
  vsnprintfLoop mem mem.length fmt 0 args

/-- The buffer of `fastd_logf` is 1024 bytes (src/log.c:252). -/
def logSize : Nat := 1024

/-- The text passed on by `fastd_logf` (src/log.c:257-261, 274, 278), read as a C string. `garbage` is
the initial content of the buffer. -/
def logText (garbage : Bytes) (fmt : Bytes) (args : List Arg) : Res Bytes := do
  let (mem, _) ← vsnprintf garbage fmt args
  let mem ← writeAt mem (logSize - 1) [0]
  return mem.takeWhile (· ≠ 0)

/-- The format of the warning for unknown conversions (src/log.c:195). -/
def warnFmt : Bytes := str "fastd_vsnprintf: unknown format conversion specifier '%c'"

/-- `fastd_logf` including the nested warning, when warnings are logged: the list of texts logged, in
order; the nesting depth is limited by `fuel`, `none` means that this was not enough. -/
def logf (garbage : Bytes) : Nat → Bytes → List Arg → Option (List (Res Bytes))
  | 0, _, _ => none
  | fuel + 1, fmt, args => do
    let nested ← match vsnprintf garbage fmt args with
      | .ok (_, none) => logf garbage fuel warnFmt [.text (some [])]
      | _ => some []
    return nested ++ [logText garbage fmt args]

end Fastd.Log
