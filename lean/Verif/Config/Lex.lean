import Verif.Config.Keywords

/-!
# The configuration scanner (src/lex.c)

Model only. The scanner is written in terms of the operations on the input that its helper functions provide (`Ops`); `buffered` is the
implementation of these operations in the code, with the input buffer of 1024 bytes that is refilled from the file. The proofs use a second
implementation on the whole contents of the file.

The file is the list of the pieces in which `fread` returns it. Read errors (`ferror`) are not modelled. Bytes are unsigned; the comparisons of
characters in the code have the same results for bytes from 128 on, which are negative there.
-/

namespace Fastd.Config.Lex

open Fastd.Config (Bytes findKeyword)

inductive Err
  /-- read of a byte of the buffer that has not been read from the file -/
  | beyond
  /-- access outside of an array -/
  | memory
  /-- not reached: the iterations of a loop are limited by the size of the file -/
  | fuel
deriving DecidableEq

/-- `FASTD_CONFIG_LTYPE`, as generated by bison -/
structure Loc where
  firstLine : Nat
  firstColumn : Nat
  lastLine : Nat
  lastColumn : Nat
deriving DecidableEq

/-- The return value of `fastd_lex` with the value belonging to it -/
inductive Tok
  | eof
  | error (msg : String)
  | char (c : UInt8)
  | string (s : Bytes)
  | addr4 (a : Bytes)
  | addr6 (a : Bytes)
  | addr6Scoped (a ifname : Bytes)
  | uint (n : UInt64)
  | keyword (name : String)
deriving DecidableEq

/-- The functions of the C library used by the scanner: `inet_pton` for both address families and `strtoull(token, &endptr, 0)`, where `none` means
that `*endptr` is not NUL -/
structure Libc where
  pton4 : Bytes → Option Bytes
  pton6 : Bytes → Option Bytes
  strtoull : Bytes → Option UInt64

/-- The operations on the input -/
structure Ops (σ : Type) where
  /-- `lex->end > lex->start` -/
  more : σ → Bool
  /-- `current` -/
  current : σ → Except Err UInt8
  /-- `next`, also updating the location -/
  next : Bool → σ → Except Err (Bool × σ)
  /-- `consume` -/
  consume : Bool → σ → σ
  /-- `lex->needspace` -/
  needspace : σ → Bool
  /-- the string made by `get_token` -/
  token : σ → Bytes
  /-- `lex->buffer[lex->start + lex->tok_len] = 0`, and the string at `lex->buffer + lex->start + 1` afterwards -/
  cut : σ → Except Err (Bytes × σ)
  /-- `yylloc->first_line = yylloc->last_line; yylloc->first_column = yylloc->last_column + 1` -/
  mark : σ → σ
  /-- `*yylloc` -/
  loc : σ → Loc

/-! ## The buffer -/

/-- `struct fastd_lex` (src/lex.c:20-31) and the location. `file`: the pieces not read yet -/
structure Buffered where
  file : List Bytes
  needspace : Bool
  start : Nat
  «end» : Nat
  tokLen : Nat
  buffer : Bytes
  loc : Loc

/-- `sizeof(lex->buffer)` -/
def bufSize : Nat := 1024

/-- `fread(_, 1, n, file)`: the data and the rest of the file. At most one piece is returned. -/
def fread (n : Nat) : List Bytes → Bytes × List Bytes
  | [] => ([], [])
  | p :: ps => if p.length ≤ n then (p, ps) else (p.take n, p.drop n :: ps)

/-- `memmove(lex->buffer, lex->buffer + lex->start, lex->end - lex->start)` and the lines around it (src/lex.c:129-133) -/
def compact (s : Buffered) : Except Err Buffered :=
  if s.start > 0 then
    if s.start ≤ s.end ∧ s.end ≤ s.buffer.length then
      .ok { s with
        buffer := (s.buffer.take s.end).drop s.start ++ s.buffer.drop (s.end - s.start)
        «end» := s.end - s.start
        start := 0 }
    else .error .memory
  else .ok s

/-- `advance` (src/lex.c:128-142) -/
def advance (s : Buffered) : Except Err (Bool × Buffered) := do
  let s ← compact s
  if s.end = bufSize then
    return (false, s)
  let (data, file) := fread (bufSize - s.end) s.file
  if s.end + data.length ≤ s.buffer.length then
    return (data.length ≠ 0, { s with
      buffer := s.buffer.take s.end ++ data ++ s.buffer.drop (s.end + data.length)
      file
      «end» := s.end + data.length })
  else throw .memory

/-- `current` (src/lex.c:145-147) -/
def current (s : Buffered) : Except Err UInt8 :=
  if s.start + s.tokLen < s.end then
    match s.buffer[s.start + s.tokLen]? with
    | some c => .ok c
    | none => .error .memory
  else .error .beyond

/-- The change of the location by `next` (src/lex.c:159-164) -/
def Loc.step (l : Loc) (c : UInt8) : Loc :=
  if c = 10 then { l with lastColumn := 0, lastLine := l.lastLine + 1 } else { l with lastColumn := l.lastColumn + 1 }

/-- `next` (src/lex.c:155-176) -/
def next (move : Bool) (s : Buffered) : Except Err (Bool × Buffered) := do
  if s.start + s.tokLen ≥ s.end then
    return (false, s)
  let c ← current s
  let s := { s with loc := s.loc.step c }
  let s := if move then { s with start := s.start + 1 } else { s with tokLen := s.tokLen + 1 }
  if s.start + s.tokLen ≥ s.end then
    advance s
  else
    return (true, s)

/-- A NUL terminated string, up to the end of its memory -/
def cString (b : Bytes) : Bytes := b.takeWhile (· ≠ 0)

/-- The operations of the code: `consume` (src/lex.c:179-184), `get_token` (lines 150-152), the access to the buffer in `parse_ipv6_address`
(lines 305-307), the condition of the loop in `fastd_lex` and the assignments to the location (lines 454-456) -/
def buffered : Ops Buffered where
  more s := s.end > s.start
  current := current
  next := next
  consume needspace s := { s with start := s.start + s.tokLen, tokLen := 0, needspace }
  needspace s := s.needspace
  token s := cString ((s.buffer.drop s.start).take s.tokLen)
  cut s :=
    if s.start + s.tokLen < s.buffer.length then
      let b := s.buffer.set (s.start + s.tokLen) 0
      .ok (cString (b.drop (s.start + 1)), { s with buffer := b })
    else .error .memory
  mark s := { s with loc := { s.loc with firstLine := s.loc.lastLine, firstColumn := s.loc.lastColumn + 1 } }
  loc s := s.loc

/-- `fastd_lex_init` (src/lex.c:436-443), with the location from `fastd_config_read` (src/config.c:343) -/
def init (file : List Bytes) : Except Err Buffered := do
  let (_, s) ← advance {
    file, needspace := false, start := 0, «end» := 0, tokLen := 0, buffer := List.replicate bufSize 0, loc := ⟨1, 0, 1, 0⟩ }
  return s

/-! ## The scanner -/

section
variable {σ : Type} (o : Ops σ) (lc : Libc)

/-- The scanner changes its state and may fail. -/
abbrev M (σ : Type) := StateT σ (Except Err)

def mCurrent : M σ UInt8 := fun s => do return (← o.current s, s)
def mNext (move : Bool) : M σ Bool := fun s => o.next move s
def mConsume (needspace : Bool) : M σ Unit := fun s => .ok ((), o.consume needspace s)
def mNeedspace : M σ Bool := fun s => .ok (o.needspace s, s)
def mToken : M σ Bytes := fun s => .ok (o.token s, s)
def mCut : M σ Bytes := fun s => o.cut s
def mMark : M σ Unit := fun s => .ok ((), o.mark s)
def mMore : M σ Bool := fun s => .ok (o.more s, s)
def mLoc : M σ Loc := fun s => .ok (o.loc s, s)
def fail {α : Type} (e : Err) : M σ α := fun _ => .error e

/-- `syntax_error` (src/lex.c:193-199) -/
def syntaxError : Tok := .error "syntax error"

def isDigit (c : UInt8) : Bool := 48 ≤ c && c ≤ 57
def isLower (c : UInt8) : Bool := 97 ≤ c && c ≤ 122
def isUpper (c : UInt8) : Bool := 65 ≤ c && c ≤ 90

/-- The loop of `consume_comment` (src/lex.c:205-213): whether the end of the comment was found -/
def commentLoop : Nat → UInt8 → M σ Bool
  | 0, _ => fail .fuel
  | n + 1, prev => do
    if ← mNext o true then
      let c ← mCurrent o
      if prev = 42 ∧ c = 47 then
        let _ ← mNext o true
        mConsume o false
        return true
      else
        commentLoop n (← mCurrent o)
    else
      return false

/-- `consume_comment` (src/lex.c:202-220); `none` for 0 -/
def consumeComment (fuel : Nat) : M σ (Option Tok) := do
  if ← commentLoop o fuel 0 then return none else return some (.error "unterminated block comment")

/-- Writing a byte to the buffer of `parse_string` of size `len` at the index `buf.length` (lines 264-269): the new size and contents -/
def push (len : Nat) (buf : Bytes) (c : UInt8) : Except Err (Nat × Bytes) :=
  let len := if buf.length ≥ len then len * 2 else len
  if buf.length < len then .ok (len, buf ++ [c]) else .error .memory

/-- The loop of `parse_string` (src/lex.c:242-270): the contents of `buf` up to `pos` -/
def stringLoop : Nat → Nat → Bytes → M σ (Option Bytes)
  | 0, _, _ => fail .fuel
  | n + 1, len, buf => do
    if ← mNext o true then
      let cur ← mCurrent o
      if cur = 34 then
        return some buf
      else if cur = 92 then
        if ← mNext o true then
          let cur ← mCurrent o
          if cur = 10 then
            stringLoop n len buf
          else
            match push len buf cur with
            | .ok (len, buf) => stringLoop n len buf
            | .error e => fail e
        else
          return none
      else
        match push len buf cur with
        | .ok (len, buf) => stringLoop n len buf
        | .error e => fail e
    else
      return none

/-- `parse_string` (src/lex.c:232-279) -/
def parseString (fuel : Nat) : M σ Tok := do
  if ← mNeedspace o then
    return syntaxError
  match ← stringLoop o fuel 1024 [] with
  | none => return .error "unterminated string"
  | some buf =>
    let _ ← mNext o true
    mConsume o true
    return .string (cString buf)

/-- The characters of an IPv6 address (src/lex.c:293-294) -/
def isAddr6 (c : UInt8) : Bool := isDigit c || (97 ≤ c && c ≤ 102) || (65 ≤ c && c ≤ 70) || c = 58

/-- The first loop of `parse_ipv6_address` (src/lex.c:287-296): whether a different character has been found -/
def addr6Loop : Nat → M σ Bool
  | 0 => fail .fuel
  | n + 1 => do
    if ← mNext o false then
      if isAddr6 (← mCurrent o) then addr6Loop n else return true
    else
      return false

/-- `sizeof(yylval->addr6_scoped.ifname)`, `IFNAMSIZ` -/
def ifnameSize : Nat := 16

/-- The second loop of `parse_ipv6_address` (src/lex.c:317-337); `none`: syntax error -/
def ifnameLoop : Nat → Bytes → M σ (Option Bytes)
  | 0, _ => fail .fuel
  | n + 1, name => do
    if ← mNext o true then
      let cur ← mCurrent o
      if cur = 93 then
        return some name
      else if cur = 92 then
        if ← mNext o true then
          let cur ← mCurrent o
          if name.length = ifnameSize - 1 then return none
          else if name.length < ifnameSize then ifnameLoop n (name ++ [cur]) else fail .memory
        else
          return none
      else
        if name.length = ifnameSize - 1 then return none
        else if name.length < ifnameSize then ifnameLoop n (name ++ [cur]) else fail .memory
    else
      return none

/-- `parse_ipv6_address` (src/lex.c:283-347); the terminating NUL is written at an index below `ifnameSize` (line 339) -/
def parseAddr6 (fuel : Nat) : M σ Tok := do
  if ← mNeedspace o then
    return syntaxError
  if ← addr6Loop o fuel then
    let cur ← mCurrent o
    if cur = 37 ∨ cur = 93 then
      match lc.pton6 (← mCut o) with
      | none => return syntaxError
      | some a =>
        if cur = 37 then
          mConsume o false
          match ← ifnameLoop o fuel [] with
          | none => return syntaxError
          | some name =>
            if name.length < ifnameSize then
              let _ ← mNext o true
              mConsume o true
              return .addr6Scoped a (cString name)
            else fail .memory
        else
          let _ ← mNext o true
          mConsume o true
          return .addr6 a
    else
      return syntaxError
  else
    return syntaxError

/-- The loop of `parse_ipv4_address` (src/lex.c:354-359) -/
def addr4Loop : Nat → M σ Unit
  | 0 => fail .fuel
  | n + 1 => do
    if ← mNext o false then
      let cur ← mCurrent o
      if isDigit cur || cur = 46 then addr4Loop n else return ()
    else
      return ()

/-- `parse_ipv4_address` (src/lex.c:350-373) -/
def parseAddr4 (fuel : Nat) : M σ Tok := do
  if ← mNeedspace o then
    return syntaxError
  addr4Loop o fuel
  match lc.pton4 (← mToken o) with
  | none => return syntaxError
  | some a =>
    mConsume o true
    return .addr4 a

/-- The loop of `parse_number` (src/lex.c:381-393): whether an IPv4 address is to be parsed -/
def numberLoop : Nat → Bool → M σ Bool
  | 0, _ => fail .fuel
  | n + 1, digitonly => do
    if ← mNext o false then
      let cur ← mCurrent o
      if cur = 46 ∧ digitonly then
        return true
      else if !isDigit cur then
        if isLower cur || isUpper cur then numberLoop n false else return false
      else
        numberLoop n digitonly
    else
      return false

/-- `parse_number` (src/lex.c:375-407) -/
def parseNumber (fuel : Nat) : M σ Tok := do
  if ← mNeedspace o then
    return syntaxError
  if ← numberLoop o fuel true then
    parseAddr4 o lc fuel
  else
    match lc.strtoull (← mToken o) with
    | none => return syntaxError
    | some n =>
      mConsume o true
      return .uint n

/-- The loop of `parse_keyword` (src/lex.c:414-419) -/
def keywordLoop : Nat → M σ Unit
  | 0 => fail .fuel
  | n + 1 => do
    if ← mNext o false then
      let cur ← mCurrent o
      if isLower cur || isDigit cur || cur = 45 then keywordLoop n else return ()
    else
      return ()

/-- `parse_keyword` (src/lex.c:410-432) -/
def parseKeyword (fuel : Nat) : M σ Tok := do
  if ← mNeedspace o then
    return syntaxError
  keywordLoop o fuel
  match findKeyword (← mToken o) with
  | none => return syntaxError
  | some name =>
    mConsume o true
    return .keyword name

/-- The loop skipping a line (src/lex.c:494-497) -/
def lineLoop : Nat → M σ Unit
  | 0 => fail .fuel
  | n + 1 => do
    if ← mNext o true then
      if (← mCurrent o) = 10 then return () else lineLoop n
    else
      return ()

/-- A comment up to the end of the line (src/lex.c:493-501) -/
def skipLine (fuel : Nat) : M σ Unit := do
  lineLoop o fuel
  let _ ← mNext o true
  mConsume o false

/-- `fastd_lex` (src/lex.c:451-523); the first argument limits the iterations. -/
def lex (fuel : Nat) : Nat → M σ Tok
  | 0 => fail .fuel
  | n + 1 => do
    if ← mMore o then
      mMark o
      let c ← mCurrent o
      if c = 32 ∨ c = 10 ∨ c = 9 ∨ c = 13 then
        let _ ← mNext o true
        mConsume o false
        lex fuel n
      else if c = 59 ∨ c = 58 ∨ c = 123 ∨ c = 125 then
        let _ ← mNext o true
        mConsume o false
        return .char c
      else if c = 47 then
        if ← mNext o true then
          let c ← mCurrent o
          if c = 42 then
            match ← consumeComment o fuel with
            | some t => return t
            | none => lex fuel n
          else if c ≠ 47 then
            return syntaxError
          else
            skipLine o fuel
            lex fuel n
        else
          return syntaxError
      else if c = 35 then
        skipLine o fuel
        lex fuel n
      else if c = 34 then
        parseString o fuel
      else if c = 91 then
        parseAddr6 o lc fuel
      else if isDigit c then
        parseNumber o lc fuel
      else if isLower c then
        parseKeyword o fuel
      else
        return syntaxError
    else
      return .eof

/-- The tokens with their locations as long as the parser wants more (src/config.c:360-377), up to the first error or the end of the file -/
def tokens (fuel : Nat) : Nat → M σ (List (Tok × Loc))
  | 0 => fail .fuel
  | n + 1 => do
    let t ← lex o lc fuel fuel
    let l ← mLoc o
    match t with
    | .eof => return [(t, l)]
    | .error _ => return [(t, l)]
    | _ => return (t, l) :: (← tokens fuel n)

end

/-- All tokens of a file -/
def scan (lc : Libc) (file : List Bytes) : Except Err (List (Tok × Loc)) := do
  let fuel := file.flatten.length + 2
  let s ← init file
  let (ts, _) ← tokens buffered lc fuel fuel s
  return ts

end Fastd.Config.Lex
