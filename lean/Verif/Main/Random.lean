/-!
# Random data (src/random.c)

Model only. The system answers calls of `open` and `read` in any way that depends on everything that has happened before. `fread` of the C library keeps
bytes it has read ahead in the buffer of the `FILE`; a new `FILE` is opened for each use of /dev/random. A result of `read` is cut off at the number of
bytes that were asked for. Interrupted calls are errors. Processes forked by fastd (`daemonize`, src/fastd.c:318-361, and commands, src/shell.c) share the
contents of the buffer, but only one process goes on to use it: the others wait, exit or execute commands (C80, C90).
-/

namespace Fastd.Random

abbrev Bytes := List UInt8

/-- The two devices -/
inductive Dev
  | random
  | urandom
deriving DecidableEq, Repr

/-- System calls and their results -/
inductive Ev
  | opened (d : Dev)
  | notOpened (d : Dev)
  /-- `read` of up to `n` bytes -/
  | read (d : Dev) (n : Nat) (data : Bytes)
  | readError (d : Dev) (n : Nat)
  | closed (d : Dev)
deriving DecidableEq, Repr

/-- What the system does, after the given calls -/
structure Sys where
  canOpen : List Ev → Dev → Bool
  /-- `none`: an error; an empty list: end of file -/
  read : List Ev → Dev → Nat → Option Bytes

/-- The size of the buffer of a `FILE` (`BUFSIZ`, `st_blksize`) -/
def blk : Nat := 4096

/-- How much `fread` asks the system for if `n` bytes are missing: a whole buffer, or as many blocks as fit if they can be read directly to where they are wanted -/
def request (n : Nat) : Nat := if n < blk then blk else n / blk * blk

/-- The loop of `fread`, with a limit for the number of times it is run -/
def freadLoop (sys : Sys) (d : Dev) : Nat → Nat → Bytes → List Ev → Option Bytes × Bytes × List Ev
  | 0, _, buf, t => (none, buf, t)
  | fuel + 1, n, buf, t =>
    if n ≤ buf.length then (some (buf.take n), buf.drop n, t)
    else
      match (sys.read t d (request (n - buf.length))).map (·.take (request (n - buf.length))) with
      | none => (none, [], t ++ [.readError d (request (n - buf.length))])
      | some [] => (none, [], t ++ [.read d (request (n - buf.length)) []])
      | some (x :: l) =>
        match freadLoop sys d fuel (n - buf.length) (x :: l) (t ++ [.read d (request (n - buf.length)) (x :: l)]) with
        | (some r, b, t) => (some (buf ++ r), b, t)
        | (none, b, t) => (none, b, t)

/-- `fread` of `n` bytes from a `FILE` whose buffer contains `buf`: the bytes, or `none` if there are less, what the buffer contains then, and the system
calls. The limit is never reached, as every `read` that is successful returns something (`fread_spec`: it returns `none` only after a failure). -/
def fread (sys : Sys) (d : Dev) (n : Nat) (buf : Bytes) (t : List Ev) : Option Bytes × Bytes × List Ev := freadLoop sys d (n + 2) n buf t

/-- The state of the process: the contents of the buffer of `ctx.urandom`, and the system calls made so far -/
structure St where
  buf : Bytes
  trace : List Ev
deriving DecidableEq, Repr

/-- The calls of `fastd_random_bytes` -/
inductive Use
  /-- src/fastd.c:406-408 -/
  | seed
  /-- src/receive.c:82 -/
  | unknownSeed
  /-- src/peer_hashtable.c:19 -/
  | tableSeed
  /-- `new_handshake_key` (src/protocols/ec25519_fhmqvc/state.c:30) -/
  | handshakeKey
  /-- `fastd_protocol_ec25519_fhmqvc_generate_key` (src/protocols/ec25519_fhmqvc/util.c:33) -/
  | generatedKey
deriving DecidableEq, Repr

/-- The argument `len` -/
def Use.size : Use → Nat
  | .seed | .unknownSeed | .tableSeed => 4
  | .handshakeKey | .generatedKey => 32

/-- The argument `secure` -/
def Use.secure : Use → Bool
  | .generatedKey => true
  | _ => false

/-- `fastd_random_init` (src/random.c:21-25); `none`: exit. `exit_errno` ends the process, so that the state is of interest for its calls only. -/
def init (sys : Sys) : Option Unit × St :=
  if sys.canOpen [] .urandom then (some (), ⟨[], [.opened .urandom]⟩) else (none, ⟨[], [.notOpened .urandom]⟩)

/-- `fastd_random_bytes` (src/random.c:38-56); `none`: exit. `fread` of one item without bytes is not successful. -/
def randomBytes (sys : Sys) (len : Nat) (secure : Bool) (s : St) : Option Bytes × St :=
  if secure then
    if sys.canOpen s.trace .random then
      match fread sys .random len [] (s.trace ++ [.opened .random]) with
      | (none, _, t) => (none, { s with trace := t })
      | (some r, _, t) => if len = 0 then (none, { s with trace := t }) else (some r, { s with trace := t ++ [.closed .random] })
    else (none, { s with trace := s.trace ++ [.notOpened .random] })
  else
    match fread sys .urandom len s.buf s.trace with
    | (none, b, t) => (none, ⟨b, t⟩)
    | (some r, b, t) => if len = 0 then (none, ⟨b, t⟩) else (some r, ⟨b, t⟩)

/-- Uses one after the other, as long as the process does not exit: what they get -/
def uses (sys : Sys) : List Use → St → Option (List Bytes) × St
  | [], s => (some [], s)
  | u :: us, s =>
    match randomBytes sys u.size u.secure s with
    | (none, s) => (none, s)
    | (some r, s) =>
      match uses sys us s with
      | (none, s) => (none, s)
      | (some rs, s) => (some (r :: rs), s)

/-- `fastd_random_init`, the given uses and, if the process has not exited, `fastd_random_cleanup` (src/random.c:28-30) -/
def run (sys : Sys) (us : List Use) : Option (List Bytes) × St :=
  match init sys with
  | (none, s) => (none, s)
  | (some _, s) =>
    match uses sys us s with
    | (none, s) => (none, s)
    | (some rs, s) => (some rs, { s with trace := s.trace ++ [.closed .urandom] })

end Fastd.Random
