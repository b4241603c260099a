/-!
# Waiting for events (src/polling.c)

Model only. Objects of type `fastd_poll_fd_t` (they are part of sockets, interfaces, …) have numbers which are never used again; a number that
is not in `live` is one that has been freed. File descriptors are numbers which the system uses again after closing.

What the handlers of events (`fastd_receive`, `fastd_iface_handle`, …) do is a parameter `react`; here only the registering and closing of
descriptors matters. Not modelled: aborts by failing system calls, signals, `select` (which does the same as `poll`), the abort when an error
is reported for something that is not a socket.
-/

namespace Fastd.Poll

/-! ### The time to wait (src/polling.c:35-46) -/

/-- Conversion of a 64 bit number to `int` as compilers do it: the low 32 bits, as a signed number. -/
def toInt32 (x : Int) : Int := (x + 2 ^ 31) % 2 ^ 32 - 2 ^ 31

/-- `FASTD_TIMEOUT_INV` (src/types.h:103): INT64_MAX -/
def timeoutInv : Int := 2 ^ 63 - 1

/-- `task_timeout` (src/polling.c:35-46) -/
def taskTimeout (timeout now : Int) : Int :=
  if timeout = timeoutInv then -1
  else
    let diff := toInt32 (timeout - now)
    if diff < 0 then 0 else diff

/-! ### Descriptors -/

/-- Errors: use of a freed or missing object, `exit_bug`, and reactions which are no legitimate ones -/
inductive Err
  | mem | bug | invalid
deriving DecidableEq, Repr

/-- What a handler does to the set of descriptors: it creates and registers an object, or closes and frees one. -/
inductive Op
  | open (obj fd : Nat)
  | close (obj : Nat)
deriving DecidableEq, Repr

/-- The state -/
structure State where
  /-- the objects that exist, with their descriptors -/
  live : List (Nat × Nat)
  /-- `ctx.fds`: the object for each descriptor (`poll` variant) -/
  fds : List (Option Nat)
  /-- `ctx.pollfds` (`poll` variant) -/
  pollfds : List Nat
  /-- the number of objects ever created -/
  next : Nat
  /-- the events handled so far: object, input, error -/
  log : List (Nat × Bool × Bool)
deriving DecidableEq, Repr

/-- The reactions of the handlers: the number of the event (which stands for the state of the rest of the program), the object, input, error -/
abbrev React := Nat → Nat → Bool → Bool → List Op

/-- A `poll` system with nothing registered -/
def State.init : State := ⟨[], [], [], 0, []⟩

/-- The descriptor of an object: an access to it -/
def fdOf (s : State) (o : Nat) : Except Err Nat :=
  match s.live.find? (·.1 = o) with
  | some p => .ok p.2
  | none => .error .mem

/-- New objects have new numbers, new descriptors are not in use; only existing objects are closed. -/
def legit (s : State) : Op → Bool
  | .open o fd => o = s.next && !(s.live.any (·.2 = fd))
  | .close o => s.live.any (·.1 = o)

/-! ### The variant with poll (src/polling.c:159-291) -/

/-- `fastd_poll_fd_register` (src/polling.c:169-179): the vector is extended with NULL. -/
def register (s : State) (o fd : Nat) : State :=
  let fds := s.fds ++ List.replicate (fd + 1 - s.fds.length) none
  { s with fds := fds.set fd (some o), pollfds := [], live := s.live ++ [(o, fd)], next := o + 1 }

/-- `fastd_poll_fd_close` (src/polling.c:181-190), after which the object is freed (src/peer.c:178-179, src/iface.c:577-585) -/
def close (s : State) (o : Nat) : Except Err State := do
  let fd ← fdOf s o
  if fd < s.fds.length then
    .ok { s with fds := s.fds.set fd none, pollfds := [], live := s.live.filter (·.1 ≠ o) }
  else .error .bug

/-- One operation of a handler -/
def op (s : State) (x : Op) : Except Err State :=
  if legit s x then
    match x with
    | .open o fd => .ok (register s o fd)
    | .close o => close s o
  else .error .invalid

/-- The operations of a handler -/
def ops (s : State) : List Op → Except Err State
  | [] => .ok s
  | x :: xs => do ops (← op s x) xs

/-- `handle_fd` (src/polling.c:49-91): the object is read; without input and error nothing is done. -/
def handleFd (react : React) (s : State) (o : Nat) (input error : Bool) : Except Err State := do
  let _ ← fdOf s o
  if input || error then ops { s with log := s.log ++ [(o, input, error)] } (react s.log.length o input error)
  else .ok s

/-- The loop which fills `ctx.pollfds` (src/polling.c:198-211); the descriptor is read from the object. -/
def fill (s : State) : List (Option Nat) → Except Err (List Nat)
  | [] => .ok []
  | none :: r => fill s r
  | some o :: r => do
    let fd ← fdOf s o
    let l ← fill s r
    .ok (fd :: l)

/-- The last loop of `fastd_poll_handle` (src/polling.c:281-290): `revs` is what `poll` returned for the descriptors from the `i`-th on; `left`
is the variable `ret`. -/
def loop (react : React) (s : State) (i left : Nat) : List (Bool × Bool) → Except Err State
  | [] => .ok s
  | (input, error) :: r =>
    if i < s.pollfds.length ∧ 0 < left then
      match s.pollfds[i]? with
      | none => .error .mem
      | some fd =>
        match s.fds[fd]? with
        | some (some o) => do
          let s ← handleFd react s o input error
          loop react s (i + 1) (if input || error then left - 1 else left) r
        | _ => .error .mem
    else .ok s

/-- `fastd_poll_handle` (src/polling.c:193-291) -/
def pollHandle (react : React) (s : State) (poll : List Nat → List (Bool × Bool)) : Except Err State := do
  let l ← if s.pollfds = [] then fill s s.fds else .ok s.pollfds
  let revs := poll l
  loop react { s with pollfds := l } 0 (revs.countP fun x => x.1 || x.2) revs

/-! ### The variant with epoll (src/polling.c:94-157)

The pointers to the objects are stored by the system and returned with the events. -/

/-- `fastd_poll_fd_register` (src/polling.c:120-131), `fastd_poll_fd_close` (src/polling.c:133-138) -/
def epollOp (s : State) (x : Op) : Except Err State :=
  if legit s x then
    match x with
    | .open o fd => .ok { s with live := s.live ++ [(o, fd)], next := o + 1 }
    | .close o => do
      let _ ← fdOf s o
      .ok { s with live := s.live.filter (·.1 ≠ o) }
  else .error .invalid

/-- The operations of a handler -/
def epollOps (s : State) : List Op → Except Err State
  | [] => .ok s
  | x :: xs => do epollOps (← epollOp s x) xs

/-- `handle_fd` -/
def epollHandleFd (react : React) (s : State) (o : Nat) (input error : Bool) : Except Err State := do
  let _ ← fdOf s o
  if input || error then epollOps { s with log := s.log ++ [(o, input, error)] } (react s.log.length o input error)
  else .ok s

/-- The loop of `fastd_poll_handle` (src/polling.c:141-157) over the events returned by the system -/
def epollLoop (react : React) (s : State) : List (Nat × Bool × Bool) → Except Err State
  | [] => .ok s
  | (o, input, error) :: r => do
    let s ← epollHandleFd react s o input error
    epollLoop react s r

end Fastd.Poll
