/-!
# Results of other threads (src/async.c, src/resolve.c, src/verify.c)

Model only. Host names are resolved, and `on verify` commands are run, by threads of their own, which tell the main thread the
results by means of a pair of datagram sockets. Modelled are the contents of these datagrams byte for byte (for little-endian systems
with pointers of 64 bits), all accesses to the buffers involved, and the interleaving of the main thread, the signal handler and the
threads. `sendmsg` and `recvmsg` are atomic; a datagram is either appended to the queue or lost as a whole (`EAGAIN`, `ENOBUFS`,
`EMSGSIZE`). What the main thread does with a result is the subject of the model in `Daemon`. Not modelled: memory used up, the
size of the stacks of the threads.
-/

namespace Fastd.Async

abbrev Bytes := List UInt8

/-- `w` bytes of a number, as it is stored in memory. -/
def le : Nat → Nat → Bytes
  | 0, _ => []
  | w + 1, n => UInt8.ofNat n :: le w (n / 256)

/-- The number stored in some bytes of memory. -/
def unle : Bytes → Nat
  | [] => 0
  | b :: bs => b.toNat + 256 * unle bs

/-- An object in memory; `none` is a byte without value. -/
abbrev Mem := List (Option UInt8)

/-- Reads `w` bytes. There is no result if some of them do not exist or have no value. -/
def rd (m : Mem) (off w : Nat) : Option Bytes :=
  if off + w ≤ m.length then ((m.drop off).take w).mapM id else none

/-- Writes some bytes. There is no result if there is no room for them. -/
def wr (m : Mem) (off : Nat) (d : Bytes) : Option Mem :=
  if off + d.length ≤ m.length then some (m.take off ++ d.map some ++ m.drop (off + d.length)) else none

/-- A local variable. -/
def uninit (n : Nat) : Mem := List.replicate n none

/-- `fastd_alloc0` -/
def zeroed (n : Nat) : Mem := List.replicate n (some 0)

/-- `AF_INET` -/
def AF_INET : Nat := 2
/-- `AF_INET6` -/
def AF_INET6 : Nat := 10
/-- `sizeof(fastd_peer_address_t)`, which is that of `struct sockaddr_in6` (src/fastd.h:133-137) -/
def ADDR : Nat := 28
/-- `sizeof(fastd_async_resolve_return_t)` (src/async.h:29-35) -/
def RESOLVE_RETURN : Nat := 24
/-- `sizeof(fastd_async_verify_return_t)` (src/async.h:38-49) -/
def VERIFY_RETURN : Nat := 80
/-- `offsetof(verify_arg_t, ret)` (src/verify.c:51-55) -/
def ARG_RET : Nat := 16
/-- `sizeof(fastd_async_hdr_t)` (src/async.c:21-24) -/
def HDR : Nat := 16
/-- `ASYNC_TYPE_NOP`, `ASYNC_TYPE_RESOLVE_RETURN`, `ASYNC_TYPE_VERIFY_RETURN` (src/async.h:21-25) -/
def NOP : Nat := 0
def RESOLVE : Nat := 1
def VERIFY : Nat := 2
/-- src/build.h.in:132 -/
def VERIFY_LIMIT : Nat := 32
/-- `sizeof(verify_data_t)` (src/protocols/ec25519_fhmqvc/handshake.c:509-512) -/
def VERIFY_DATA : Nat := 36

/-! ### Sending -/

/-- The datagram sent by `fastd_async_enqueue` (src/async.c:122-137). -/
def datagram (type : Nat) (data : Bytes) : Bytes :=
  le 4 type ++ [0, 0, 0, 0] ++ le 8 data.length ++ data

/-! ### The resolver -/

/-- `IN6_IS_ADDR_V4MAPPED` for the bytes of a `struct in6_addr` -/
def v4Mapped (ip : Bytes) : Bool := ip.take 12 == [0, 0, 0, 0, 0, 0, 0, 0, 0, 0, 0xff, 0xff]

/-- `fastd_peer_address_simplify` (src/peer.c:520-529) -/
def simplifyAt (m : Mem) (off : Nat) : Option Mem := do
  let fam ← rd m off 2
  if unle fam = AF_INET6 then
    let ip ← rd m (off + 8) 16
    if v4Mapped ip then
      let mapped ← rd m off ADDR
      let m ← wr m off (List.replicate ADDR 0)
      let m ← wr m off (le 2 AF_INET)
      let m ← wr m (off + 2) ((mapped.drop 2).take 2)
      wr m (off + 4) ((mapped.drop 20).take 4)
    else
      pure m
  else
    pure m

/-- The loop of `resolve_peer` (src/resolve.c:66-80) over the results of `getaddrinfo`, each of which is a socket address of `ai_addrlen` bytes. -/
def resolveLoop : List Bytes → Mem → Nat → Option (Mem × Nat)
  | [], m, n => some (m, n)
  | a :: as, m, n =>
    if a.length > ADDR then resolveLoop as m n
    else do
      let fam ← rd (a.map some) 0 2
      if unle fam ≠ AF_INET ∧ unle fam ≠ AF_INET6 then resolveLoop as m n
      else do
        let m ← wr m (RESOLVE_RETURN + n * ADDR) (List.replicate ADDR 0)
        let m ← wr m (RESOLVE_RETURN + n * ADDR) a
        let m ← simplifyAt m (RESOLVE_RETURN + n * ADDR)
        resolveLoop as m (n + 1)

/-- What is asked of a resolver thread (`resolv_arg_t`, src/resolve.c:22-27); the host name and the constraints only have an influence on
the answer. -/
structure RJob where
  peer : Nat
  remote : Nat
deriving DecidableEq, Repr

/-- `resolve_peer` (src/resolve.c:31-97), for the given answer of `getaddrinfo`, which is empty if it has failed. The result is what is
passed to `fastd_async_enqueue`. -/
def resolvePeer (j : RJob) (answer : List Bytes) : Option Bytes := do
  let n := answer.length
  let m := uninit (RESOLVE_RETURN + n * ADDR)
  let m ← wr m 0 (le 8 j.peer)
  let m ← wr m 8 (le 8 j.remote)
  let (m, n) ← resolveLoop answer m 0
  let m ← wr m 16 (le 8 n)
  rd m 0 (RESOLVE_RETURN + n * ADDR)

/-! ### The verifier -/

/-- What is asked of a verifier thread: the socket is a pointer, the addresses are those of the handshake, and `data` is a
`verify_data_t`. -/
structure VJob where
  peer : Nat
  sock : Nat
  loc : Bytes
  rem : Bytes
  data : Bytes
deriving DecidableEq, Repr

/-- The argument for the thread, as prepared by `fastd_verify_peer` (src/verify.c:102-111). -/
def verifyArg (j : VJob) (env : Nat) : Option Mem := do
  let m := zeroed (ARG_RET + VERIFY_RETURN + j.data.length)
  let m ← wr m 0 (le 8 env)
  let m ← wr m 8 (le 8 (VERIFY_RETURN + j.data.length))
  let m ← wr m (ARG_RET + 8) (le 8 j.peer)
  let m ← wr m (ARG_RET + 16) (le 8 j.sock)
  let m ← wr m (ARG_RET + 24) j.loc
  let m ← wr m (ARG_RET + 52) j.rem
  wr m (ARG_RET + VERIFY_RETURN) j.data

/-- `do_verify_thread` (src/verify.c:58-64), for the given result of `do_verify` -/
def verifyThread (arg : Mem) (ok : Bool) : Option Bytes := do
  let arg ← wr arg ARG_RET [if ok then 1 else 0]
  let len ← rd arg 8 8
  rd arg ARG_RET (unle len)

/-! ### Receiving -/

/-- A notification, as far as it is looked at by the main thread. -/
inductive Msg
  | nop
  | resolve (j : RJob) (addrs : List Bytes)
  | verify (j : VJob) (ok : Bool)
deriving DecidableEq, Repr

/-- The addresses copied by `fastd_peer_handle_resolve` (src/peer.c:360-363) -/
def rdAddrs (m : Mem) : Nat → Nat → Option (List Bytes)
  | 0, _ => some []
  | n + 1, off => do
    let a ← rd m off ADDR
    let as ← rdAddrs m n (off + ADDR)
    pure (a :: as)

/-- What `handle_resolve_return` reads (src/async.c:47-58) -/
def rdResolve (m : Mem) : Option Msg := do
  let peer ← rd m 0 8
  let remote ← rd m 8 8
  let n ← rd m 16 8
  let addrs ← rdAddrs m (unle n) RESOLVE_RETURN
  pure (.resolve ⟨unle peer, unle remote⟩ addrs)

/-- What `handle_verify_return` (src/async.c:63-78) and `fastd_protocol_ec25519_fhmqvc_handle_verify_return`
(src/protocols/ec25519_fhmqvc/handshake.c:601-612) read -/
def rdVerify (m : Mem) : Option Msg := do
  let ok ← rd m 0 1
  let peer ← rd m 8 8
  let sock ← rd m 16 8
  let loc ← rd m 24 ADDR
  let rem ← rd m 52 ADDR
  let data ← rd m VERIFY_RETURN VERIFY_DATA
  pure (.verify ⟨unle peer, unle sock, loc, rem, data⟩ (ok ≠ [0]))

/-- What becomes of an action. -/
inductive Out (α : Type)
  | ok (a : α)
  /-- an access outside of an object, or to a byte without value -/
  | mem
  /-- `exit_bug` -/
  | bug
  /-- `exit_errno` -/
  | exit
  /-- the action is not possible now -/
  | stuck
deriving DecidableEq, Repr

def Out.ofMem {α : Type} : Option α → Out α
  | none => .mem
  | some a => .ok a

/-- `recvmsg` to the header (and some further room, see `fill`) -/
def header (d : Bytes) : Mem := d.map some ++ uninit (HDR - d.length) |>.take HDR

/-- `recvmsg` to a buffer of `len` bytes behind the header -/
def body (d : Bytes) (len : Nat) : Mem := ((d.drop HDR).map some ++ uninit len).take len

/-- The first half of `fastd_async_handle` (src/async.c:82-94): the length in the header of the datagram, which stays in the queue -/
def peek (d : Bytes) : Option Nat := do
  let len ← rd (header d) 8 8
  pure (unle len)

/-- The second half (src/async.c:94-119) with a buffer of `len` bytes -/
def take (d : Bytes) (len : Nat) : Out Msg :=
  match rd (header d) 0 4 with
  | none => .mem
  | some t =>
    if unle t = NOP then .ok .nop
    else if unle t = RESOLVE then .ofMem (rdResolve (body d len))
    else if unle t = VERIFY then .ofMem (rdVerify (body d len))
    else .bug

/-! ### All threads together -/

structure State where
  /-- the resolver threads -/
  resolvers : List RJob := []
  /-- the verifier threads which run their commands, with their arguments -/
  verifiers : List (VJob × Mem) := []
  /-- the number of verifier threads which have sent their results -/
  posting : Nat := 0
  /-- `ctx.verify_limit` (src/fastd.c:475) -/
  sem : Nat := VERIFY_LIMIT
  /-- the datagrams which can be received -/
  queue : List Bytes := []
  /-- the main thread is between the two calls of `recvmsg`, with the given size of the buffer -/
  peeked : Option Nat := none
deriving DecidableEq, Repr

/-- What can happen. `sent` tells if `sendmsg` succeeds, `created` if `pthread_create` does. -/
inductive Label
  /-- `fastd_resolve_peer` (src/resolve.c:100-126) starts a thread -/
  | resolve (j : RJob) (created : Bool)
  /-- `fastd_verify_peer` (src/verify.c:77-131) with an asynchronous command; `env` is the pointer to the environment -/
  | verify (j : VJob) (env : Nat) (created : Bool)
  /-- the signal handler sends a notification (src/fastd.c:81) -/
  | signal (sent : Bool)
  /-- a resolver has an answer -/
  | resolved (j : RJob) (answer : List Bytes) (sent : Bool)
  /-- the command of a verifier has finished -/
  | verified (j : VJob) (ok : Bool) (sent : Bool)
  /-- a verifier thread ends (src/verify.c:66-70) -/
  | post
  /-- `fastd_async_handle` is called, as the socket is readable (src/polling.c:53-55) -/
  | peek
  /-- `fastd_async_handle` goes on -/
  | take
deriving DecidableEq, Repr

/-- `sendmsg` -/
def send (s : State) (type : Nat) (data : Bytes) (sent : Bool) : State :=
  if sent then { s with queue := s.queue ++ [datagram type data] } else s

/-- The argument of the first thread with the given task -/
def argOf (j : VJob) : List (VJob × Mem) → Option Mem
  | [] => none
  | (k, m) :: l => if k = j then some m else argOf j l

/-- Removes it. -/
def dropJob (j : VJob) : List (VJob × Mem) → List (VJob × Mem)
  | [] => []
  | (k, m) :: l => if k = j then l else (k, m) :: dropJob j l

/-- One step of one of the threads. The result contains the notification handled, if any. -/
def step (s : State) : Label → Out (State × Option Msg)
  | .resolve j created =>
    if s.peeked.isSome then .stuck
    else .ok (if created then { s with resolvers := s.resolvers ++ [j] } else s, none)
  | .verify j env created =>
    if s.peeked.isSome then .stuck
    else if s.sem = 0 then .ok (s, none)
    else
      match verifyArg j env with
      | none => .mem
      | some arg =>
        let s := { s with sem := s.sem - 1 }
        .ok (if created then { s with verifiers := s.verifiers ++ [(j, arg)] } else { s with sem := s.sem + 1 }, none)
  | .signal sent => .ok (send s NOP [] sent, none)
  | .resolved j answer sent =>
    if j ∈ s.resolvers then
      match resolvePeer j answer with
      | none => .mem
      | some d => .ok (send { s with resolvers := s.resolvers.erase j } RESOLVE d sent, none)
    else .stuck
  | .verified j ok sent =>
    match argOf j s.verifiers with
    | none => .stuck
    | some arg =>
      match verifyThread arg ok with
      | none => .mem
      | some d => .ok (send { s with verifiers := dropJob j s.verifiers, posting := s.posting + 1 } VERIFY d sent, none)
  | .post =>
    if s.posting = 0 then .stuck
    else .ok ({ s with posting := s.posting - 1, sem := s.sem + 1 }, none)
  | .peek =>
    if s.peeked.isSome then .stuck
    else
      match s.queue with
      | [] => .stuck
      | d :: _ =>
        match peek d with
        | none => .mem
        | some len => .ok ({ s with peeked := some len }, none)
  | .take =>
    match s.peeked with
    | none => .stuck
    | some len =>
      match s.queue with
      | [] => .exit
      | d :: q =>
        match take d len with
        | .ok m => .ok ({ s with queue := q, peeked := none }, some m)
        | .mem => .mem
        | .bug => .bug
        | .exit => .exit
        | .stuck => .stuck

/-- Some steps; the result contains the notifications handled, in order. -/
def run (s : State) : List Label → Out (State × List Msg)
  | [] => .ok (s, [])
  | l :: ls =>
    match step s l with
    | .ok (s', m) =>
      match run s' ls with
      | .ok (s'', ms) => .ok (s'', m.toList ++ ms)
      | .mem => .mem
      | .bug => .bug
      | .exit => .exit
      | .stuck => .stuck
    | .mem => .mem
    | .bug => .bug
    | .exit => .exit
    | .stuck => .stuck

end Fastd.Async
