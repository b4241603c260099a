/-!
# Child processes (src/shell.c, src/fastd.c)

Model only: the processes started for shell commands, and how fastd collects them. Small steps of the main
thread, of the threads of asynchronous `on verify` commands and of the kernel in any order; in particular
children end, and threads start new ones, in the middle of `reap_zombies`. All signals are blocked except for
the main thread within the poll function (src/fastd.c:86-94, src/polling.c:101-104, 213-215, 275), so that
`waitpid` isn't interrupted. Not modelled: failing forks (nothing changes), the process started by
`daemonize` (src/fastd.c), and ending fastd.
-/

namespace Fastd.Children

/-- A process ID from the view of the kernel: not a child of fastd, a running child, or a child that has ended
but hasn't been waited for. -/
inductive Kid
  | absent
  | running
  | ended
deriving DecidableEq, Repr

/-- What the main thread is doing. -/
inductive Pc
  /-- anything not concerning children -/
  | idle
  /-- in `shell_command_exec_async` (src/shell.c:163-167) after `shell_command_do_exec` -/
  | forked (pid : Nat)
  /-- in `fastd_shell_command_exec_sync` (src/shell.c:130-157) at `waitpid` -/
  | waiting (pid : Nat)
  /-- in the loop of `reap_zombies` (src/fastd.c:546-566) with this value of `i` -/
  | reaping (i : Nat)
deriving DecidableEq, Repr

structure State where
  kids : Nat → Kid
  /-- `ctx.async_pids` -/
  async : List Nat
  /-- children of threads running `do_verify` (src/verify.c:31-50), which are at `waitpid` -/
  threads : List Nat
  pc : Pc
  /-- `SIGCHLD` is pending -/
  pending : Bool
  /-- `sig_child` (src/fastd.c:50) -/
  flag : Bool
  /-- number of times that `waitpid` failed -/
  errors : Nat

/-- The state when fastd starts. -/
def State.init : State :=
  { kids := fun _ => .absent, async := [], threads := [], pc := .idle, pending := false, flag := false, errors := 0 }

def setKid (s : State) (pid : Nat) (k : Kid) : State :=
  { s with kids := fun p => if p = pid then k else s.kids p }

/-- Steps. -/
inductive Op
  /-- the main thread starts an asynchronous command (src/shell.c:163-165) -/
  | forkAsync (pid : Nat)
  /-- `VECTOR_ADD` (src/shell.c:166) -/
  | add
  /-- the main thread starts a command it waits for -/
  | forkSync (pid : Nat)
  /-- ... `waitpid` returns (src/shell.c:139) -/
  | waited
  /-- a thread starts an `on verify` command -/
  | forkThread (pid : Nat)
  /-- ... `waitpid` returns -/
  | threadWaited (pid : Nat)
  /-- a child ends -/
  | exit (pid : Nat)
  /-- the poll function lets a pending signal in: `on_signal` (src/fastd.c:54-82) -/
  | signal
  /-- `handle_signals` (src/fastd.c:585-588) with `sig_child` set -/
  | handle
  /-- one round of the loop in `reap_zombies`, or its end -/
  | reap
deriving DecidableEq, Repr

/-- One round of the loop of `reap_zombies` (src/fastd.c:546-566). -/
def reapStep (s : State) (i : Nat) : State :=
  match s.async[i]? with
  | none => { s with pc := .idle }
  | some pid =>
    match s.kids pid with
    | .running => { s with pc := .reaping (i + 1) }
    | .ended => { setKid s pid .absent with async := s.async.eraseIdx i }
    | .absent => { s with async := s.async.eraseIdx i, errors := s.errors + 1 }

/-- `waitpid(pid, &status, 0)`: blocks (no step) as long as the child runs, and fails if there is none. -/
def waitStep (s : State) (pid : Nat) : Option State :=
  match s.kids pid with
  | .running => none
  | .ended => some (setKid s pid .absent)
  | .absent => some { s with errors := s.errors + 1 }

/-- A step, if it is possible. The kernel gives new processes IDs that are not in use. -/
def step (s : State) : Op → Option State
  | .forkAsync pid =>
    if s.pc = .idle ∧ s.kids pid = .absent then some { setKid s pid .running with pc := .forked pid } else none
  | .add =>
    match s.pc with
    | .forked pid => some { s with async := s.async ++ [pid], pc := .idle }
    | _ => none
  | .forkSync pid =>
    if s.pc = .idle ∧ s.kids pid = .absent then some { setKid s pid .running with pc := .waiting pid } else none
  | .waited =>
    match s.pc with
    | .waiting pid => (waitStep s pid).map fun s => { s with pc := .idle }
    | _ => none
  | .forkThread pid =>
    if s.kids pid = .absent then some { setKid s pid .running with threads := pid :: s.threads } else none
  | .threadWaited pid =>
    if pid ∈ s.threads then (waitStep s pid).map fun s => { s with threads := s.threads.erase pid } else none
  | .exit pid =>
    if s.kids pid = .running then some { setKid s pid .ended with pending := true } else none
  | .signal =>
    if s.pc = .idle ∧ s.pending = true then some { s with pending := false, flag := true } else none
  | .handle =>
    if s.pc = .idle ∧ s.flag = true then some { s with flag := false, pc := .reaping 0 } else none
  | .reap =>
    match s.pc with
    | .reaping i => some (reapStep s i)
    | _ => none

/-- Steps in sequence. -/
def runOps (s : State) : List Op → Option State
  | [] => some s
  | o :: r => (step s o).bind fun s => runOps s r

end Fastd.Children
