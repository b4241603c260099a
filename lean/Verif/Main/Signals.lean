import Verif.Basic

/-!
# Signals and the end of the process (src/fastd.c, src/polling.c)

The main thread, from the point where `init_signals` has blocked all signals to the end of the process. What the rest
of the system does – sending signals – may happen at any time. A signal that is sent becomes pending (sending it again
changes nothing: these are not real-time signals); it is delivered when it isn't blocked.

All signals are blocked (src/fastd.c:85-93) except while `epoll_pwait` waits (src/polling.c:100-104; with `poll`, while the
calls between src/polling.c:215 and 275 wait) and after `terminate` has unblocked them (src/fastd.c:660). What happens
when a command ends is C81; here SIGCHLD is one signal among others.

Not modelled: SIGHUP, SIGTERM and the others arriving before `init_signals` (which end the process), fatal errors, the
signals that are ignored, signals nobody can block.
-/

namespace Fastd.Main

/-- The signals with a handler (src/fastd.c:97-110). -/
inductive Sig
  | hup | usr2 | chld | term | quit | int
deriving DecidableEq, Repr

/-- The signals that end the main loop (src/fastd.c:69-73). -/
def Sig.fatal : Sig → Bool
  | .term | .quit | .int => true
  | _ => false

/-- Where the main thread is. -/
inductive Pc
  /-- start-up, src/fastd.c:454-541 after `init_signals` -/
  | init
  /-- the condition of the main loop (src/fastd.c:669) -/
  | cond
  /-- `fastd_task_handle` (src/fastd.c:594) -/
  | tasks
  /-- waiting in `fastd_poll_handle` (src/polling.c:143) -/
  | wait
  /-- the rest of `fastd_poll_handle` (src/polling.c:144-155) -/
  | events
  /-- the condition in src/fastd.c:569 -/
  | ifReload
  /-- src/fastd.c:572-574 -/
  | reload
  /-- the condition in src/fastd.c:577 -/
  | ifReset
  /-- src/fastd.c:580-582 -/
  | reset
  /-- the condition in src/fastd.c:585 -/
  | ifChild
  /-- src/fastd.c:587 -/
  | reap
  /-- `cleanup` (src/fastd.c:613-649) -/
  | cleanup
  /-- `terminate` before the signals are unblocked (src/fastd.c:652-658) -/
  | unblock
  /-- `terminate` after the signals have been unblocked (src/fastd.c:660-662) -/
  | raise
  /-- `fastd_main` has returned; the process exits with status -1 (src/main.c) -/
  | exited
  /-- a signal has ended the process -/
  | killed (s : Sig)
deriving DecidableEq, Repr

structure Proc where
  pc : Pc := .init
  /-- pending signals -/
  pending : Sig → Bool := fun _ => false
  /-- `sig_reload` (src/fastd.c:48) -/
  sigReload : Bool := false
  /-- `sig_reset` (src/fastd.c:49) -/
  sigReset : Bool := false
  /-- `sig_child` (src/fastd.c:50) -/
  sigChild : Bool := false
  /-- `sig_terminate` (src/fastd.c:51), `none` for 0 -/
  sigTerminate : Option Sig := none
  /-- the signal with the default action; all others have the handler `on_signal` -/
  dflt : Option Sig := none

/-- What may happen. -/
inductive Op
  /-- someone sends a signal -/
  | send (s : Sig)
  /-- a pending signal that isn't blocked is delivered -/
  | deliver (s : Sig)
  /-- the main thread goes on -/
  | go
deriving DecidableEq

/-- What can be observed. -/
inductive Ev
  | sent (s : Sig)
  | delivered (s : Sig)
  /-- `fastd_config_load_peer_dirs` begins -/
  | reload
  /-- `fastd_peer_reset_all` begins -/
  | resetAll
  /-- `reap_zombies` begins -/
  | reap
  /-- an iteration of the main loop begins -/
  | iteration
  /-- `cleanup` begins -/
  | cleanup
  /-- the process is ended by a signal -/
  | killed (s : Sig)
  /-- the process exits by itself -/
  | exited
deriving DecidableEq

/-- `on_signal` (src/fastd.c:54-82) -/
def onSignal (s : Sig) (p : Proc) : Proc :=
  match s with
  | .hup => { p with sigReload := true }
  | .usr2 => { p with sigReset := true }
  | .chld => { p with sigChild := true }
  | .term | .quit | .int => { p with sigTerminate := some s }

/-- Whether signals are blocked. -/
def Proc.masked (p : Proc) : Bool :=
  match p.pc with
  | .wait | .raise => false
  | _ => true

/-- Whether there is still a process. -/
def Proc.alive (p : Proc) : Bool :=
  match p.pc with
  | .exited | .killed _ => false
  | _ => true

/-- Setting or clearing a pending signal. -/
def setPending (s : Sig) (b : Bool) (p : Proc) : Proc :=
  { p with pending := fun t => if t = s then b else p.pending t }

/-- The action of a signal that isn't blocked. -/
def act (s : Sig) (p : Proc) : Proc × List Ev :=
  if p.dflt = some s then ({ p with pc := .killed s }, [.killed s])
  else (onSignal s p, [])

/-- The main thread goes on. -/
def go (p : Proc) : Proc × List Ev :=
  match p.pc with
  | .init => ({ p with pc := .cond }, [])
  | .cond =>
    match p.sigTerminate with
    | none => ({ p with pc := .tasks }, [.iteration])
    | some _ => ({ p with pc := .cleanup }, [.cleanup])
  | .tasks => ({ p with pc := .wait }, [])
  | .wait => ({ p with pc := .events }, [])
  | .events => ({ p with pc := .ifReload }, [])
  | .ifReload =>
    if p.sigReload then ({ p with pc := .reload, sigReload := false }, [.reload])
    else ({ p with pc := .ifReset }, [])
  | .reload => ({ p with pc := .ifReset }, [])
  | .ifReset =>
    if p.sigReset then ({ p with pc := .reset, sigReset := false }, [.resetAll])
    else ({ p with pc := .ifChild }, [])
  | .reset => ({ p with pc := .ifChild }, [])
  | .ifChild =>
    if p.sigChild then ({ p with pc := .reap, sigChild := false }, [.reap])
    else ({ p with pc := .cond }, [])
  | .reap => ({ p with pc := .cond }, [])
  | .cleanup => ({ p with pc := .unblock }, [])
  | .unblock => ({ p with pc := .raise, dflt := p.sigTerminate }, [])
  | .raise =>
    match p.sigTerminate with
    | none => ({ p with pc := .exited }, [.exited])
    | some s =>
      let (q, es) := act s p
      if q.alive then ({ q with pc := .exited }, es ++ [.exited]) else (q, es)
  | .exited => (p, [])
  | .killed _ => (p, [])

/-- One step; `none` if it isn't possible. -/
def step (p : Proc) : Op → Option (Proc × List Ev)
  | .send s => if p.alive then some (setPending s true p, [.sent s]) else none
  | .deliver s =>
    if p.alive && !p.masked && p.pending s then
      let (q, es) := act s (setPending s false p)
      some (q, .delivered s :: es)
    else none
  | .go => if p.alive then some (go p) else none

/-- A run and what is observed during it. -/
inductive Run : Proc → List Ev → Prop
  | start : Run {} []
  | step {p q : Proc} {es fs : List Ev} (o : Op) : Run p es → Main.step p o = some (q, fs) → Run q (es ++ fs)

end Fastd.Main
