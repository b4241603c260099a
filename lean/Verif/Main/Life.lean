import Verif.Basic

/-!
# From the start of the process to its end (src/fastd.c)

`daemonize` with its three processes and the pipe between them, and the order of what `init` and `cleanup` do. The processes take their steps in any order.
Every system call may fail, every action of `init` may end the process, and any process may be killed at any time.

What the actions do is the subject of other models: `Config/Check` (configuration), `Config/Caps` (privileges), `Net/Socket` (sockets), `Shell/Env` (commands),
`Main/Signals` (the main loop and the signals). `init_log`, `fastd_update_time`, scheduling the maintenance, `fastd_receive_unknown_init` and
`fastd_sem_init` are left out, as they neither fail nor have effects outside.
-/

namespace Fastd.Life

/-- The actions of `init` (src/fastd.c:439-541, from `daemonize` on) and `cleanup` (src/fastd.c:613-649) -/
inductive Act
  /-- `fastd_config_check` -/
  | check
  /-- `fastd_offload_l2tp_init` -/
  | offload
  | capAcquire
  | pollInit
  | initSockets
  | statusInit
  | asyncInit
  | bindAll
  | preUp
  | ifaceOpen
  | setGroups
  | writePid
  | hashtable
  | notify
  /-- writing the status to the pipe, src/fastd.c:520-521 -/
  | report
  /-- closing the pipe, src/fastd.c:522-523 -/
  | closePipe
  | dropEarly
  | up
  | configurePeers
  | initBuffers
  | drop
  | peerDirs
  /-- the main loop, src/fastd.c:669-670 -/
  | loop
  | deletePeers
  | cleanupBuffers
  | down
  | ifaceClose
  | statusClose
  | closeSockets
  | pollFree
  | postDown
  | release
deriving DecidableEq, Repr

/-- The configuration, as far as it matters here -/
structure Conf where
  /-- `conf.daemon` -/
  daemon : Bool
  /-- mode TAP: there is one interface for all peers. -/
  tap : Bool
  /-- `fastd_use_offload_l2tp()` -/
  l2tp : Bool
  /-- `conf.drop_caps` is `DROP_CAPS_EARLY` or `DROP_CAPS_FORCE` -/
  early : Bool
deriving DecidableEq, Repr

/-- `init` from src/fastd.c:442 on, for `status_fd < 0` or not; `DROP_CAPS_OFF` changes the user only, and counts as `drop`. -/
def initActs (c : Conf) : List Act :=
  [.check] ++ (if c.l2tp then [.offload] else []) ++ [.capAcquire, .pollInit, .initSockets, .statusInit, .asyncInit, .bindAll, .preUp] ++
  (if c.tap then [.ifaceOpen] else []) ++ [.setGroups, .writePid, .hashtable, .notify] ++ (if c.daemon then [.report, .closePipe] else []) ++
  (if c.early then [.dropEarly] else []) ++ (if c.tap then [.up] else []) ++ [.configurePeers, .initBuffers] ++ (if c.early then [] else [.drop]) ++ [.peerDirs]

/-- `cleanup` -/
def cleanupActs (c : Conf) : List Act :=
  [.deletePeers, .cleanupBuffers] ++ (if c.tap then [.down, .ifaceClose] else []) ++ [.statusClose, .closeSockets, .pollFree, .postDown, .release]

/-- `fastd_main` (src/fastd.c:664-674) up to `terminate` -/
def acts (c : Conf) : List Act := initActs c ++ .loop :: cleanupActs c

/-- Where a process is. -/
inductive Pc
  /-- `pipe`, src/fastd.c:322 -/
  | pipe
  /-- the first `fork`, src/fastd.c:325 -/
  | fork
  /-- src/fastd.c:331 -/
  | parentClose
  /-- src/fastd.c:334 -/
  | parentWait
  /-- src/fastd.c:337 -/
  | parentRead
  /-- src/fastd.c:343 -/
  | childClose
  /-- src/fastd.c:346 -/
  | setsid
  /-- the second `fork`, src/fastd.c:349 -/
  | fork2
  /-- what is still to be done -/
  | main (todo : List Act)
  /-- the end, with an exit status or by a signal -/
  | over (status : Option Nat)
deriving DecidableEq, Repr

/-- A process: where it is, whether it can write to the pipe, and whether it is the leader of its session, or without controlling terminal -/
structure Proc where
  pc : Pc
  w : Bool
  leader : Bool
  detached : Bool
deriving DecidableEq, Repr

/-- The process that was started, its child, and the child of that; what is in the pipe; what has been done by which process; whether a system call of the
original process failed -/
structure Sys where
  p0 : Proc
  p1 : Option Proc
  p2 : Option Proc
  data : List Nat
  done : List (Nat × Act)
  failed : Bool
deriving DecidableEq, Repr

/-- The start. Whether the original process is a session leader is up to whoever started it. -/
def start (c : Conf) (leader : Bool) : Sys where
  p0 := { pc := if c.daemon then .pipe else .main (acts c), w := false, leader, detached := false }
  p1 := none
  p2 := none
  data := []
  done := []
  failed := false

/-- The process has ended. -/
def Proc.ended (p : Proc) : Bool := match p.pc with | .over _ => true | _ => false

/-- `exit`, or the end by a signal; the descriptors are closed. -/
def Proc.exit (p : Proc) (n : Option Nat) : Proc := { p with pc := .over n, w := false }

def writes (p : Option Proc) : Bool := match p with | some p => p.w | none => false

/-- Someone has the pipe open for writing. The descriptors of commands are closed before they run (see C80). -/
def Sys.writer (s : Sys) : Bool := s.p0.w || writes s.p1 || writes s.p2

/-- One action of a process that is (or will be) the daemon. `report` and `closePipe` are system calls on the pipe. -/
inductive Acts : Proc → List Nat → Option Act → Proc → List Nat → Prop
  /-- the action is done -/
  | ok {p : Proc} {d : List Nat} {a : Act} {l : List Act} (h : p.pc = .main (a :: l)) (h1 : a ≠ .report) (h2 : a ≠ .closePipe) :
      Acts p d (some a) { p with pc := .main l } d
  /-- src/fastd.c:520-521 -/
  | report {p : Proc} {d : List Nat} {l : List Act} (h : p.pc = .main (.report :: l)) : Acts p d (some .report) { p with pc := .main l } (d ++ [0])
  /-- src/fastd.c:522 -/
  | closePipe {p : Proc} {d : List Nat} {l : List Act} (h : p.pc = .main (.closePipe :: l)) :
      Acts p d (some .closePipe) { p with pc := .main l, w := false } d
  /-- `exit_errno`, `exit_error`, `exit_fatal`, `exit(1)` -/
  | fail {p : Proc} {d : List Nat} {a : Act} {l : List Act} {n : Option Nat} (h : p.pc = .main (a :: l)) (hn : n ≠ some 0) : Acts p d none (p.exit n) d
  /-- `terminate`, see C87 -/
  | over {p : Proc} {d : List Nat} {n : Option Nat} (h : p.pc = .main []) (hn : n ≠ some 0) : Acts p d none (p.exit n) d

/-- What has been done, after one more action -/
def note (l : List (Nat × Act)) (n : Nat) : Option Act → List (Nat × Act)
  | none => l
  | some a => l ++ [(n, a)]

/-- Steps -/
inductive Step (c : Conf) : Sys → Sys → Prop
  /-- `pipe` (src/fastd.c:322-323) -/
  | pipe {s : Sys} (h : s.p0.pc = .pipe) : Step c s { s with p0 := { s.p0 with pc := .fork, w := true } }
  | pipeFails {s : Sys} (h : s.p0.pc = .pipe) : Step c s { s with p0 := s.p0.exit (some 1), failed := true }
  /-- the first `fork` (src/fastd.c:325-328) -/
  | fork {s : Sys} (h : s.p0.pc = .fork) :
      Step c s { s with p0 := { s.p0 with pc := .parentClose }, p1 := some { pc := .childClose, w := true, leader := false, detached := false } }
  | forkFails {s : Sys} (h : s.p0.pc = .fork) : Step c s { s with p0 := s.p0.exit (some 1), failed := true }
  /-- the parent (src/fastd.c:329-340) -/
  | parentClose {s : Sys} (h : s.p0.pc = .parentClose) : Step c s { s with p0 := { s.p0 with pc := .parentWait, w := false } }
  | parentCloseFails {s : Sys} (h : s.p0.pc = .parentClose) : Step c s { s with p0 := s.p0.exit (some 1), failed := true }
  | wait {s : Sys} {p : Proc} (h : s.p0.pc = .parentWait) (h1 : s.p1 = some p) (he : p.ended = true) : Step c s { s with p0 := { s.p0 with pc := .parentRead } }
  | waitFails {s : Sys} (h : s.p0.pc = .parentWait) : Step c s { s with p0 := s.p0.exit (some 1), failed := true }
  | read {s : Sys} {b : Nat} {d : List Nat} (h : s.p0.pc = .parentRead) (hd : s.data = b :: d) : Step c s { s with p0 := s.p0.exit (some b), data := d }
  | readEnd {s : Sys} (h : s.p0.pc = .parentRead) (hd : s.data = []) (hw : s.writer = false) : Step c s { s with p0 := s.p0.exit (some 1) }
  | readFails {s : Sys} (h : s.p0.pc = .parentRead) : Step c s { s with p0 := s.p0.exit (some 1), failed := true }
  /-- the first child (src/fastd.c:341-359); failures of `close` and `setsid` are only logged -/
  | childClose {s : Sys} {p : Proc} (h1 : s.p1 = some p) (h : p.pc = .childClose) : Step c s { s with p1 := some { p with pc := .setsid } }
  | setsid {s : Sys} {p : Proc} (h1 : s.p1 = some p) (h : p.pc = .setsid) : Step c s { s with p1 := some { p with pc := .fork2, leader := true, detached := true } }
  | setsidFails {s : Sys} {p : Proc} (h1 : s.p1 = some p) (h : p.pc = .setsid) : Step c s { s with p1 := some { p with pc := .fork2 } }
  | fork2 {s : Sys} {p : Proc} (h1 : s.p1 = some p) (h : p.pc = .fork2) :
      Step c s { s with p1 := some (p.exit (some 0)), p2 := some { p with pc := .main (acts c), leader := false } }
  | fork2Fails {s : Sys} {p : Proc} (h1 : s.p1 = some p) (h : p.pc = .fork2) : Step c s { s with p1 := some (p.exit (some 1)) }
  /-- the rest of `fastd_main` -/
  | main0 {s : Sys} {p : Proc} {o : Option Act} {d : List Nat} (h : Acts s.p0 s.data o p d) : Step c s { s with p0 := p, data := d, done := note s.done 0 o }
  | main2 {s : Sys} {p p' : Proc} {o : Option Act} {d : List Nat} (h2 : s.p2 = some p) (h : Acts p s.data o p' d) :
      Step c s { s with p2 := some p', data := d, done := note s.done 2 o }
  /-- a signal nobody can block -/
  | kill0 {s : Sys} (h : s.p0.ended = false) : Step c s { s with p0 := s.p0.exit none, failed := true }
  | kill1 {s : Sys} {p : Proc} (h1 : s.p1 = some p) (h : p.ended = false) : Step c s { s with p1 := some (p.exit none) }
  | kill2 {s : Sys} {p : Proc} (h2 : s.p2 = some p) (h : p.ended = false) : Step c s { s with p2 := some (p.exit none) }

/-- Runs -/
inductive Run (c : Conf) : Sys → Prop
  | start {leader : Bool} : Run c (start c leader)
  | step {s s' : Sys} (h : Run c s) (hs : Step c s s') : Run c s'

end Fastd.Life
