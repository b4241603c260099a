/-!
# Setting up and removing the status socket (src/status.c:190-306)

Model only. Several processes that are configured with the same status socket run in any order; a step is one system call. Processes are numbered and
numbers are not reused. Errors other than the ones listed end the process and are one case here. Not modelled: other programs that change the lock file or the
socket, and messages. Describing the peers is the subject of `Daemon/Status`.
-/

namespace Fastd.StatusSock

/-- How far a process is. -/
inductive Phase
  /-- not yet in `fastd_status_init` -/
  | idle
  /-- behind line 215: the lock is held -/
  | locked
  /-- behind line 244: the old socket has been removed, or this was not possible -/
  | cleared
  /-- behind line 248: there is a socket -/
  | created
  /-- behind line 263: the socket is bound -/
  | bound
  /-- behind line 277: `atexit` has been called -/
  | registered
  /-- behind line 286 -/
  | listening
  /-- `fastd_status_close` has been called -/
  | closed
  /-- the process has ended -/
  | gone
deriving DecidableEq, Repr

/-- The lock file, the path of the socket (with the process that has created the socket), and all processes. -/
structure St where
  lock : Option Nat
  path : Option Nat
  phase : Nat → Phase

/-- At first, there may be a socket of a process that has ended. -/
def init (path : Option Nat) : St :=
  { lock := none, path := path, phase := fun i => if path = some i then .gone else .idle }

def St.to (s : St) (i : Nat) (p : Phase) : St := { s with phase := fun j => if j = i then p else s.phase j }

/-- Does `exit` call `unlink_status_socket`, and does it reach `unlink` (src/status.c:192-198)? -/
def unlinksAtExit : Phase → Bool
  | .registered => true
  | .listening => true
  | _ => false

/-- Steps of the process `i` -/
inductive Step (i : Nat) : St → St → Prop
  /-- `flock` succeeds (src/status.c:206-211) -/
  | lock {s} : s.phase i = .idle → s.lock = none → Step i s ({ s with lock := some i }.to i .locked)
  /-- `open` or `flock` fails; the latter does if the lock is held by another process (src/status.c:207-218) -/
  | lockFails {s} : s.phase i = .idle → Step i s (s.to i .gone)
  /-- `unlink` (src/status.c:241) -/
  | unlink {s} : s.phase i = .locked → Step i s ({ s with path := none }.to i .cleared)
  /-- `unlink` fails (src/status.c:243-244) -/
  | unlinkFails {s} : s.phase i = .locked → Step i s (s.to i .cleared)
  /-- `socket` (src/status.c:246) -/
  | socket {s} : s.phase i = .cleared → Step i s (s.to i .created)
  | socketFails {s} : s.phase i = .cleared → Step i s (s.to i .gone)
  /-- `bind` (src/status.c:261) creates the path; it never replaces a file -/
  | bind {s} : s.phase i = .created → s.path = none → Step i s ({ s with path := some i }.to i .bound)
  | bindFails {s} : s.phase i = .created → Step i s (s.to i .gone)
  /-- `atexit` (src/status.c:272) -/
  | atexit {s} : s.phase i = .bound → Step i s (s.to i .registered)
  /-- `atexit` fails: the socket is removed (src/status.c:273-275), if this is possible -/
  | atexitFails {s} : s.phase i = .bound → Step i s ({ s with path := none }.to i .gone)
  | atexitFails' {s} : s.phase i = .bound → Step i s (s.to i .gone)
  /-- `listen` (src/status.c:278) -/
  | listen {s} : s.phase i = .registered → Step i s (s.to i .listening)
  /-- `fastd_status_close` (src/status.c:295-306): `unlink` may fail -/
  | close {s} : s.phase i = .listening → Step i s ({ s with path := none }.to i .closed)
  | closeFails {s} : s.phase i = .listening → Step i s (s.to i .closed)
  /-- `exit`, e.g. if `listen` fails, or when the process has finished: the handler removes the socket -/
  | exit {s} : s.phase i ≠ .gone → s.phase i ≠ .bound → Step i s ({ s with path := if unlinksAtExit (s.phase i) then none else s.path }.to i .gone)
  /-- the process is killed, or `unlink` fails at exit -/
  | kill {s} : s.phase i ≠ .gone → Step i s (s.to i .gone)
  /-- the last descriptor of the lock file is closed. A child of the process may have it for a while. -/
  | release {s} : s.phase i = .gone → s.lock = some i → Step i s { s with lock := none }

/-- Reachable states -/
inductive Reach (path : Option Nat) : St → Prop
  | init : Reach path (init path)
  | step {s s' i} : Reach path s → Step i s s' → Reach path s'

/-! ## User and group (src/status.c:226-237, 282-287) -/

/-- User or group IDs of a process -/
structure Ids where
  real : Nat
  effective : Nat
  saved : Nat
deriving DecidableEq, Repr

/-- `seteuid` and `setegid`: allowed with the capability, or for one of the IDs that the process already has -/
def setEffective (cap : Bool) (ids : Ids) (n : Nat) : Ids :=
  if cap || n = ids.real || n = ids.effective || n = ids.saved then { ids with effective := n } else ids

/-- `fastd_status_init` as far as user and group are concerned. `privileged` says whether a process with an effective user may change its IDs.
`user` and `group` are `conf.uid` and `conf.gid` if there is a user or group in the configuration. -/
def statusIds (privileged : Nat → Bool) (conf : Option (Nat × Nat)) (u g : Ids) : Ids × Ids :=
  let uid := u.effective
  let gid := g.effective
  let (u1, g1) := match conf with
    | some (user, group) =>
      let g1 := setEffective (privileged u.effective) g group
      let u1 := setEffective (privileged u.effective) u user
      (u1, g1)
    | none => (u, g)
  let u2 := setEffective (privileged u1.effective) u1 uid
  let g2 := setEffective (privileged u2.effective) g1 gid
  (u2, g2)

end Fastd.StatusSock
