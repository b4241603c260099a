/-!
# Verification threads (src/verify.c, src/sem.h)

Model only: the main thread and the verifier threads as a transition system, one step per operation
on shared state. The interleaving is arbitrary.
-/

namespace Fastd.Daemon.Verify

/-- `VERIFY_LIMIT` (src/build.h.in:132) -/
def VERIFY_LIMIT : Nat := 32

/-- Where the main thread is in `fastd_verify_peer` (src/verify.c:81-131), asynchronous case. -/
inductive Main
  /-- elsewhere -/
  | idle
  /-- after a successful `fastd_sem_trywait` (line 97), before `pthread_create` (line 114) -/
  | acquired
  /-- `pthread_create` failed, before `fastd_sem_post` (line 117) -/
  | failed
deriving DecidableEq

/-- Where a verifier thread is in `do_verify_thread` (src/verify.c:56-71). -/
inductive Thread
  /-- in `do_verify` (line 59): the command is running -/
  | exec
  /-- before `fastd_async_enqueue` (line 62) -/
  | enqueue
  /-- before `fastd_sem_post` (line 66) -/
  | post
  | done
deriving DecidableEq

structure State where
  /-- the value of `ctx.verify_limit` -/
  sem : Nat
  main : Main
  threads : List Thread

/-- `fastd_sem_init(&ctx.verify_limit, VERIFY_LIMIT)` (src/fastd.c:475) -/
def init : State := ⟨VERIFY_LIMIT, .idle, []⟩

/-- One step of some thread. `Event` is what is visible. -/
inductive Event
  /-- a verification is begun -/
  | begin
  /-- refused, "maximum number of verification processes reached" -/
  | refused
  /-- the thread has been created -/
  | created
  | createFailed
  | failPost
  /-- the command has ended -/
  | ended
  | enqueued
  | posted

/-- `fastd_sem_trywait` on a semaphore of value 0 fails (sem_trywait(3)). -/
inductive Step : State → Event → State → Prop
  | begin {s} : s.main = .idle → 0 < s.sem → Step s .begin { s with sem := s.sem - 1, main := .acquired }
  | refused {s} : s.main = .idle → s.sem = 0 → Step s .refused s
  | created {s} : s.main = .acquired → Step s .created { s with main := .idle, threads := s.threads ++ [.exec] }
  | createFailed {s} : s.main = .acquired → Step s .createFailed { s with main := .failed }
  | failPost {s} : s.main = .failed → Step s .failPost { s with sem := s.sem + 1, main := .idle }
  | ended {s i} : s.threads[i]? = some .exec → Step s .ended { s with threads := s.threads.set i .enqueue }
  | enqueued {s i} : s.threads[i]? = some .enqueue → Step s .enqueued { s with threads := s.threads.set i .post }
  | posted {s i} : s.threads[i]? = some .post →
      Step s .posted { s with sem := s.sem + 1, threads := s.threads.set i .done }

/-- Executions. -/
inductive Steps : State → List Event → State → Prop
  | nil {s} : Steps s [] s
  | snoc {s s' s'' es e} : Steps s es s' → Step s' e s'' → Steps s (es ++ [e]) s''

end Fastd.Daemon.Verify
