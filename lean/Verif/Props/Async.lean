import Verif.Async.Lemmas

/-!
# C91: results of other threads

Host names are resolved and peers are verified by threads, whose results reach the main thread as datagrams.
-/

namespace Fastd.Async

open Spec
open Fastd.Daemon (Addr)

/-- Whatever the threads, the signal handler and the main thread do, in any order, with any answers of `getaddrinfo` and whether or not
datagrams are lost: no buffer is exceeded, no byte without value is used or sent, no notification is of an unknown kind, and the
second `recvmsg` finds what the first one has found. -/
theorem C91_safe (ls : List Label) (h : ∀ l ∈ ls, Sane l) :
    run {} ls ≠ .mem ∧ run {} ls ≠ .bug ∧ run {} ls ≠ .exit := by
  rcases run_inv ls inv_init h with hs | ⟨s, ms, pend, hs, -⟩ <;> rw [hs] <;> simp

/-- The main thread gets exactly the results which the threads have sent, unchanged, in the order in which they were sent and each
one once, up to those that are still in the queue: all addresses of the internet protocols found by `getaddrinfo`
in their order and no other ones, respectively the result of the command together with the handshake it belongs to. -/
theorem C91_results (ls : List Label) (h : ∀ l ∈ ls, Sane l) {s : State} {ms : List Msg} (hr : run {} ls = .ok (s, ms)) :
    ∃ pend, Told ls (ms ++ pend) ∧ pend.length = s.queue.length := by
  rcases run_inv ls inv_init h with hs | ⟨s', ms', pend, hs, hi⟩
  · rw [hs] at hr; cases hr
  · rw [hs] at hr
    cases hr
    exact ⟨pend, by simpa using hi.told, by rw [hi.queue]; simp⟩

/-- There are never more results than requests. -/
theorem C91_once (ls : List Label) (h : ∀ l ∈ ls, Sane l) {s : State} {ms : List Msg} (hr : run {} ls = .ok (s, ms)) :
    (∀ j, ms.countP (isR j) ≤ ls.countP (asksR j)) ∧ (∀ j, ms.countP (isV j) ≤ ls.countP (asksV j)) := by
  rcases run_inv ls inv_init h with hs | ⟨s', ms', pend, hs, hi⟩
  · rw [hs] at hr; cases hr
  · rw [hs] at hr
    cases hr
    refine ⟨fun j => ?_, fun j => ?_⟩
    · have := hi.countR j
      simp only [List.nil_append, List.countP_append] at this
      omega
    · have := hi.countV j
      simp only [List.nil_append, List.countP_append] at this
      omega

/-- When no resolver is running any more and the queue is empty, each request to resolve a host name for which there was a thread has
been answered, unless the answer was lost. -/
theorem C91_answered (ls : List Label) (h : ∀ l ∈ ls, Sane l) {s : State} {ms : List Msg} (hr : run {} ls = .ok (s, ms))
    (h1 : s.resolvers = []) (h2 : s.queue = []) (j : RJob) :
    ms.countP (isR j) + ls.countP (lostR j) = ls.countP (asksR j) := by
  rcases run_inv ls inv_init h with hs | ⟨s', ms', pend, hs, hi⟩
  · rw [hs] at hr; cases hr
  · rw [hs] at hr
    cases hr
    have hp : pend = [] := by
      have := hi.queue
      rw [h2] at this
      exact (List.map_eq_nil_iff.mp this.symm)
    have := hi.countR j
    rw [h1, hp] at this
    simp at this
    omega

/-- At most 32 commands are run for verification at a time, and no place is lost: all of them can be used
again when the threads have ended. -/
theorem C91_limit (ls : List Label) (h : ∀ l ∈ ls, Sane l) {s : State} {ms : List Msg} (hr : run {} ls = .ok (s, ms)) :
    s.verifiers.length ≤ 32 ∧ (s.verifiers = [] → s.posting = 0 → s.sem = 32) := by
  rcases run_inv ls inv_init h with hs | ⟨s', ms', pend, hs, hi⟩
  · rw [hs] at hr; cases hr
  · rw [hs] at hr
    cases hr
    have := hi.sem
    simp only [VERIFY_LIMIT] at this
    refine ⟨by omega, fun h1 h2 => ?_⟩
    rw [h1, h2] at this
    simpa using this

/-- The system does not come to a standstill: each thread can go on whatever the other ones have done, and a
notification in the queue can be handled at once when the main thread is not busy. -/
theorem C91_progress (ls : List Label) (h : ∀ l ∈ ls, Sane l) {s : State} {ms : List Msg} (hr : run {} ls = .ok (s, ms)) :
    (∀ j ∈ s.resolvers, ∀ answer : List Answer, (∀ x ∈ answer, x.ok) → answer.length < 2 ^ 56 → ∀ sent, ∃ r,
      step s (.resolved j (answer.map Answer.bytes) sent) = .ok r) ∧
    (∀ j arg, (j, arg) ∈ s.verifiers → ∀ ok sent, ∃ r, step s (.verified j ok sent) = .ok r) ∧
    (s.queue ≠ [] → ∃ s' m, (s.peeked = none → ∃ s1, step s .peek = .ok (s1, none) ∧ step s1 .take = .ok (s', some m)) ∧
      (s.peeked ≠ none → step s .take = .ok (s', some m)) ∧ s'.queue = s.queue.tail ∧ s'.peeked = none) := by
  rcases run_inv ls inv_init h with hs | ⟨s', ms', pend, hs, hi⟩
  · rw [hs] at hr; cases hr
  · rw [hs] at hr
    cases hr
    refine ⟨fun j hj answer ha hn sent => ?_, fun j arg hj ok sent => ?_, fun hq => ?_⟩
    · rcases step_inv (l := .resolved j (answer.map Answer.bytes) sent) hi ⟨by simpa using hn, answer, ha, rfl⟩ with e | ⟨_, _, _, e, -⟩
      · simp only [step, if_pos hj] at e
        split at e <;> cases e
      · exact ⟨_, e⟩
    · rcases step_inv (l := .verified j ok sent) hi trivial with e | ⟨_, _, _, e, -⟩
      · have : ∃ m, argOf j s.verifiers = some m := by
          have hj := hj
          generalize s.verifiers = l at hj
          induction l with
          | nil => simp at hj
          | cons x l ih =>
            obtain ⟨k, m⟩ := x
            unfold argOf
            by_cases e : k = j
            · exact ⟨m, if_pos e⟩
            · rw [if_neg e]
              refine ih ?_
              rcases List.mem_cons.mp hj with hj | hj
              · cases hj; exact absurd rfl e
              · exact hj
        obtain ⟨m, hm⟩ := this
        simp only [step, hm] at e
        split at e <;> cases e
      · exact ⟨_, e⟩
    · cases pend with
      | nil => exact absurd hi.queue hq
      | cons m r =>
        have he : s.queue = m.enc :: r.map Msg.enc := hi.queue
        have hf := hi.fits m List.mem_cons_self
        refine ⟨{ s with queue := r.map Msg.enc, peeked := none }, m, fun hp => ?_, fun hp => ?_, by rw [he]; rfl, rfl⟩
        · refine ⟨{ s with peeked := some m.data.length }, ?_, ?_⟩
          · simp only [step, hp, he, peek_enc m hf]
            simp
          · simp only [step, he, take_enc m hf]
        · obtain ⟨len, hl⟩ := Option.ne_none_iff_exists'.mp hp
          obtain ⟨m', r', e1, e2⟩ := hi.peeked len hl
          cases e1
          simp only [step, hl, he, e2, take_enc m hf]

/-! Two host names are resolved at the same time; the answer to the second one contains an address of an unknown
family, and one which is mapped to IPv6. Meanwhile a signal arrives. -/

/-- 192.0.2.1 port 1000 -/
def addr4 : Answer := .inet #v[192, 0, 2, 1] 1000 #v[0, 0, 0, 0, 0, 0, 0, 0]
/-- ::ffff:192.0.2.2 port 1000 -/
def mapped4 : Answer := .inet6 #v[0, 0, 0, 0, 0, 0, 0, 0, 0, 0, 255, 255, 192, 0, 2, 2] 1000 0 0
/-- 2001:db8::1 port 1000 -/
def addr6 : Answer := .inet6 #v[0x20, 1, 0xd, 0xb8, 0, 0, 0, 0, 0, 0, 0, 0, 0, 0, 0, 1] 1000 0 0
def unix : Answer := .other 1 [47, 0]

def lookups : List Label :=
  [.resolve ⟨5, 0⟩ true, .resolve ⟨6, 1⟩ true, .resolved ⟨6, 1⟩ ([unix, mapped4, addr6].map Answer.bytes) true, .peek, .signal true,
   .resolved ⟨5, 0⟩ ([addr4].map Answer.bytes) true, .take, .peek, .take, .peek, .take]

def addr4Bytes : Bytes := [2, 0, 3, 232, 192, 0, 2, 1, 0, 0, 0, 0, 0, 0, 0, 0, 0, 0, 0, 0, 0, 0, 0, 0, 0, 0, 0, 0]
def mapped4Bytes : Bytes := [2, 0, 3, 232, 192, 0, 2, 2, 0, 0, 0, 0, 0, 0, 0, 0, 0, 0, 0, 0, 0, 0, 0, 0, 0, 0, 0, 0]
def addr6Bytes : Bytes := [10, 0, 3, 232, 0, 0, 0, 0, 0x20, 1, 0xd, 0xb8, 0, 0, 0, 0, 0, 0, 0, 0, 0, 0, 0, 1, 0, 0, 0, 0]

example : run {} lookups =
    .ok ({}, [.resolve ⟨6, 1⟩ [mapped4Bytes, addr6Bytes], .nop, .resolve ⟨5, 0⟩ [addr4Bytes]]) := by decide +kernel

example : ∀ l ∈ lookups, Sane l := by
  intro l hl
  simp only [lookups, List.mem_cons, List.not_mem_nil, or_false] at hl
  rcases hl with rfl | rfl | rfl | rfl | rfl | rfl | rfl | rfl | rfl | rfl | rfl
  · simp [Sane]
  · simp [Sane]
  · refine ⟨by decide, [unix, mapped4, addr6], ?_, rfl⟩
    simp [Answer.ok, unix, mapped4, addr6, AF_INET, AF_INET6]
  · trivial
  · trivial
  · refine ⟨by decide, [addr4], ?_, rfl⟩
    simp [Answer.ok, addr4]
  all_goals trivial

/-! A verification; for a second one no thread can be created, and the result of a third one is lost. -/

def job (i : Nat) : VJob := ⟨i, 4096, addr4Bytes, addr6Bytes, List.replicate 36 7⟩

example : run {} [.verify (job 1) 64 true, .verify (job 2) 64 false, .verify (job 3) 64 true, .verified (job 3) true false,
    .verified (job 1) true true, .post, .peek, .take, .post] = .ok ({}, [.verify (job 1) true]) := by decide +kernel

/-! While 32 verifications are running, no other one is started. -/

example : run {} ((List.range 32).map (fun i => .verify (job i) 64 true) ++
    [.verify (job 40) 64 true, .verified (job 40) true true]) = .stuck := by decide +kernel

end Fastd.Async
