import Verif.Main.Notify
import Verif.Shell.EnvLemmas

/-!
# C113: readiness notification and PID file; C114: the clock
-/

namespace Fastd.Main.Notify

/-! ### C113 -/

/-- Addresses of Unix sockets on Linux (unix(7)) -/
inductive Address
  | unnamed
  | path (p : Bytes)
  | abstract (name : Bytes)
deriving DecidableEq

/-- What an address of `n` bytes of `sun_path` means: if the first byte is zero, the rest is a name, in which zero bytes have no special meaning. Otherwise it
is a path, which ends before a zero byte. -/
def meaning (sunPath : Bytes) (n : Nat) : Address :=
  match sunPath.take n with
  | [] => .unnamed
  | c :: cs => if c = 0 then .abstract cs else .path ((c :: cs).takeWhile (· ≠ 0))

/-- What `NOTIFY_SOCKET` stands for (sd_notify(3)): a path, or, after `@`, a name in the abstract namespace -/
inductive Stands : Bytes → Address → Prop
  | path {p : Bytes} (h : p ≠ []) : Stands (0x2f :: p) (.path (0x2f :: p))
  | abstract {n : Bytes} (h : n ≠ []) : Stands (0x40 :: n) (.abstract n)

theorem takeWhile_all {l : Bytes} (h : ∀ c ∈ l, c ≠ 0) : l.takeWhile (· ≠ 0) = l := by
  induction l with
  | nil => rfl
  | cons c cs ih =>
    rw [List.takeWhile_cons, if_pos (by simpa using h c List.mem_cons_self), ih (fun x hx => h x (List.mem_cons_of_mem _ hx))]

theorem strncpy_take (s : Bytes) (h : s.length ≤ 108) : (strncpy s 108).take s.length = s := by
  unfold strncpy
  rw [List.take_of_length_le h, List.take_left]

/-- **C113, address.** For a variable of at most 108 characters: a notification is only prepared if it stands for an address, and then for this one. Partial:
longer ones are cut (`C113_long_false`). -/
theorem C113_address_partial (s : Bytes) (h0 : ∀ c ∈ s, c ≠ 0) (hl : s.length ≤ 108) (a : Address) :
    (∃ p n, notifyAddr (some s) = some (p, n) ∧ p.length = 108 ∧ n ≤ 108 ∧ meaning p n = a) ↔ Stands s a := by
  have key : ∀ c r, s = c :: r → r ≠ [] → (c = 0x40 ∨ c = 0x2f) → ∃ p n, notifyAddr (some s) = some (p, n) ∧ p.length = 108 ∧ n ≤ 108 ∧
      meaning p n = if c = 0x40 then .abstract r else .path s := by
    intro c r hs hr hc
    have hr0 : r.getD 0 0 ≠ 0 := by
      cases r with
      | nil => exact absurd rfl hr
      | cons x xs => exact h0 x (by rw [hs]; simp)
    have hcond : ¬ ((s.getD 0 0 ≠ 0x40 ∧ s.getD 0 0 ≠ 0x2f) ∨ s.getD 1 0 = 0) := by
      rw [hs]
      rintro (⟨h1, h2⟩ | h1)
      · rcases hc with rfl | rfl
        · exact h1 rfl
        · exact h2 rfl
      · exact hr0 (by simpa using h1)
    have hlen : (strncpy s 108).length = 108 := by simp [strncpy]; omega
    have hfirst : strncpy s 108 = c :: (strncpy s 108).tail := by
      unfold strncpy; rw [hs]; rfl
    have htake := strncpy_take s hl
    have hpos : 0 < s.length := by rw [hs]; simp
    unfold notifyAddr
    simp only []
    rw [if_neg hcond]
    by_cases h40 : c = 0x40
    · subst h40
      rw [if_pos (by rw [hfirst]; rfl), if_pos rfl]
      refine ⟨_, _, rfl, by rw [List.length_set, hlen], Nat.min_le_right _ _, ?_⟩
      rw [Nat.min_eq_left hl]
      unfold meaning
      have : ((strncpy s 108).set 0 0).take s.length = 0 :: r := by
        rw [List.take_set, htake, hs]; rfl
      rw [this]
      simp
    · rw [if_neg (by rw [hfirst]; simpa using h40), if_neg h40]
      refine ⟨_, _, rfl, hlen, Nat.min_le_right _ _, ?_⟩
      rw [Nat.min_eq_left hl]
      unfold meaning
      rw [htake]
      have hc0 : c ≠ 0 := h0 c (by rw [hs]; simp)
      subst hs
      simp only [hc0, if_false]
      rw [takeWhile_all h0]
  constructor
  · rintro ⟨p, n, hn, _, _, rfl⟩
    cases s with
    | nil => simp [notifyAddr] at hn
    | cons c r =>
      by_cases hr : r = []
      · subst hr; simp [notifyAddr] at hn
      · by_cases hc : c = 0x40 ∨ c = 0x2f
        · obtain ⟨p', n', hn', _, _, hm⟩ := key c r rfl hr hc
          rw [hn] at hn'
          injection hn' with hn'
          injection hn' with h1 h2
          subst h1 h2
          rw [hm]
          rcases hc with rfl | rfl
          · exact .abstract hr
          · exact .path hr
        · exfalso
          unfold notifyAddr at hn
          simp only [] at hn
          rw [if_pos (Or.inl ⟨fun h => hc (Or.inl (by simpa using h)), fun h => hc (Or.inr (by simpa using h))⟩)] at hn
          cases hn
  · intro hs
    cases hs with
    | @path p hp => simpa using key 0x2f p rfl hp (Or.inr rfl)
    | @abstract n hp => simpa using key 0x40 n rfl hp (Or.inl rfl)

/-- Without the variable nothing is sent; what is sent says that fastd is ready, and has the PID as decimal number. -/
theorem C113_message (socketOk connectOk : Bool) (pid : Nat) (var : Option Bytes) (addr : Bytes × Nat) (msg : Bytes)
    (h : notify socketOk connectOk pid var = some (addr, msg)) :
    socketOk = true ∧ connectOk = true ∧ var ≠ none ∧ notifyAddr var = some addr ∧ ∃ d, msg = "READY=1\nMAINPID=".toUTF8.toList ++ d ∧ ShellEnv.Spec.Decimal pid d := by
  unfold notify at h
  cases ha : notifyAddr var with
  | none => rw [ha] at h; cases h
  | some a =>
    rw [ha] at h
    simp only [] at h
    split at h
    · rename_i hok
      simp only [Bool.and_eq_true] at hok
      injection h with h
      injection h with h1 h2
      subst h1 h2
      refine ⟨hok.1, hok.2, ?_, rfl, _, rfl, ShellEnv.decimal_spec pid⟩
      rintro rfl
      cases ha
    · cases h

/-- If nothing fails and the variable stands for an address (of at most 108 characters), the notification is sent. -/
theorem C113_sent (pid : Nat) (s : Bytes) (h0 : ∀ c ∈ s, c ≠ 0) (hl : s.length ≤ 108) (a : Address) (hs : Stands s a) :
    ∃ p n msg, notify true true pid (some s) = some ((p, n), msg) ∧ meaning p n = a := by
  obtain ⟨p, n, h1, _, _, h2⟩ := (C113_address_partial s h0 hl a).2 hs
  exact ⟨p, n, _, by unfold notify; rw [h1]; rfl, h2⟩

/-- With a longer path the notification goes to a different socket. -/
theorem C113_long_false : ∃ (s : Bytes) (a : Address), (∀ c ∈ s, c ≠ 0) ∧ Stands s a ∧
    ∃ p n msg, notify true true 1 (some s) = some ((p, n), msg) ∧ meaning p n ≠ a := by
  refine ⟨0x2f :: List.replicate 108 0x61, .path (0x2f :: List.replicate 108 0x61), by decide, .path (by decide), _, _, _, rfl, by decide⟩

/-- **C113, PID file.** The file is written if and only if it is configured and can be opened. It contains the PID and nothing else, if there is no error while it is
written, and a part of it in any case. -/
theorem C113_pid_file (configured opened : Bool) (written : Option Nat) (pid : Nat) :
    match pidFile configured opened written pid with
    | none => configured = false ∨ opened = false
    | some d => configured = true ∧ opened = true ∧ (written = none → ShellEnv.Spec.Decimal pid d) ∧ ∃ rest, ShellEnv.Spec.Decimal pid (d ++ rest) := by
  unfold pidFile
  cases configured <;> cases opened <;> simp
  refine ⟨?_, (ShellEnv.decimal pid).drop (written.getD (ShellEnv.decimal pid).length), ?_⟩
  · rintro rfl
    rw [Option.getD_none, List.take_length]
    exact ShellEnv.decimal_spec pid
  · rw [List.take_append_drop]
    exact ShellEnv.decimal_spec pid

example : notify true true 4711 (some "@/run/x".toUTF8.toList)
      = some ((0 :: "/run/x".toUTF8.toList ++ List.replicate 101 0, 7), "READY=1\nMAINPID=4711".toUTF8.toList) ∧
    notify true true 1 (some "/".toUTF8.toList) = none ∧ notify true true 1 (some "run".toUTF8.toList) = none ∧
    meaning (0 :: "/run/x".toUTF8.toList ++ List.replicate 101 0) 7 = .abstract "/run/x".toUTF8.toList := by
  decide +kernel

/-! ### C114 -/

/-- What the kernel gives: times since some start, with less than a second of nanoseconds -/
def Timespec.Valid (ts : Timespec) : Prop := 0 ≤ ts.sec ∧ ts.sec < 9000000000000000 ∧ 0 ≤ ts.nsec ∧ ts.nsec < 1000000000

/-- The time in nanoseconds -/
def Timespec.ns (ts : Timespec) : Int := 1000000000 * ts.sec + ts.nsec

/-- **C114.** The time is that of the system clock in milliseconds, rounded down, without overflow for 285 million years. -/
theorem C114_time (ts : Timespec) (h : ts.Valid) : ∃ t : Int, getTime ts = some t ∧ 1000000 * t ≤ ts.ns ∧ ts.ns < 1000000 * (t + 1) := by
  obtain ⟨h1, h2, h3, h4⟩ := h
  have hd : ts.nsec.tdiv 1000000 = ts.nsec / 1000000 := Int.tdiv_eq_ediv_of_nonneg h3
  refine ⟨1000 * ts.sec + ts.nsec / 1000000, ?_, ?_, ?_⟩
  · unfold getTime
    simp only [hd]
    rw [if_pos (by omega)]
  · unfold Timespec.ns; omega
  · unfold Timespec.ns; omega

/-- It never goes back if the system clock does not. -/
theorem C114_monotone (a b : Timespec) (ha : a.Valid) (hb : b.Valid) (h : a.ns ≤ b.ns) (s t : Int) (hs : getTime a = some s) (ht : getTime b = some t) :
    s ≤ t := by
  obtain ⟨s', hs', h1, h2⟩ := C114_time a ha
  obtain ⟨t', ht', h3, h4⟩ := C114_time b hb
  rw [hs] at hs'
  rw [ht] at ht'
  injection hs' with e1
  injection ht' with e2
  subst e1 e2
  by_contra hlt
  have : t + 1 ≤ s := by omega
  have : 1000000 * (t + 1) ≤ 1000000 * s := by omega
  omega

/-- **C114, timeouts.** A timeout of `d` milliseconds that is set at one time is not over less than `d - 1` milliseconds later, and it is over after `d`
milliseconds. -/
theorem C114_timeout (a b : Timespec) (ha : a.Valid) (hb : b.Valid) (d : Int) (s t : Int) (hs : getTime a = some s) (ht : getTime b = some t) :
    (timedOut (s + d) t = true → 1000000 * (d - 1) < b.ns - a.ns) ∧ (1000000 * d ≤ b.ns - a.ns → timedOut (s + d) t = true) := by
  obtain ⟨s', hs', h1, h2⟩ := C114_time a ha
  obtain ⟨t', ht', h3, h4⟩ := C114_time b hb
  rw [hs] at hs'
  rw [ht] at ht'
  injection hs' with e1
  injection ht' with e2
  subst e1 e2
  unfold timedOut
  simp only [decide_eq_true_eq]
  constructor
  · intro h
    have : 1000000 * (s + d) ≤ 1000000 * t := by
      have : s + d ≤ t := h
      omega
    omega
  · intro h
    show s + d ≤ t
    by_contra hlt
    have : 1000000 * (t + 1) ≤ 1000000 * (s + d) := by omega
    omega

example : getTime ⟨5, 999999999⟩ = some 5999 ∧ getTime ⟨6, 0⟩ = some 6000 ∧ getTime ⟨9223372036854776, 0⟩ = none := by
  decide

end Fastd.Main.Notify
