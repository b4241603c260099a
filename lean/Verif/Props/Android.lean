import Verif.Net.Android
import Verif.Shell.EnvLemmas

/-!
# C112: Android integration

Sockets are only used after the GUI has protected them, the interface is the one the GUI has opened.
-/

namespace Fastd.Net.Android

/-- Each socket that is used was sent to the GUI right before this, which has answered with `X`. -/
def Protected (log : List Ev) : Prop :=
  ∀ pre fd post, log = pre ++ .use fd :: post → ∃ pre' b, pre = pre' ++ [.sentFd true fd, .answer (0x58 :: b)]

def NoEof (sys : Sys) : Prop := ∀ n, sys.read n ≠ some []

theorem protected_nil : Protected [] := by
  intro pre fd post h
  cases pre <;> cases h

theorem protected_snoc {log : List Ev} (h : Protected log) {e : Ev} (he : ∀ fd, e ≠ .use fd) : Protected (log ++ [e]) := by
  intro pre fd post hs
  rcases List.eq_nil_or_concat post with rfl | ⟨post', x, rfl⟩
  · have := List.append_inj' hs rfl
    simp at this
    exact absurd this.2 (he fd)
  · rw [List.concat_eq_append, ← List.cons_append, ← List.append_assoc] at hs
    exact h pre fd post' (List.append_inj' hs rfl).1

theorem protected_use {log : List Ev} (h : Protected log) (fd : Nat) (b : Bytes) :
    Protected (log ++ [.sentFd true fd, .answer (0x58 :: b), .use fd]) := by
  have h2 : Protected (log ++ [.sentFd true fd] ++ [.answer (0x58 :: b)]) := protected_snoc (protected_snoc h (by simp)) (by simp)
  intro pre f post hs
  rcases List.eq_nil_or_concat post with rfl | ⟨post', x, rfl⟩
  · have hs' : (log ++ [.sentFd true fd, .answer (0x58 :: b)]) ++ [.use fd] = pre ++ [.use f] := by simpa using hs
    have := List.append_inj' hs' rfl
    simp at this
    exact ⟨log, b, by rw [← this.1, this.2]⟩
  · have hs' : (log ++ [.sentFd true fd] ++ [.answer (0x58 :: b)]) ++ [.use fd] = (pre ++ .use f :: post') ++ [x] := by
      simpa [List.concat_eq_append] using hs
    exact h2 pre f post' (List.append_inj' hs' rfl).1

/-- What `bindSocket` does with a connection to the GUI -/
theorem bindSocket_gui {sys : Sys} {k k' : K} {r : Option Nat} (hc : k.ctrl.isSome = true) (h : bindSocket sys true k = .ok (r, k')) :
    k'.ctrl = k.ctrl ∧
    ((r = none ∧ k'.log = k.log) ∨
      (∃ fd b, r = none ∧ k'.log = k.log ++ [.sentFd true fd, .answer b, .close fd] ∧ b.head? ≠ some 0x58) ∨
      ∃ fd b, r = some fd ∧ k'.log = k.log ++ [.sentFd true fd, .answer b, .use fd] ∧ (b.head? = some 0x58 ∨ b = []) ∧ ∃ n, sys.read n = some b) := by
  have hsf : ∀ fd, sendFd sys (tick k) fd = if sys.sendmsg (k.pos + 1) = true then some (note (tick (tick k)) (.sentFd true fd)) else none := by
    intro fd
    have : (tick k).ctrl.isSome = true := hc
    simp only [sendFd, this, Bool.true_or, Bool.true_and]
    rfl
  unfold bindSocket at h
  split at h
  · injection h with h
    injection h with h1 h2
    subst h1 h2
    exact ⟨rfl, Or.inl ⟨rfl, rfl⟩⟩
  · rename_i fd _
    simp only [protect, hsf, Bool.not_true, Bool.false_eq_true, if_false] at h
    by_cases hs : sys.sendmsg (k.pos + 1) = true
    · rw [if_pos hs] at h
      simp only [tick, note] at h
      cases hr : sys.read (k.pos + 1 + 1) with
      | none => rw [hr] at h; cases h
      | some b =>
        rw [hr] at h
        simp only [] at h
        cases hx : (b.headD (sys.stack (k.pos + 1 + 1)) == 0x58) with
        | false =>
          rw [hx] at h
          injection h with h
          injection h with h1 h2
          subst h1 h2
          refine ⟨rfl, Or.inr (Or.inl ⟨fd, b, rfl, by simp, ?_⟩)⟩
          intro hb
          cases b with
          | nil => cases hb
          | cons x xs => simp at hb; subst hb; simp at hx
        | true =>
          rw [hx] at h
          injection h with h
          injection h with h1 h2
          subst h1 h2
          refine ⟨rfl, Or.inr (Or.inr ⟨fd, b, rfl, by simp, ?_, _, hr⟩)⟩
          cases b with
          | nil => exact Or.inr rfl
          | cons x xs => simp at hx; subst hx; exact Or.inl rfl
    · rw [if_neg hs] at h
      cases h

theorem open_protected {sys : Sys} (he : NoEof sys) (n : Nat) : ∀ {k k' : K}, k.ctrl.isSome = true → Protected k.log → open_ sys n k = .ok k' →
    Protected k'.log := by
  induction n with
  | zero => intro k k' _ hp h; cases h; exact hp
  | succ n ih =>
    intro k k' hc hp h
    rw [open_] at h
    cases hb : bindSocket sys true k with
    | exit => rw [hb] at h; cases h
    | bug => rw [hb] at h; cases h
    | ok x =>
      obtain ⟨r, k1⟩ := x
      rw [hb] at h
      obtain ⟨h1, h2⟩ := bindSocket_gui hc hb
      refine ih (by rw [h1]; exact hc) ?_ h
      rcases h2 with ⟨_, h2⟩ | ⟨fd, b, _, h2, _⟩ | ⟨fd, b, _, h2, h3, m, h4⟩
      · rw [h2]; exact hp
      · rw [h2, show [Ev.sentFd true fd, .answer b, .close fd] = [.sentFd true fd] ++ [.answer b] ++ [.close fd] from rfl, ← List.append_assoc, ← List.append_assoc]
        exact protected_snoc (protected_snoc (protected_snoc hp (by simp)) (by simp)) (by simp)
      · rw [h2]
        rcases h3 with h3 | rfl
        · cases b with
          | nil => cases h3
          | cons x xs => simp at h3; subst h3; exact protected_use hp fd xs
        · exact absurd h4 (he m)

/-- What `ifaceOpen` does -/
theorem ifaceOpen_ok {sys : Sys} {k k' : K} {fd : Nat} (h : ifaceOpen sys k = .ok (fd, k')) :
    k'.ctrl.isSome = true ∧ k'.log = k.log ++ [.received [fd], .sentPid true (ShellEnv.decimal sys.pid)] ∧ (∃ n rest, sys.recvmsg n = some (fd :: rest)) ∧ ∃ n, sys.write n = some (ShellEnv.decimal sys.pid).length := by
  unfold ifaceOpen receiveTun initCtrl at h
  cases hs : sys.socket k.pos with
  | none => rw [hs] at h; cases h
  | some c =>
    rw [hs] at h
    simp only [] at h
    by_cases hc : sys.connect (k.pos + 1) = true
    · rw [if_pos hc] at h
      simp only [recvFd] at h
      cases hr : sys.recvmsg (k.pos + 2) with
      | none =>
        rw [hr] at h
        simp only [sendPid] at h
        split at h
        · rename_i h'; split at h' <;> cases h'
          simp at h
        · cases h
        · cases h
      | some fds =>
        rw [hr] at h
        cases fds with
        | nil =>
          simp only [kernelRights, sendPid] at h
          simp at h
          split at h <;> simp_all
        | cons x xs =>
          simp only [kernelRights, sendPid, tick, note] at h
          simp only [if_true] at h
          split at h
          · rename_i k2 h2
            split at h2
            · rename_i hwr
              injection h2 with h2
              subst h2
              simp at h
              obtain ⟨rfl, rfl⟩ := h
              exact ⟨rfl, by simp, ⟨_, _, hr⟩, _, hwr⟩
            · cases h2
          · cases h
          · cases h
    · rw [if_neg hc] at h; cases h

/-- **C112.** With integration and without bind addresses: if fastd starts, the interface is the one whose descriptor the GUI has sent, the GUI has got the
PID, and all sockets opened afterwards are only used after the GUI has confirmed that they are protected. Partial: as long as the GUI does not close the
connection instead of answering (`C112_eof_false`), and without bind addresses (`C112_bind_false`). -/
theorem C112_partial {sys : Sys} (he : NoEof sys) {fd n : Nat} {k k' : K} (h : start sys 0 = .ok (fd, k)) (h' : open_ sys n k = .ok k') :
    (∃ text, k.log = [.received [fd], .sentPid true text] ∧ ShellEnv.Spec.Decimal sys.pid text ∧ ∃ n, sys.write n = some text.length) ∧ (∃ n rest, sys.recvmsg n = some (fd :: rest)) ∧
      Protected k'.log := by
  obtain ⟨h1, h2, h3, h4⟩ := ifaceOpen_ok h
  simp only [List.nil_append] at h2
  refine ⟨⟨_, h2, ShellEnv.decimal_spec _, h4⟩, h3, open_protected he n h1 ?_ h'⟩
  rw [h2]
  exact protected_snoc (protected_snoc (log := []) protected_nil (by simp)) (by simp)

/-- If the GUI does not send a descriptor, fastd does not go on. -/
theorem C112_no_descriptor {sys : Sys} (h : ∀ n, sys.recvmsg n = none ∨ sys.recvmsg n = some []) (binds fd : Nat) (k : K) : start sys binds ≠ .ok (fd, k) := by
  intro hk
  unfold start at hk
  split at hk
  · obtain ⟨_, _, ⟨n, rest, hr⟩, _⟩ := ifaceOpen_ok hk
    rcases h n with h | h <;> rw [h] at hr <;> cases hr
  · cases hk
  · cases hk

/-- With a bind address, the socket is to be protected before there is a connection to the GUI: it is sent to descriptor 0. -/
theorem bindSocket_early {sys : Sys} (hs : sys.stdinSocket = false) {k : K} (hc : k.ctrl = none) {r : Option Nat} {k' : K}
    (h : bindSocket sys true k = .ok (r, k')) : r = none := by
  unfold bindSocket at h
  split at h
  · injection h with h; injection h with h1 _; exact h1.symm
  · simp [protect, sendFd, tick, hc, hs] at h

/-- The statement that fastd starts with a bind address is false, whatever the kernel and the GUI do: if descriptor 0 is not a socket, it always exits ... -/
theorem C112_bind_false {sys : Sys} (hs : sys.stdinSocket = false) (binds : Nat) : start sys (binds + 1) = .exit := by
  unfold start
  rw [bindAll]
  cases hb : bindSocket sys true {} with
  | exit => rfl
  | bug =>
    unfold bindSocket at hb
    split at hb
    · cases hb
    · simp [protect, sendFd, tick, hs] at hb
  | ok x =>
    obtain ⟨r, k⟩ := x
    rw [bindSocket_early hs rfl hb]

/-- A GUI and a kernel that do what they should -/
def good : Sys where
  socket _ := some 5
  connect _ := true
  recvmsg _ := some [7]
  sendmsg _ := true
  write _ := some 3
  read _ := some [0x58]
  stack _ := 0
  bind n := some (n + 10)
  pid := 321
  stdinSocket := false

/-- ... and if it is one, the descriptor is sent to somebody else, whose answer decides. -/
theorem C112_bind_stdin_false : ∃ fd k, start { good with stdinSocket := true } 1 = .ok (fd, k) ∧ ¬ Protected k.log := by
  refine ⟨7, (match start { good with stdinSocket := true } 1 with | .ok (_, k) => k | _ => {}), by decide +kernel, ?_⟩
  intro h
  have := h [.sentFd false 10, .answer [0x58]] 10 [.received [7], .sentPid true [51, 50, 49]] (by decide +kernel)
  obtain ⟨pre', b, h⟩ := this
  have := congrArg List.reverse h
  simp at this

/-- If the GUI closes the connection, the answer is what was on the stack: the socket may be used without protection. -/
theorem C112_eof_false : ∃ (sys : Sys) (fd : Nat) (k k' : K), start sys 0 = .ok (fd, k) ∧ open_ sys 1 k = .ok k' ∧ ¬ Protected k'.log := by
  refine ⟨{ good with read := fun _ => some [], stack := fun _ => 0x58 }, 7,
    (match start { good with read := fun _ => some [], stack := fun _ => 0x58 } 0 with | .ok (_, k) => k | _ => {}),
    (match open_ { good with read := fun _ => some [], stack := fun _ => 0x58 } 1
      (match start { good with read := fun _ => some [], stack := fun _ => 0x58 } 0 with | .ok (_, k) => k | _ => {}) with | .ok k => k | _ => {}),
    by decide +kernel, by decide +kernel, ?_⟩
  intro h
  have := h [.received [7], .sentPid true [51, 50, 49], .sentFd true 14, .answer []] 14 [] (by decide +kernel)
  obtain ⟨pre', b, h⟩ := this
  have := congrArg List.reverse h
  simp at this

/-- The usual start, and a socket for a peer -/
example : (match start good 0 with
    | .ok (fd, k) => (match open_ good 1 k with | .ok k => some (fd, k.log) | _ => none)
    | _ => none) = some (7, [.received [7], .sentPid true [51, 50, 49], .sentFd true 14, .answer [0x58], .use 14]) ∧ NoEof good :=
  ⟨by decide +kernel, fun _ h => by cases h⟩

end Fastd.Net.Android
