import Verif.Poll.Model
import Verif.Props.Abort
import Mathlib.Data.List.Nodup

/-!
# C68, C69: waiting for events
-/

namespace Fastd.Poll

/-! ## C69: the time to wait -/

/-- **C69**: fastd waits without limit only if no task is scheduled; otherwise it never waits for longer than the time to the next task, however
far away this is. When fastd waits, no task is due: all of them have been handled before for the same value of `ctx.now`
(src/fastd.c:593-598, C14). -/
theorem C69 (timeout now : Int) (hn : now ≤ timeout) :
    (taskTimeout timeout now < 0 ↔ timeout = timeoutInv) ∧
    (timeout < timeoutInv → 0 ≤ taskTimeout timeout now ∧ now + taskTimeout timeout now ≤ timeout) := by
  unfold taskTimeout toInt32
  constructor
  · split
    · simp [*]
    · simp only []
      split <;> omega
  · intro h1
    rw [if_neg (by omega)]
    simp only []
    split <;> omega

/-- **C69**: it waits for exactly this time if it is less than 2^31 ms (24 days). -/
theorem C69_exact (timeout now : Int) (h : timeout < timeoutInv) (h1 : now ≤ timeout) (h2 : timeout - now < 2 ^ 31) :
    now + taskTimeout timeout now = timeout := by
  unfold taskTimeout toInt32
  rw [if_neg (by omega)]
  simp only []
  split <;> omega

example : taskTimeout 15000 5000 = 10000 ∧ taskTimeout 1000 5000 = 0 ∧ taskTimeout timeoutInv 5000 = -1 ∧
    taskTimeout (2 ^ 32 + 5007) 5000 = 7 := by decide

/-! ## C68: dispatching

What is expected, in terms of the objects and their descriptors only. -/

/-- Which of the events are handled in one round if the rest of them is dropped once the set of descriptors has changed -/
def handled (react : React) : Nat → List (Nat × Bool × Bool) → List (Nat × Bool × Bool)
  | _, [] => []
  | n, (o, i, e) :: r => (o, i, e) :: if react n o i e = [] then handled react (n + 1) r else []

/-- The consistent states -/
structure Inv (s : State) : Prop where
  objs : (s.live.map (·.1)).Nodup
  descs : (s.live.map (·.2)).Nodup
  fresh : ∀ p ∈ s.live, p.1 < s.next
  fds : ∀ o fd, s.fds[fd]? = some (some o) ↔ (o, fd) ∈ s.live
  pollfds : s.pollfds = [] ∨ ∃ rs : List Nat, s.pollfds = rs ∧ rs.Nodup ∧ ∀ fd, fd ∈ rs ↔ ∃ o, (o, fd) ∈ s.live

theorem inv_init : Inv .init := by
  refine ⟨by simp [State.init], by simp [State.init], by simp [State.init], by simp [State.init], .inl rfl⟩

theorem unique_fd {l : List (Nat × Nat)} (h : (l.map (·.1)).Nodup) {o a b : Nat} (ha : (o, a) ∈ l) (hb : (o, b) ∈ l) : a = b := by
  induction l with
  | nil => cases ha
  | cons p l ih =>
    rw [List.map_cons, List.nodup_cons] at h
    rcases List.mem_cons.1 ha with rfl | ha' <;> rcases List.mem_cons.1 hb with hb' | hb'
    · exact (Prod.mk.inj hb').2.symm
    · exact absurd (List.mem_map_of_mem (f := (·.1)) hb') h.1
    · subst hb'; exact absurd (List.mem_map_of_mem (f := (·.1)) ha') h.1
    · exact ih h.2 ha' hb'

theorem fdOf_eq {s : State} (hi : (s.live.map (·.1)).Nodup) {o fd : Nat} (h : (o, fd) ∈ s.live) : fdOf s o = .ok fd := by
  unfold fdOf
  cases hf : s.live.find? (·.1 = o) with
  | none => exact absurd (by simp) (List.find?_eq_none.1 hf _ h)
  | some p =>
    have h1 := List.find?_some hf
    have h2 := List.mem_of_find?_eq_some hf
    obtain ⟨a, b⟩ := p
    simp only [decide_eq_true_eq] at h1
    subst h1
    rw [unique_fd hi h h2]

theorem getElem?_extend (l : List (Option Nat)) (n j o : Nat) : (l ++ List.replicate n none)[j]? = some (some o) ↔ l[j]? = some (some o) := by
  rw [List.getElem?_append]
  split
  · rfl
  · rename_i h
    rw [List.getElem?_replicate, List.getElem?_eq_none (by omega)]
    split <;> simp

theorem inv_register {s : State} (h : Inv s) {o fd : Nat} (hl : legit s (.open o fd) = true) : Inv (register s o fd) := by
  simp only [legit, Bool.and_eq_true, decide_eq_true_eq, Bool.not_eq_true', List.any_eq_false] at hl
  obtain ⟨rfl, hfd⟩ := hl
  have hnew : ∀ p ∈ s.live, p.1 ≠ s.next := fun p hp => Nat.ne_of_lt (h.fresh p hp)
  refine ⟨?_, ?_, ?_, ?_, .inl rfl⟩
  · simp only [register, List.map_append, List.map_cons, List.map_nil]
    rw [List.nodup_append]
    refine ⟨h.objs, by simp, ?_⟩
    intro a ha b hb
    obtain ⟨p, hp, rfl⟩ := List.mem_map.1 ha
    rw [List.mem_singleton] at hb
    subst hb
    exact hnew p hp
  · simp only [register, List.map_append, List.map_cons, List.map_nil]
    rw [List.nodup_append]
    refine ⟨h.descs, by simp, ?_⟩
    intro a ha b hb
    obtain ⟨p, hp, rfl⟩ := List.mem_map.1 ha
    rw [List.mem_singleton] at hb
    subst hb
    simpa using hfd p hp
  · intro p hp
    simp only [register, List.mem_append, List.mem_singleton] at hp ⊢
    rcases hp with hp | rfl
    · exact Nat.lt_succ_of_lt (h.fresh p hp)
    · exact Nat.lt_succ_self _
  · intro o' fd'
    simp only [register, List.mem_append, List.mem_singleton, Prod.mk.injEq]
    rw [List.getElem?_set]
    split
    · rename_i e
      subst e
      rw [if_pos (by simp; omega)]
      constructor
      · intro h'
        right
        exact ⟨by simpa using h'.symm, rfl⟩
      · rintro (h' | ⟨rfl, -⟩)
        · exact absurd (show (o', fd).2 = fd from rfl) (by simpa using hfd _ h')
        · rfl
    · rename_i e
      rw [getElem?_extend, h.fds]
      exact ⟨.inl, fun h' => h'.resolve_right (fun ⟨_, h2⟩ => e h2.symm)⟩

theorem inv_close {s : State} (h : Inv s) {o : Nat} (hl : legit s (.close o) = true) :
    ∃ s', close s o = .ok s' ∧ Inv s' ∧ s'.log = s.log ∧ s'.pollfds = [] := by
  simp only [legit, List.any_eq_true, decide_eq_true_eq] at hl
  obtain ⟨⟨o', fd⟩, hm, rfl⟩ := hl
  have h1 := (h.fds o' fd).2 hm
  have hlt : fd < s.fds.length := by
    by_contra hc
    rw [List.getElem?_eq_none (by omega)] at h1
    cases h1
  refine ⟨{ s with fds := s.fds.set fd none, pollfds := [], live := s.live.filter (·.1 ≠ o') }, ?_, ⟨?_, ?_, ?_, ?_, .inl rfl⟩, rfl, rfl⟩
  · simp only [close, fdOf_eq h.objs hm, bind, Except.bind, if_pos hlt]
  · exact h.objs.sublist (List.filter_sublist.map _)
  · exact h.descs.sublist (List.filter_sublist.map _)
  · intro p hp
    exact h.fresh p (List.mem_filter.1 hp).1
  · intro x fd'
    simp only [List.mem_filter, decide_eq_true_eq]
    rw [List.getElem?_set]
    split
    · rename_i e
      subst e
      try rw [if_pos hlt]
      constructor
      · intro h'; cases h'
      · rintro ⟨h', hne⟩
        have := (h.fds _ _).2 h'
        rw [h1] at this
        exact absurd (Option.some.inj (Option.some.inj this)).symm (by simpa using hne)
    · rename_i e
      rw [h.fds]
      refine ⟨fun h' => ⟨h', ?_⟩, fun h' => h'.1⟩
      intro hx
      subst hx
      exact e (unique_fd h.objs hm h')

theorem inv_op {s : State} (h : Inv s) (x : Op) :
    op s x = .error .invalid ∨ ∃ s', op s x = .ok s' ∧ Inv s' ∧ s'.log = s.log ∧ s'.pollfds = [] := by
  unfold op
  split
  · rename_i hl
    right
    cases x with
    | «open» o fd => exact ⟨_, rfl, inv_register h hl, rfl, rfl⟩
    | close o => exact inv_close h hl
  · exact .inl rfl

theorem inv_ops {s : State} (h : Inv s) (xs : List Op) :
    ops s xs = .error .invalid ∨ ∃ s', ops s xs = .ok s' ∧ Inv s' ∧ s'.log = s.log ∧ (xs ≠ [] → s'.pollfds = []) := by
  induction xs generalizing s with
  | nil => exact .inr ⟨s, rfl, h, rfl, fun h => absurd rfl h⟩
  | cons x xs ih =>
    unfold ops
    rcases inv_op h x with e | ⟨s1, e, h1, h2, h3⟩
    · left; simp [e, bind, Except.bind]
    · simp only [e, bind, Except.bind]
      rcases ih h1 with e' | ⟨s2, e', h1', h2', h3'⟩
      · exact .inl e'
      · refine .inr ⟨s2, e', h1', h2'.trans h2, fun _ => ?_⟩
        cases xs with
        | nil =>
          simp only [ops, Except.ok.injEq] at e'
          rw [← e', h3]
        | cons y ys => exact h3' (by simp)

/-! ### One round with poll -/

theorem inv_log {s : State} (h : Inv s) (l : List (Nat × Bool × Bool)) : Inv { s with log := l } := ⟨h.objs, h.descs, h.fresh, h.fds, h.pollfds⟩

/-- What the system reports for the objects of a list of descriptors -/
def evsOf (s : State) (rev : Nat → Bool × Bool) (l : List Nat) : List (Nat × Bool × Bool) :=
  l.filterMap fun fd => match s.fds[fd]? with
    | some (some o) => if (rev fd).1 || (rev fd).2 then some (o, rev fd) else none
    | _ => none

theorem loop_spec (react : React) (rev : Nat → Bool × Bool) (l : List Nat) (i : Nat) (done : List Nat) (s : State) (h : Inv s)
    (hd : done.length = i) (hl : s.pollfds = done ++ l) (hm : ∀ fd ∈ l, ∃ o, (o, fd) ∈ s.live) :
    loop react s i ((l.map rev).countP fun x => x.1 || x.2) (l.map rev) = .error .invalid ∨
    ∃ s', loop react s i ((l.map rev).countP fun x => x.1 || x.2) (l.map rev) = .ok s' ∧ Inv s' ∧
      s'.log = s.log ++ handled react s.log.length (evsOf s rev l) := by
  induction l generalizing s i done with
  | nil => exact .inr ⟨s, rfl, h, by simp [evsOf, handled]⟩
  | cons fd l ih =>
    obtain ⟨o, ho⟩ := hm fd List.mem_cons_self
    have hfd := (h.fds o fd).2 ho
    have hev : evsOf s rev (fd :: l) = (if (rev fd).1 || (rev fd).2 then [(o, rev fd)] else []) ++ evsOf s rev l := by
      simp only [evsOf, List.filterMap_cons, hfd]
      split
      · rename_i e; split at e <;> simp_all
      · rename_i e; split at e <;> simp_all
    rw [List.map_cons]
    cases hr : rev fd with
    | mk a b =>
    unfold loop
    by_cases hc : 0 < (((a, b) :: l.map rev).countP fun x => x.1 || x.2)
    · have hi : i < s.pollfds.length := by rw [hl]; simp; omega
      have hget : s.pollfds[i]? = some fd := by rw [hl, List.getElem?_append_right (by omega)]; simp [hd]
      rw [if_pos ⟨hi, hc⟩]
      simp only [hget, hfd, handleFd, fdOf_eq h.objs ho, bind, Except.bind]
      rw [hev, hr]
      cases hab : (a || b) with
      | false =>
        have hcnt : (((a, b) :: l.map rev).countP fun x => x.1 || x.2) = (l.map rev).countP fun x => x.1 || x.2 := by
          rw [List.countP_cons]; simp [hab]
        simp only [Bool.false_eq_true, if_false, List.nil_append]
        rw [hcnt]
        exact ih (i + 1) (done ++ [fd]) s h (by simp [hd]) (by simp [hl]) (fun x hx => hm x (List.mem_cons_of_mem _ hx))
      | true =>
        have hcnt : (((a, b) :: l.map rev).countP fun x => x.1 || x.2) - 1 = (l.map rev).countP fun x => x.1 || x.2 := by
          rw [List.countP_cons]; simp [hab]
        simp only [if_true]
        rw [hcnt]
        rcases inv_ops (inv_log h (s.log ++ [(o, a, b)])) (react s.log.length o a b) with e | ⟨s1, e, h1, h2, h3⟩
        · left; simp only [e]
        · simp only [e]
          by_cases hre : react s.log.length o a b = []
          · rw [hre] at e
            simp only [ops, Except.ok.injEq] at e
            subst e
            have := ih (i + 1) (done ++ [fd]) { s with log := s.log ++ [(o, a, b)] } h1 (by simp [hd]) (by simp [hl])
              (fun x hx => hm x (List.mem_cons_of_mem _ hx))
            rcases this with e | ⟨s2, e, hs2, hlog⟩
            · exact .inl e
            · refine .inr ⟨s2, e, hs2, ?_⟩
              rw [hlog]
              simp only [handled, hre, if_true, List.append_assoc, List.cons_append, List.nil_append, List.length_append, List.length_cons, List.length_nil]
              rfl
          · refine .inr ⟨s1, ?_, h1, ?_⟩
            · cases l with
              | nil => rfl
              | cons fd' l =>
                rw [List.map_cons]
                cases hr' : rev fd' with
                | mk a' b' =>
                unfold loop
                rw [if_neg (by rw [h3 hre]; simp)]
            · rw [h2]
              simp [handled, hre]
    · rw [if_neg (fun hh => hc hh.2)]
      refine .inr ⟨s, rfl, h, ?_⟩
      have hz : ∀ x ∈ (a, b) :: l.map rev, (x.1 || x.2) = false := by
        intro x hx
        have := List.countP_eq_zero.1 (Nat.eq_zero_of_not_pos hc) x hx
        simpa using this
      have : evsOf s rev (fd :: l) = [] := by
        unfold evsOf
        rw [List.filterMap_eq_nil_iff]
        intro x hx
        have hx' : ((rev x).1 || (rev x).2) = false := by
          rcases List.mem_cons.1 hx with rfl | hx
          · exact hz _ (by rw [hr]; exact List.mem_cons_self)
          · exact hz _ (List.mem_cons_of_mem _ (List.mem_map_of_mem hx))
        split
        · simp [hx']
        · rfl
      rw [this]
      simp [handled]

/-- The descriptors in use, in order -/
def regs (k : Nat) : List (Option Nat) → List Nat
  | [] => []
  | none :: r => regs (k + 1) r
  | some _ :: r => k :: regs (k + 1) r

theorem mem_regs (k fd : Nat) (l : List (Option Nat)) : fd ∈ regs k l ↔ k ≤ fd ∧ ∃ o, l[fd - k]? = some (some o) := by
  induction l generalizing k with
  | nil => simp [regs]
  | cons x l ih =>
    by_cases h : fd = k
    · subst h
      cases x with
      | none =>
        simp only [regs, ih, Nat.sub_self, List.getElem?_cons_zero]
        constructor
        · rintro ⟨h, -⟩; omega
        · rintro ⟨-, o, h⟩; cases h
      | some o => simp [regs]
    · have e : k ≤ fd → fd - k = fd - (k + 1) + 1 := by omega
      cases x <;> simp only [regs, List.mem_cons, ih] <;> constructor
      · rintro ⟨h1, o, h2⟩
        exact ⟨by omega, o, by rw [e (by omega), List.getElem?_cons_succ]; exact h2⟩
      · rintro ⟨h1, o, h2⟩
        rw [e h1, List.getElem?_cons_succ] at h2
        exact ⟨by omega, o, h2⟩
      · rintro (h1 | ⟨h1, o, h2⟩)
        · exact absurd h1 h
        · exact ⟨by omega, o, by rw [e (by omega), List.getElem?_cons_succ]; exact h2⟩
      · rintro ⟨h1, o, h2⟩
        rw [e h1, List.getElem?_cons_succ] at h2
        exact .inr ⟨by omega, o, h2⟩

theorem regs_nodup (k : Nat) (l : List (Option Nat)) : (regs k l).Nodup := by
  induction l generalizing k with
  | nil => exact List.nodup_nil
  | cons x l ih =>
    cases x with
    | none => exact ih (k + 1)
    | some o =>
      refine List.nodup_cons.2 ⟨fun h => ?_, ih (k + 1)⟩
      have := ((mem_regs _ _ _).1 h).1
      omega

theorem fill_spec {s : State} (h : (s.live.map (·.1)).Nodup) (k : Nat) (l : List (Option Nat)) (hl : ∀ j o, l[j]? = some (some o) → (o, k + j) ∈ s.live) :
    fill s l = .ok (regs k l) := by
  induction l generalizing k with
  | nil => rfl
  | cons x l ih =>
    have h' : fill s l = .ok (regs (k + 1) l) := by
      apply ih
      intro j o hj
      have := hl (j + 1) o (by simpa using hj)
      rwa [show k + (j + 1) = k + 1 + j by omega] at this
    cases x with
    | none => exact h'
    | some o =>
      unfold fill
      rw [fdOf_eq h (hl 0 o rfl), h']
      rfl

/-- **C68** for `poll`: for all reactions of the handlers which do not themselves use objects that do not exist, one round of dispatching never
touches an object that has been closed and keeps the tables consistent. Each descriptor for which something is reported is handled
exactly once, except that the round ends once the set of descriptors has been changed (what is left is reported again in the next
round). -/
theorem C68_poll (react : React) (rev : Nat → Bool × Bool) (s : State) (h : Inv s) :
    pollHandle react s (fun l => l.map rev) = .error .invalid ∨
    ∃ s' evs, pollHandle react s (fun l => l.map rev) = .ok s' ∧ Inv s' ∧ s'.log = s.log ++ handled react s.log.length evs ∧
      evs.Nodup ∧ ∀ o i e, (o, i, e) ∈ evs ↔ ∃ fd, (o, fd) ∈ s.live ∧ rev fd = (i, e) ∧ (i || e) = true := by
  obtain ⟨l, hl, hnd, hmem⟩ : ∃ l, (if s.pollfds = [] then fill s s.fds else .ok s.pollfds) = Except.ok l ∧ l.Nodup ∧
      ∀ fd, fd ∈ l ↔ ∃ o, (o, fd) ∈ s.live := by
    split
    · refine ⟨regs 0 s.fds, fill_spec h.objs 0 s.fds (fun j o hj => by rw [Nat.zero_add]; exact (h.fds o j).1 hj), regs_nodup _ _, ?_⟩
      intro fd
      rw [mem_regs]
      simp only [Nat.zero_le, true_and, Nat.sub_zero, h.fds]
    · rename_i hne
      rcases h.pollfds with h' | ⟨rs, h1, h2, h3⟩
      · exact absurd h' hne
      · exact ⟨s.pollfds, rfl, by rw [h1]; exact h2, by rw [h1]; exact h3⟩
  have hi : Inv { s with pollfds := l } := ⟨h.objs, h.descs, h.fresh, h.fds, .inr ⟨l, rfl, hnd, hmem⟩⟩
  have := loop_spec react rev l 0 [] { s with pollfds := l } hi rfl rfl (fun fd hfd => (hmem fd).1 hfd)
  have hrun : pollHandle react s (fun l => l.map rev) =
      loop react { s with pollfds := l } 0 ((l.map rev).countP fun x => x.1 || x.2) (l.map rev) := by
    unfold pollHandle
    by_cases hc : s.pollfds = []
    · rw [if_pos hc] at hl
      simp only [if_pos hc, hl, bind, Except.bind]
    · rw [if_neg hc] at hl
      simp only [if_neg hc, bind, Except.bind]
      rw [Except.ok.inj hl]
  rw [hrun]
  rcases this with e | ⟨s', e, h1, h2⟩
  · exact .inl e
  · refine .inr ⟨s', evsOf s rev l, e, h1, h2, ?_, ?_⟩
    · refine List.Nodup.filterMap (fun a b c hc hc' => ?_) hnd
      have key : ∀ x : Nat, c ∈ (match s.fds[x]? with
          | some (some o) => if (rev x).1 || (rev x).2 then some (o, rev x) else none
          | _ => none : Option (Nat × Bool × Bool)) → (c.1, x) ∈ s.live := by
        intro x hx
        split at hx
        · rename_i o ho
          split at hx
          · rw [Option.mem_some_iff] at hx
            subst hx
            exact (h.fds o x).1 ho
          · cases hx
        · cases hx
      exact unique_fd h.objs (key a hc) (key b hc')
    · intro o i e'
      unfold evsOf
      rw [List.mem_filterMap]
      constructor
      · rintro ⟨fd, hfd, he⟩
        split at he
        · rename_i o' ho'
          split at he
          · rename_i hr
            obtain ⟨h1, h2⟩ := Prod.mk.inj (Option.some.inj he)
            rw [h2] at hr
            exact ⟨fd, (h.fds _ _).1 (h1 ▸ ho'), h2, hr⟩
          · cases he
        · cases he
      · rintro ⟨fd, hfd, hr, hie⟩
        refine ⟨fd, (hmem fd).2 ⟨o, hfd⟩, ?_⟩
        simp only [(h.fds o fd).2 hfd, hr, hie, if_true]

/-- Sockets 0 and 1 are readable; handling the packet on the first one closes the second one (or not). -/
example : let react := fun b => ((fun _ o _ _ => if o = 0 ∧ b = true then [.close 1] else []) : React)
    let s : State := register (register .init 0 3) 1 5
    ((pollHandle (react true) s (fun l => l.map fun _ => (true, false))).toOption.map (fun s' => (s'.log, s'.live)) =
      some ([(0, true, false)], [(0, 3)])) ∧
    ((pollHandle (react false) s (fun l => l.map fun _ => (true, false))).toOption.map (fun s' => (s'.log, s'.live)) =
      some ([(0, true, false), (1, true, false)], [(0, 3), (1, 5)])) := by
  decide +kernel

/-! ### One round with epoll -/

/-- What `epoll_wait` returns: objects that are registered, each at most once -/
structure Reported (s : State) (evs : List (Nat × Bool × Bool)) : Prop where
  nodup : (evs.map (·.1)).Nodup
  live : ∀ e ∈ evs, ∃ fd, (e.1, fd) ∈ s.live
  ready : ∀ e ∈ evs, (e.2.1 || e.2.2) = true

/-- **C68 is false** for `epoll`: the pointers are returned for up to 16 descriptors at once, and handling the first event may free the object
of the second one. -/
theorem C68_epoll_false : ¬ ∀ (react : React) (s : State) (evs : List (Nat × Bool × Bool)), Inv s → Reported s evs → epollLoop react s evs ≠ .error .mem := by
  intro h
  have hl0 : legit .init (.open 0 3) = true := by decide
  have hl1 : legit (register .init 0 3) (.open 1 5) = true := by decide
  refine h (fun _ o _ _ => if o = 0 then [.close 1] else []) (register (register .init 0 3) 1 5) [(0, true, false), (1, true, false)]
    (inv_register (inv_register inv_init hl0) hl1) ⟨by decide, ?_, by decide⟩ ?_
  · intro e he
    rcases List.mem_cons.1 he with rfl | he
    · exact ⟨3, by decide⟩
    · rcases List.mem_cons.1 he with rfl | he
      · exact ⟨5, by decide⟩
      · cases he
  · rfl

theorem epoll_ops_live (xs : List Op) (s s' : State) (h : epollOps s xs = .ok s') (o : Nat) (ho : .close o ∉ xs) (hl : ∃ fd, (o, fd) ∈ s.live) :
    ∃ fd, (o, fd) ∈ s'.live := by
  induction xs generalizing s with
  | nil => cases h; exact hl
  | cons x xs ih =>
    rw [List.mem_cons, not_or] at ho
    unfold epollOps at h
    cases e : epollOp s x with
    | error f => rw [e] at h; cases h
    | ok s1 =>
      rw [e] at h
      refine ih s1 h ho.2 ?_
      unfold epollOp at e
      split at e
      · cases x with
        | «open» a b => cases e; obtain ⟨fd, hfd⟩ := hl; exact ⟨fd, List.mem_append_left _ hfd⟩
        | close a =>
          obtain ⟨fd, hfd⟩ := hl
          cases e' : fdOf s a with
          | error f => simp only [e', bind, Except.bind] at e; cases e
          | ok _ =>
            simp only [e', bind, Except.bind, Except.ok.injEq] at e
            subst e
            refine ⟨fd, List.mem_filter.2 ⟨hfd, ?_⟩⟩
            simp only [decide_eq_true_eq, ne_eq]
            rintro rfl
            exact ho.1 rfl
      · cases e

theorem fdOf_live {s : State} {o : Nat} (h : ∃ fd, (o, fd) ∈ s.live) : ∃ fd, fdOf s o = .ok fd := by
  obtain ⟨fd, h⟩ := h
  unfold fdOf
  cases hf : s.live.find? (·.1 = o) with
  | none => exact absurd (by simp) (List.find?_eq_none.1 hf _ h)
  | some p => exact ⟨p.2, rfl⟩

theorem epoll_ops_error (xs : List Op) (s : State) (f : Err) (h : epollOps s xs = .error f) : f = .invalid := by
  induction xs generalizing s with
  | nil => cases h
  | cons x xs ih =>
    unfold epollOps at h
    cases e : epollOp s x with
    | ok s1 => rw [e] at h; exact ih s1 h
    | error f' =>
      rw [e] at h
      cases h
      unfold epollOp at e
      split at e
      · rename_i hl
        cases x with
        | «open» a b => cases e
        | close a =>
          simp only [legit, List.any_eq_true, decide_eq_true_eq] at hl
          obtain ⟨⟨a', fd⟩, hm, rfl⟩ := hl
          obtain ⟨fd', e'⟩ := fdOf_live ⟨fd, hm⟩
          simp only [e', bind, Except.bind] at e
          cases e
      · cases e; rfl

theorem epoll_ops_log (xs : List Op) (s s' : State) (h : epollOps s xs = .ok s') : s'.log = s.log := by
  induction xs generalizing s with
  | nil => cases h; rfl
  | cons x xs ih =>
    unfold epollOps at h
    cases e : epollOp s x with
    | error f => rw [e] at h; cases h
    | ok s1 =>
      rw [e] at h
      rw [ih s1 h]
      unfold epollOp at e
      split at e
      · cases x with
        | «open» a b => cases e; rfl
        | close a =>
          cases e' : fdOf s a with
          | error f => simp only [e', bind, Except.bind] at e; cases e
          | ok _ => simp only [e', bind, Except.bind, Except.ok.injEq] at e; subst e; rfl
      · cases e

/-- **C68** for `epoll`, as far as it holds: if no handler closes an object for which another event was reported in the same round, no object is
used after it has been freed, and all events are handled. What is missing: the handlers do close such objects (`C68_daemon_false`). -/
theorem C68_epoll_partial (react : React) (s : State) (evs : List (Nat × Bool × Bool)) (h : Reported s evs)
    (hr : ∀ n o i e x, x ∈ evs → x.1 ≠ o → .close x.1 ∉ react n o i e) :
    epollLoop react s evs = .error .invalid ∨ ∃ s', epollLoop react s evs = .ok s' ∧ s'.log = s.log ++ evs := by
  induction evs generalizing s with
  | nil => exact .inr ⟨s, rfl, by simp⟩
  | cons ev evs ih =>
    obtain ⟨o, i, e⟩ := ev
    obtain ⟨fd, hfd⟩ := fdOf_live (h.live _ List.mem_cons_self)
    have hie : (i || e) = true := h.ready _ List.mem_cons_self
    have hnd := h.nodup
    rw [List.map_cons, List.nodup_cons] at hnd
    unfold epollLoop epollHandleFd
    simp only [hfd, bind, Except.bind, hie, if_true]
    cases ho : epollOps { s with log := s.log ++ [(o, i, e)] } (react s.log.length o i e) with
    | error f => exact .inl (by rw [epoll_ops_error _ _ _ ho])
    | ok s1 =>
      simp only
      have hlog := epoll_ops_log _ _ _ ho
      have := ih s1 ⟨hnd.2, fun x hx => ?_, fun x hx => h.ready x (List.mem_cons_of_mem _ hx)⟩
        (fun n o i e x hx hne => hr n o i e x (List.mem_cons_of_mem _ hx) hne)
      · rcases this with e' | ⟨s', e', h'⟩
        · exact .inl e'
        · exact .inr ⟨s', e', by rw [h', hlog]; simp⟩
      · refine epoll_ops_live _ _ _ ho x.1 (hr _ _ _ _ x (List.mem_cons_of_mem _ hx) ?_) (h.live x (List.mem_cons_of_mem _ hx))
        intro hx'
        exact hnd.1 (hx' ▸ List.mem_map_of_mem (f := (·.1)) hx)

end Fastd.Poll

/-! ### The handlers of fastd -/

namespace Fastd.Daemon

open Demo

section
/-- An IPv6 address -/
def six : Addr := .v6 #v[7, 7, 7, 7, 7, 7, 7, 7, 7, 7, 7, 7, 7, 7, 7, 7] 1000 0 0

local instance pollEnv : Env := env { tape := fun _ => 1 }

/-- **C68 is false** for fastd with `epoll`: with an IPv4 socket, a floating peer with an IPv6 address is contacted with a socket of its own by IPv6. In one round there are the final packet of a handshake by IPv4 and a packet on the IPv6 socket. Both can be handled, but handling
the first one frees the socket of the second one. -/
theorem C68_daemon_false : ¬ ∀ (c c' : Ctx) (e e' : Event), Reach anyEvent c → e.possible c → e'.possible c → handle e c = .ok ((), c') →
    handle e' c' ≠ .error .mem := by
  intro h
  have hw : afterStep [peer 2 [six] true] [] [.tick 5000, .task 0] (.recv (.bound 0) (addrOf 1) (addrOf 2) (hsPkt 3 2 1 60))
      (fun c c' => possibleB c (.recv (.dyn 0) six six (hsPkt 2 2 1 50)) &&
        match handle (.recv (.dyn 0) six six (hsPkt 2 2 1 50)) c' with
        | .error .mem => true
        | _ => false) = true := by decide +kernel
  obtain ⟨c, c', hr, hp, he, hP⟩ := afterStep_reach hw
  rw [Bool.and_eq_true] at hP
  refine h c c' _ _ hr hp (possible_of hP.1) he ?_
  have := hP.2
  split at this
  · assumption
  · cases this

end

end Fastd.Daemon
