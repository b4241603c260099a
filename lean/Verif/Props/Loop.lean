import Verif.Daemon.TaskLoop
import Verif.Props.Mac

/-!
# Tasks

* C60: handling the tasks that are due comes to an end

For all states reached from an arbitrary start by arbitrary events, in an arbitrary environment.
-/

namespace Fastd.Daemon

set_option linter.unusedSectionVars false

section

variable [Env]

/-! ### C60 -/

/-- `n` tasks are handled one after the other, without time passing or anything else happening: the loop in `fastd_task_handle`. Which one of the
tasks that are due is next is left open. -/
inductive Tasks : Nat → Ctx → Ctx → Prop
  | nil {c} : Tasks 0 c c
  | task {n c c' c''} (i : Nat) : Tasks n c c' → (Event.task i).possible c' → handle (.task i) c' = .ok ((), c'') → Tasks (n + 1) c c''
  | maintenance {n c c' c''} : Tasks n c c' → Event.maintenance.possible c' → handle .maintenance c' = .ok ((), c'') → Tasks (n + 1) c c''

/-- How often the task of a peer can be handled now: not at all if it is not due, once if that only removes a peer or finds out that there is nothing
to do, twice if there is something to do, and three times if the peer is to be reset. -/
def Peer.rank (now : Time) (p : Peer) : Nat :=
  if p.task.any (fun t => decide (t ≤ now)) = false then 0
  else if p.resetTimeout ≤ now then if p.isDynamic then 1 else 3
  else if p.keepalive ≤ now ∨ p.nextHs ≤ now then 2 else 1

theorem rank_le (now : Time) (p : Peer) : p.rank now ≤ 3 := by
  unfold Peer.rank
  repeat' split
  all_goals omega

theorem rank_congr {now : Time} {p q : Peer} (h : q.tm = p.tm ∧ q.task = p.task) : q.rank now = p.rank now := by
  have h1 : q.resetTimeout = p.resetTimeout := congrArg Tm.reset h.1
  have h2 : q.keepalive = p.keepalive := congrArg Tm.keepalive h.1
  have h3 : q.nextHs = p.nextHs := congrArg Tm.nextHs h.1
  have h4 : q.isDynamic = p.isDynamic := congrArg Tm.dyn h.1
  unfold Peer.rank
  rw [h1, h2, h3, h4, h.2]

theorem rank_two {now : Time} {p : Peer} (h : Stays now p.tm) : p.rank now ≤ 2 := by
  unfold Peer.rank
  have h' : now < p.resetTimeout ∨ p.isDynamic = true := h
  split
  · omega
  · split
    · split
      · omega
      · rename_i h1 h2
        rcases h' with h' | h'
        · omega
        · exact absurd h' h2
    · split <;> omega

theorem rank_one {now : Time} {p : Peer} (h : Stays now p.tm ∧ now < p.tm.keepalive ∧ now < p.tm.nextHs) : p.rank now ≤ 1 := by
  have h' : now < p.resetTimeout ∨ p.isDynamic = true := h.1
  have h2 : now < p.keepalive := h.2.1
  have h3 : now < p.nextHs := h.2.2
  unfold Peer.rank
  split
  · omega
  · split
    · split
      · omega
      · rename_i h4 h5
        rcases h' with h' | h'
        · omega
        · exact absurd h' h5
    · rw [if_neg (by omega)]

/-- The same for the maintenance task, which is due every 10 s. -/
def backlog (c : Ctx) : Nat := if c.maintenance ≤ c.now then ((c.now - c.maintenance) / 10000 + 1).toNat else 0

def ranks (c : Ctx) : Nat := (c.peers.map (·.rank c.now)).sum

theorem sum_lt {A : Type} {R : A → A → Prop} {f : A → Nat} {l l' : List A} (h : List.Forall₂ R l l')
    (hle : ∀ a ∈ l, ∀ b ∈ l', R a b → f b ≤ f a) (hlt : ∃ a ∈ l, ∀ b ∈ l', R a b → f b < f a) : (l'.map f).sum < (l.map f).sum := by
  induction h with
  | nil => obtain ⟨a, ha, _⟩ := hlt; cases ha
  | @cons a b l l' hab ht ih =>
    have h1 := hle a List.mem_cons_self b List.mem_cons_self hab
    have hle' : ∀ a ∈ l, ∀ b ∈ l', R a b → f b ≤ f a := fun a ha b hb => hle a (List.mem_cons_of_mem _ ha) b (List.mem_cons_of_mem _ hb)
    simp only [List.map_cons, List.sum_cons]
    obtain ⟨x, hx, hx'⟩ := hlt
    rcases List.mem_cons.1 hx with rfl | hx
    · have h2 := hx' b List.mem_cons_self hab
      have h3 : (l'.map f).sum ≤ (l.map f).sum := by
        clear ih hx hx' h1 h2 hle
        induction ht with
        | nil => exact Nat.le_refl _
        | @cons a b l l' hab' ht ih =>
          have := hle' a List.mem_cons_self b List.mem_cons_self hab'
          have := ih fun a ha b hb => hle' a (List.mem_cons_of_mem _ ha) b (List.mem_cons_of_mem _ hb)
          simp only [List.map_cons, List.sum_cons]
          omega
      omega
    · have := ih hle' ⟨x, hx, fun b hb => hx' b (List.mem_cons_of_mem _ hb)⟩
      omega

theorem ranks_lt {i : Nat} {c c' : Ctx} (hs : Sorted c.peers) (o : Oth i c c') {p : Peer} (hp : p ∈ c.peers) (hpi : p.id = i)
    (h : ∀ q ∈ c'.peers, q.id = i → q.rank c.now < p.rank c.now) : ranks c' < ranks c := by
  unfold ranks
  rw [o.now]
  refine sum_lt o.peers (fun a ha b hb hab => ?_) ⟨p, hp, fun b hb hab => h b hb (hab.1.trans hpi)⟩
  by_cases hai : a.id = i
  · rw [sorted_inj hs ha hp (hai.trans hpi.symm)]
    exact Nat.le_of_lt (h b hb (hab.1.trans hai))
  · exact Nat.le_of_eq (rank_congr (hab.2 hai))

theorem sum_filter_lt {l : List Peer} {f : Peer → Nat} {i : Nat} {p : Peer} (hp : p ∈ l) (hpi : p.id = i) (hf : 0 < f p) :
    ((l.filter (·.id ≠ i)).map f).sum < (l.map f).sum := by
  have le : ∀ l : List Peer, ((l.filter (·.id ≠ i)).map f).sum ≤ (l.map f).sum := by
    intro l
    induction l with
    | nil => exact Nat.le_refl _
    | cons a l ih =>
      rw [List.filter_cons]
      split
      · simp only [List.map_cons, List.sum_cons]; omega
      · simp only [List.map_cons, List.sum_cons]; omega
  induction l with
  | nil => cases hp
  | cons a l ih =>
    rw [List.filter_cons]
    rcases List.mem_cons.1 hp with rfl | hp
    · rw [if_neg (by simp [hpi])]
      have := le l
      simp only [List.map_cons, List.sum_cons]
      omega
    · have := ih hp
      split
      · simp only [List.map_cons, List.sum_cons]; omega
      · simp only [List.map_cons, List.sum_cons]; omega

/-- Handling the task of a peer. -/
theorem task_ranks {i : Nat} {c c' : Ctx} (h : Reach anyEvent c) (hn : c.now < timeoutInv) (hpos : (Event.task i).possible c)
    (he : handle (.task i) c = .ok ((), c')) : ranks c' < ranks c ∧ c'.now = c.now ∧ c'.maintenance = c.maintenance := by
  have hI : Inv False nobody nobody nobody c := h.inv fun s => s.elim
  have hpos' := hpos
  obtain ⟨p, hp, hpi, t, hpt, htn⟩ := hpos'
  have hdue : p.task.any (fun t => decide (t ≤ c.now)) = true := by rw [hpt]; simpa using htn
  have hres : ∃ q ∈ c.peers, q.id = i ∧ TaskRes q c c' := by
    obtain ⟨q, hq, hqi, hr, _⟩ := h.res hpos he
    exact ⟨q, hq, hqi, hr⟩
  have hsd := hI.ids
  have he' : peerTask i c = .ok ((), c') := he
  unfold peerTask at he'
  obtain ⟨_, c1, h1, h2⟩ := bind_ok he'
  obtain ⟨_, e1⟩ := modP_ok h1
  have o1 : Oth i c c1 := by rw [e1]; exact Oth.upd (fun _ => rfl) fun h => absurd rfl h
  have hn1 : c1.now < timeoutInv := by rw [o1.now]; exact hn
  have hs1 := o1.sorted hsd
  have hp1 : ({ p with task := none } : Peer) ∈ c1.peers := by
    rw [e1]; exact mem_updPeers.2 ⟨p, hp, if_pos hpi⟩
  obtain ⟨p1, c2, h3, h4⟩ := bind_ok h2
  clear h2
  obtain ⟨rfl, hp1', hp1i⟩ := getP_ok h3
  have ep : p1 = { p with task := none } := sorted_inj hs1 hp1' hp1 (hp1i.trans hpi.symm)
  obtain ⟨c3, c4, h5, h6⟩ := bind_ok h4
  have e34 : c3 = c2 ∧ c4 = c2 := by cases h5; exact ⟨rfl, rfl⟩
  obtain ⟨rfl, rfl⟩ := e34
  have fin : ∀ {P : Time → Tm → Prop}, Oth i c4 c' ∧ Ownt i P c' → (∀ q : Peer, P c.now q.tm → q.rank c.now < p.rank c.now) →
      ranks c' < ranks c ∧ c'.now = c.now ∧ c'.maintenance = c.maintenance := by
    intro P ho hP
    have o := o1.trans ho.1
    exact ⟨ranks_lt hsd o hp hpi fun q hq hqi => hP q (by rw [← o.now]; exact ho.2 q hq hqi), o.now, o.maint⟩
  have hrk : p.rank c.now = if p.resetTimeout ≤ c.now then if p.isDynamic then 1 else 3
      else if p.keepalive ≤ c.now ∨ p.nextHs ≤ c.now then 2 else 1 := by
    unfold Peer.rank
    rw [if_neg (by rw [hdue]; decide)]
  by_cases hr : p.resetTimeout ≤ c.now
  · rw [if_pos (by rw [ep]; simpa [timedOut, o1.now] using hr)] at h6
    cases hd : p.isDynamic with
    | true =>
      rw [if_pos (by rw [ep]; exact hd)] at h6
      have hpe : c'.peers = without' c.peers i := by
        obtain ⟨q, hq, hqi, hr'⟩ := hres
        have := sorted_inj hsd hq hp (hqi.trans hpi.symm)
        subst this
        cases hr' with
        | deleted _ _ h _ => rw [h, hqi]
        | reset _ _ h => rw [hd] at h; cases h
        | handled _ _ _ h => omega
      have hnm : c'.now = c4.now ∧ c'.maintenance = c4.maintenance := by
        unfold peerDelete at h6
        obtain ⟨_, c5, h7, h8⟩ := bind_ok h6
        obtain ⟨o5, _⟩ := (tk_resetPeer (i := i) (P := Anyt) fun _ _ h => h) _ _ _ hs1 hn1 (fun _ _ _ => trivial) h7
        unfold deletePeer at h8
        obtain ⟨p0, c6, h9, h10⟩ := bind_ok h8
        clear h8
        obtain ⟨rfl, _⟩ := getP_ok h9
        obtain ⟨c7, c8, h11, h12⟩ := bind_ok h10
        have e78 : c7 = c6 ∧ c8 = c6 := by cases h11; exact ⟨rfl, rfl⟩
        obtain ⟨rfl, rfl⟩ := e78
        cases hx : peerIndex c8.peers i with
        | none => simp only [hx] at h12; cases h12
        | some k =>
          simp only [hx] at h12
          obtain ⟨_, c9, h13, h14⟩ := bind_ok h12
          obtain ⟨o9, _⟩ := (tk_resetPeerState (i := i) (P := Anyt) i) _ _ _ (o5.sorted hs1) (by rw [o5.now]; exact hn1) (fun _ _ _ => trivial) h13
          cases h14
          exact ⟨o9.now.trans o5.now, o9.maint.trans o5.maint⟩
      have hnow : c'.now = c.now := hnm.1.trans o1.now
      refine ⟨?_, hnow, hnm.2.trans o1.maint⟩
      unfold ranks
      rw [hpe, hnow]
      have := sum_filter_lt (f := fun q => q.rank c.now) hp hpi (by rw [hrk, if_pos hr, hd]; decide)
      unfold without'
      simpa using this
    | false =>
      rw [if_neg (by rw [ep]; show ¬ p.isDynamic = true; rw [hd]; decide)] at h6
      refine fin (tk_peerReset _ _ _ hs1 hn1 (fun _ _ _ => trivial) h6) fun q hq => ?_
      have := rank_two hq
      rw [hrk, if_pos hr, hd]
      simp only [Bool.false_eq_true, if_false]
      omega
  · rw [if_neg (by rw [ep]; simpa [timedOut, o1.now] using hr)] at h6
    rw [if_neg hr] at hrk
    obtain ⟨_, c5, h7, h8⟩ := bind_ok h6
    obtain ⟨_, c6, h9, h10⟩ := bind_ok h8
    by_cases hk : p.keepalive ≤ c.now ∨ p.nextHs ≤ c.now
    · rw [if_pos hk] at hrk
      have hst : Ownt i Stays c4 := fun q hq hqi => by
        rw [sorted_inj hs1 hq hp1' (hqi.trans hp1i.symm), ep, o1.now]
        exact .inl (by show c.now < p.resetTimeout; omega)
      obtain ⟨o5, w5⟩ := tk_handleTaskKeepalive _ _ _ hs1 hn1 hst h7
      obtain ⟨o6, w6⟩ := tk_handleTaskDueHandshake _ _ _ (o5.sorted hs1) (by rw [o5.now]; exact hn1) w5 h9
      obtain ⟨o7, w7⟩ := tk_schedulePeerTask _ _ _ (o6.sorted (o5.sorted hs1)) (by rw [o6.now, o5.now]; exact hn1) w6 h10
      refine fin ⟨(o5.trans o6).trans o7, w7⟩ fun q hq => ?_
      have := rank_one hq
      omega
    · rw [if_neg hk] at hrk
      have e5 : c5 = c4 := by
        unfold handleTaskKeepalive at h7
        obtain ⟨p', c7, h11, h12⟩ := bind_ok h7
        clear h7
        obtain ⟨rfl, hp', hpi'⟩ := getP_ok h11
        obtain ⟨c8, c9, h13, h14⟩ := bind_ok h12
        have e89 : c8 = c7 ∧ c9 = c7 := by cases h13; exact ⟨rfl, rfl⟩
        obtain ⟨rfl, rfl⟩ := e89
        rw [sorted_inj hs1 hp' hp1' (hpi'.trans hp1i.symm), ep, if_neg (by simp only [timedOut, o1.now, decide_eq_true_eq]; omega)] at h14
        cases h14; rfl
      subst e5
      have e6 : c6 = c5 := by
        unfold handleTaskDueHandshake at h9
        obtain ⟨p', c7, h11, h12⟩ := bind_ok h9
        clear h9
        obtain ⟨rfl, hp', hpi'⟩ := getP_ok h11
        obtain ⟨c8, c9, h13, h14⟩ := bind_ok h12
        have e89 : c8 = c7 ∧ c9 = c7 := by cases h13; exact ⟨rfl, rfl⟩
        obtain ⟨rfl, rfl⟩ := e89
        rw [sorted_inj hs1 hp' hp1' (hpi'.trans hp1i.symm), ep, if_neg (by simp only [timedOut, o1.now, decide_eq_true_eq]; omega)] at h14
        cases h14; rfl
      subst e6
      obtain ⟨o7, _⟩ := (tk_schedulePeerTask (P := Anyt)) _ _ _ hs1 hn1 (fun _ _ _ => trivial) h10
      have o := o1.trans o7
      refine ⟨ranks_lt hsd o hp hpi fun q hq hqi => ?_, o.now, o.maint⟩
      unfold schedulePeerTask at h10
      obtain ⟨_, e7⟩ := modP_ok h10
      rw [e7] at hq
      have hdl : c.now < p.deadline := by
        unfold Peer.deadline timeoutMin
        split
        · omega
        · split <;> omega
      rcases mem_upd_cases hq with ⟨_, hne⟩ | ⟨r, hr', hri, rfl⟩
      · exact absurd hqi hne
      · rw [hrk]
        rw [sorted_inj hs1 hr' hp1' (hri.trans hp1i.symm), ep]
        have e : ({ p with task := none } : Peer).deadline = p.deadline := rfl
        rw [e]
        have z : ∀ r : Peer, r.task = none ∨ r.task = some p.deadline → r.rank c.now = 0 := by
          intro r hrt
          unfold Peer.rank
          rw [if_pos]
          rcases hrt with h | h
          · rw [h]; rfl
          · rw [h]
            show decide _ = false
            rw [decide_eq_false_iff_not]
            omega
        rw [z]
        · omega
        · split
          · exact .inl rfl
          · split
            · exact .inr rfl
            · exact .inl rfl

theorem backlog_step {m now : Int} (h : m ≤ now) :
    1 + (if m + 10000 ≤ now then ((now - (m + 10000)) / 10000 + 1).toNat else 0) ≤ ((now - m) / 10000 + 1).toNat := by
  split <;> omega

/-- **C60**: handling tasks comes to an end. Not more tasks than three for each peer and one for each 10 seconds that maintenance is overdue are
handled without time passing. The time must not have reached that of a timeout that never happens. -/
theorem C60 {c : Ctx} (h : Reach anyEvent c) (hn : c.now < timeoutInv) {n : Nat} {c' : Ctx} (ht : Tasks n c c') :
    n ≤ 3 * c.peers.length + (if c.maintenance ≤ c.now then (c.now - c.maintenance) / 10000 + 1 else 0) := by
  have key : Reach anyEvent c' ∧ c'.now = c.now ∧ n + ranks c' + backlog c' ≤ ranks c + backlog c := by
    induction ht with
    | nil => exact ⟨h, rfl, by omega⟩
    | task i _ hp he ih =>
      obtain ⟨h1, h2, h3⟩ := ih h hn
      obtain ⟨h4, h5, h6⟩ := task_ranks h1 (by rw [h2]; exact hn) hp he
      refine ⟨.step h1 hp trivial he, h5.trans h2, ?_⟩
      unfold backlog at *
      rw [h5, h6]
      omega
    | maintenance _ hp he ih =>
      obtain ⟨h1, h2, h3⟩ := ih h hn
      refine ⟨.step h1 hp trivial he, ?_⟩
      obtain ⟨_, c1, h4, h5⟩ := bind_ok he
      cases h4; cases h5
      refine ⟨h2, ?_⟩
      simp only [ranks] at h3 ⊢
      have hp' : _ ≤ _ := hp
      simp only [backlog, MAINTENANCE_INTERVAL] at h3 ⊢
      rw [if_pos hp'] at h3
      have hb := backlog_step hp'
      refine Nat.le_trans ?_ h3
      refine Nat.le_trans ?_ (Nat.add_le_add_left hb _)
      exact Nat.le_of_eq (by rw [← Nat.add_assoc, Nat.add_right_comm _ 1]; congr 1)
  have h1 : ranks c ≤ 3 * c.peers.length := by
    unfold ranks
    generalize c.peers = l
    induction l with
    | nil => simp
    | cons a l ih =>
      have := rank_le c.now a
      simp only [List.map_cons, List.sum_cons, List.length_cons]
      omega
  have h2 := key.2.2
  unfold backlog at h2
  split at h2 <;> rename_i hm
  · split at h2
    · rw [if_pos (by assumption)]; omega
    · rw [if_neg (by assumption)]; omega
  · split at h2
    · rw [if_pos (by assumption)]; omega
    · rw [if_neg (by assumption)]; omega

end

namespace Demo

section

local instance loopEnv : Env := env {}

/-- The first peer has a static address, so its handshake is due at once; handling the task once sends it. -/
example : afterStep duo [] [] (.task 0) (fun c c' => decide (ranks c = 2 ∧ ranks c' = 0 ∧ c'.now = c.now)) = true := by
  decide +kernel

/-- A peer that has not been heard of is reset; its handshake is then due in the same moment, -/
example : afterStep duo [] (duoUp ++ [.tick 90000]) (.task 0) (fun c c' => decide (ranks c = 6 ∧ ranks c' = 5 ∧ possibleB c' (.task 0))) = true := by
  decide +kernel

/-- but then both peers are done. -/
example : after duo [] (duoUp ++ [.tick 90000, .task 0, .task 0, .task 1])
    (fun c => decide (ranks c = 0 ∧ possibleB c (.task 0) = false ∧ possibleB c (.task 1) = false)) = true := by
  decide +kernel

end

end Demo

end Fastd.Daemon
