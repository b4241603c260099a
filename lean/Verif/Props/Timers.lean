import Verif.Daemon.LogSpec
import Verif.Daemon.History
import Verif.Daemon.Demo

/-!
# C41: connections without valid packets are closed

For all executions. Time only matters through the clock at each event.
-/

namespace Fastd.Daemon

set_option linter.unusedSectionVars false

section

variable [Env]

/-- Between these states a valid packet of the peer `i` arrived: one that was accepted by one of its sessions, or the handshake that
connected it. -/
def Heard (i : Nat) (c c' : Ctx) : Prop :=
  ∃ l, c'.log = c.log ++ l ∧ (.established i ∈ l ∨ ∃ k d, .accept i k d ∈ l)

/-- The last valid packet of the peer `i` arrived at time `t`. -/
inductive LastHeard (i : Nat) : Time → Ctx → Prop
  | heard {e : Event} {c c' : Ctx} : Reach anyEvent c → e.possible c → handle e c = .ok ((), c') → Heard i c c' → LastHeard i c.now c'
  | quiet {e : Event} {c c' : Ctx} {t : Time} : LastHeard i t c → e.possible c → handle e c = .ok ((), c') → ¬ Heard i c c' →
      LastHeard i t c'

theorem LastHeard.reach {i : Nat} {t : Time} {c : Ctx} (h : LastHeard i t c) : Reach anyEvent c := by
  induction h with
  | heard h1 h2 h3 h4 => exact .step h1 h2 trivial h3
  | quiet h1 h2 h3 h4 ih => exact .step ih h2 trivial h3

/-- A peer after an event is new and dynamic, or was there before. -/
theorem step_peer {e : Event} {c c' : Ctx} (h : Reach anyEvent c) (hpos : e.possible c) (he : handle e c = .ok ((), c'))
    {l : List Eff} (hl : c'.log = c.log ++ l) {q : Peer} (hq : q ∈ c'.peers) (hs : q.state = .established) :
    (.established q.id ∈ l ∧ q.isDynamic = true) ∨ ∃ p ∈ c.peers, p.id = q.id ∧ p.isDynamic = q.isDynamic ∧
      (p.state = .established ∨ .established q.id ∈ l) ∧ (q.isDynamic = false →
        (q.resetTimeout = p.resetTimeout ∨ .established q.id ∈ l ∨ ∃ k d, .accept q.id k d ∈ l) ∧
        (.established q.id ∈ l → (∃ k d, .accept q.id k d ∈ l) ∨ q.resetTimeout = c.now + PEER_STALE_TIME)) := by
  have hI : Inv False nobody nobody nobody c := h.inv fun s => s.elim
  have main : ∀ {E : Ex}, Tr E c c' → E.est = nobody → E.reset = nobody → (E.stat ∨ .established q.id ∉ l) → (.established q.id ∈ l ∧ q.isDynamic = true) ∨
      ∃ p ∈ c.peers, p.id = q.id ∧ p.isDynamic = q.isDynamic ∧
      (p.state = .established ∨ .established q.id ∈ l) ∧ (q.isDynamic = false →
        (q.resetTimeout = p.resetTimeout ∨ .established q.id ∈ l ∨ ∃ k d, .accept q.id k d ∈ l) ∧
        (.established q.id ∈ l → (∃ k d, .accept q.id k d ∈ l) ∨ q.resetTimeout = c.now + PEER_STALE_TIME)) := by
    intro E t hE hR hB
    obtain ⟨l', hl', hb⟩ := t.back
    have : l' = l := List.append_cancel_left (hl'.symm.trans hl)
    subst this
    rcases hb q hq with ⟨p, hp, r⟩ | ⟨hn, b⟩
    · have h1 := r.est hs
      have h2 := r.reset
      have h3 := r.late
      rw [hE, ← r.id] at h1
      rw [hE, hR, ← r.id, ← r.dyn] at h2 h3
      refine .inr ⟨p, hp, r.id.symm, r.dyn.symm, ?_, fun hd => ⟨?_, fun hm => ?_⟩⟩
      · rcases h1 with h1 | h1 | h1
        · exact .inl h1
        · exact h1.elim
        · exact .inr h1
      · rcases h2 hd hs with h2 | h2 | h2 | h2
        · exact .inl h2
        · exact h2.elim
        · exact h2.elim
        · exact .inr h2
      · rcases h3 hd hs hm with h2 | h2 | h2
        · exact h2.elim
        · exact h2.elim
        · exact h2
    · have h1 : .established q.id ∈ l' := by
        rcases b.est hs with h1 | h1
        · rw [hE] at h1; exact h1.elim
        · exact h1
      refine .inl ⟨h1, ?_⟩
      rcases hB with hB | hB
      · exact b.dyn hB
      · exact absurd h1 hB
  cases htk : e.isTick with
  | true =>
    cases e with
    | tick d =>
      cases he
      exact .inr ⟨q, hq, rfl, rfl, .inl hs, fun _ => ⟨.inl rfl, fun hm => by rw [log_same rfl hl] at hm; cases hm⟩⟩
    | _ => cases htk
  | false =>
    cases hrl : e.isReload with
    | true =>
      cases e with
      | reload ds =>
        refine main (pr_loadPeerDirs (E := Reloading) trivial (fun _ => trivial) id id _ _ _ hI.idsOk he) rfl rfl (.inr fun hm => ?_)
        cases (h.res hpos he).calm rfl hl _ hm
      | _ => cases hrl
    | false => exact main (pr_handle hrl htk _ _ _ hI.idsOk he) rfl rfl (.inl trivial)

theorem step_log {e : Event} {c c' : Ctx} (h : Reach anyEvent c) (he : handle e c = .ok ((), c')) : ∃ l, c'.log = c.log ++ l := by
  have hI : Inv False nobody nobody nobody c := h.inv fun s => s.elim
  cases htk : e.isTick with
  | true =>
    cases e with
    | tick d => cases he; exact ⟨[], by simp⟩
    | _ => cases htk
  | false =>
    cases hrl : e.isReload with
    | true =>
      cases e with
      | reload ds =>
        obtain ⟨l, hl, _⟩ := (pr_loadPeerDirs (E := Reloading) trivial (fun _ => trivial) id id _ _ _ hI.idsOk he).back
        exact ⟨l, hl⟩
      | _ => cases hrl
    | false =>
      obtain ⟨l, hl, _⟩ := (pr_handle hrl htk _ _ _ hI.idsOk he).back
      exact ⟨l, hl⟩

theorem step_now {e : Event} {c c' : Ctx} (h : Reach anyEvent c) (he : handle e c = .ok ((), c')) : c.now ≤ c'.now := by
  have hI : Inv False nobody nobody nobody c := h.inv fun s => s.elim
  cases htk : e.isTick with
  | true =>
    cases e with
    | tick d => cases he; simp only []; omega
    | _ => cases htk
  | false =>
    cases hrl : e.isReload with
    | true =>
      cases e with
      | reload ds =>
        exact Int.le_of_eq (pr_loadPeerDirs (E := Reloading) trivial (fun _ => trivial) id id _ _ _ hI.idsOk he).now.symm
      | _ => cases hrl
    | false => exact Int.le_of_eq (pr_handle hrl htk _ _ _ hI.idsOk he).now.symm

/-- When a packet was accepted, the time-out starts again. -/
theorem accept_reset {e : Event} {c c' : Ctx} (h : Reach anyEvent c) (hp : e.possible c) (he : handle e c = .ok ((), c')) {l : List Eff}
    (hl : c'.log = c.log ++ l) {i k : Nat} {d : Bytes} (hm : .accept i k d ∈ l) {q : Peer} (hq : q ∈ c'.peers) (hi : q.id = i) :
    q.resetTimeout = c.now + PEER_STALE_TIME := by
  obtain ⟨_, _, _, _, _, p, _, _, _, _, hpi, _, _, _, _, hr⟩ := (h.res hp he).decrypt hl (.inr hm)
  have hI' : Inv False nobody nobody nobody c' := Reach.inv (P := anyEvent) (fun s => s.elim) (.step h hp trivial he)
  cases hr with
  | dead q hv hq hc hr =>
    obtain ⟨ht, r, n, rfl⟩ := hr
    have := List.append_cancel_left hl
    rw [← this] at hm
    split at hm <;> simp at hm
  | reject hv ho hs l' hc hl' =>
    subst hc
    have := List.append_cancel_left hl
    subst this
    obtain ⟨_, _, hk⟩ := hl' _ hm
    cases hk
  | accept hv useOld ho data b o' k' hd hk q' hq' hsoft =>
    have hid : q'.id = p.id := by rw [hsoft]
    rw [sorted_inj hI'.ids hq hq' (by rw [hid, hpi, hi]), hsoft]

/-- The time-out of a connection starts with the last valid packet. -/
theorem LastHeard.reset {i : Nat} {t : Time} {c : Ctx} (h : LastHeard i t c) {p : Peer} (hp : p ∈ c.peers) (hi : p.id = i)
    (hd : p.isDynamic = false) (hs : p.state = .established) : p.resetTimeout = t + PEER_STALE_TIME := by
  induction h generalizing p with
  | heard hr hpos he hh =>
    rename_i e c c'
    obtain ⟨l, hl, hh⟩ := hh
    subst hi
    have key : (∃ k d, .accept p.id k d ∈ l) → p.resetTimeout = c.now + PEER_STALE_TIME := by
      rintro ⟨k, d, hm⟩
      exact accept_reset hr hpos he hl hm hp rfl
    rcases hh with hh | hh
    · rcases step_peer hr hpos he hl hp hs with ⟨h1, h2⟩ | ⟨p0, hp0, hpi, hpd, _, h3⟩
      · rw [hd] at h2; cases h2
      · rcases (h3 hd).2 hh with h4 | h4
        · exact key h4
        · exact h4
    · exact key hh
  | quiet hr hpos he hh ih =>
    subst hi
    obtain ⟨l, hl⟩ := step_log hr.reach he
    have hn : .established p.id ∉ l := fun hm => hh ⟨l, hl, .inl hm⟩
    have hn' : ¬ ∃ k d, .accept p.id k d ∈ l := fun hm => hh ⟨l, hl, .inr hm⟩
    rcases step_peer hr.reach hpos he hl hp hs with ⟨h1, h2⟩ | ⟨p0, hp0, hpi, hpd, h2, h3⟩
    · exact absurd h1 hn
    · rcases (h3 hd).1 with h4 | h4 | h4
      · rw [h4]
        refine ih hp0 hpi (hpd.trans hd) ?_
        rcases h2 with h2 | h2
        · exact h2
        · exact absurd h2 hn
      · exact absurd h4 hn
      · exact absurd h4 hn'

/-- A connected peer has been heard. -/
theorem lastHeard {c : Ctx} (h : Reach anyEvent c) {p : Peer} (hp : p ∈ c.peers) (hs : p.state = .established) :
    ∃ t, t ≤ c.now ∧ LastHeard p.id t c := by
  induction h generalizing p with
  | start h1 h2 h3 =>
    rename_i now seed useed k0 static dirs c
    have hi : Ids (initial now seed useed k0) := ⟨.nil, fun _ h => by cases h⟩
    have t : Tr Reloading _ c := pr_startup (E := Reloading) trivial (fun _ => trivial) id id _ _ _ hi h3
    obtain ⟨l, hl, hb⟩ := t.back
    rcases hb p hp with ⟨p0, hp0, _⟩ | ⟨_, b⟩
    · cases hp0
    · rcases b.est hs with h4 | h4
      · exact h4.elim
      · have hq : Lg (fun f => f.calm = true) (initial now seed useed k0) c :=
          wp_ok (S := False) (Q := fun (_ : Unit) c => Lg (fun f => f.calm = true) (initial now seed useed k0) c)
            (wp_startup h1 h2 fun c' _ h _ => h _ fun _ => Eff.calm_of_plain) h3
        cases hq.all hl _ h4
  | step hr hpos hP he ih =>
    rename_i e c c'
    by_cases hh : Heard p.id c c'
    · exact ⟨c.now, step_now hr he, .heard hr hpos he hh⟩
    · obtain ⟨l, hl⟩ := step_log hr he
      have hn : .established p.id ∉ l := fun hm => hh ⟨l, hl, .inl hm⟩
      rcases step_peer hr hpos he hl hp hs with ⟨h1, _⟩ | ⟨p0, hp0, hpi, _, h2, _⟩
      · exact absurd h1 hn
      · rcases h2 with h2 | h2
        · obtain ⟨t, ht, h3⟩ := ih hp0 h2
          rw [hpi] at h3
          exact ⟨t, Int.le_trans ht (step_now hr he), .quiet h3 hpos he hh⟩
        · exact absurd h2 hn

/-- The session of the peer can be used. -/
def Usable (c : Ctx) (p : Peer) : Prop :=
  ∃ m k o, p.sess.method = some m ∧ p.sess.mstate = some k ∧ c.objs k = some o ∧ Env.sessValid m o c.now = true

theorem usable_iff {c : Ctx} {p : Peer} : validNow c p.sess = true ↔ Usable c p := by
  unfold validNow Usable
  cases hm : p.sess.method with
  | none => simp
  | some m =>
    cases hk : p.sess.mstate with
    | none => simp
    | some k => cases ho : c.objs k <;> simp_all

/-- **C41**: a connected peer from which no valid packet arrived for `PEER_STALE_TIME` is disconnected when its task is handled. -/
theorem C41_stale_partial {c c' : Ctx} {i : Nat} {t : Time} (h : LastHeard i t c) (hp : (Event.task i).possible c)
    (he : handle (.task i) c = .ok ((), c')) {p : Peer} (hm : p ∈ c.peers) (hi : p.id = i) (hd : p.cfg ≠ .dynamic)
    (hs : p.state = .established) (ht : t + PEER_STALE_TIME ≤ c.now) : ∃ q ∈ c'.peers, q.id = i ∧ q.state ≠ .established := by
  have hd' : p.isDynamic = false := by simpa [Peer.isDynamic] using hd
  have hr := h.reset hm hi hd' hs
  have hI : Inv False nobody nobody nobody c := h.reach.inv fun s => s.elim
  obtain ⟨p', hm', hi', r, _⟩ := h.reach.res hp he
  obtain rfl := sorted_inj hI.ids hm hm' (hi.trans hi'.symm)
  cases r with
  | deleted _ hdyn => rw [hd'] at hdyn; cases hdyn
  | reset q _ _ hq hid hn => exact ⟨q, hq, hid.trans hi, hn⟩
  | handled c1 q1 q hlt => rw [hr] at hlt; omega

/-- **C41**: and not earlier, unless its session has become unusable. -/
theorem C41_fresh_partial {c c' : Ctx} {i : Nat} {t : Time} (h : LastHeard i t c) (hp : (Event.task i).possible c)
    (he : handle (.task i) c = .ok ((), c')) {p : Peer} (hm : p ∈ c.peers) (hi : p.id = i) (hd : p.cfg ≠ .dynamic)
    (hs : p.state = .established) (ht : c.now < t + PEER_STALE_TIME) (hu : Usable c p) :
    ∃ q ∈ c'.peers, q.id = i ∧ q.state = .established := by
  have hd' : p.isDynamic = false := by simpa [Peer.isDynamic] using hd
  have hr := h.reset hm hi hd' hs
  have hI : Inv False nobody nobody nobody c := h.reach.inv fun s => s.elim
  obtain ⟨p', hm', hi', r, _⟩ := h.reach.res hp he
  obtain rfl := sorted_inj hI.ids hm hm' (hi.trans hi'.symm)
  cases r with
  | deleted h1 hdyn => rw [hd'] at hdyn; cases hdyn
  | reset q h1 => rw [hr] at h1; omega
  | handled c1 q1 q _ _ hq hid hk _ _ _ _ hest =>
    refine ⟨q, hq, hid.trans hi, hest.2 ?_⟩
    cases hk with
    | soft h1 _ _ => rw [h1]; exact hs
    | dead _ _ hv _ => rw [show validNow c p.sess = true from usable_iff.2 hu] at hv; cases hv

/-- **C41**: the task of a connected peer is scheduled for this time or earlier. -/
theorem C41_scheduled_partial {c : Ctx} {i : Nat} {t : Time} (h : LastHeard i t c) {p : Peer} (hm : p ∈ c.peers) (hi : p.id = i)
    (hd : p.cfg ≠ .dynamic) (hs : p.state = .established) (hn : t + PEER_STALE_TIME < timeoutInv) :
    ∃ τ, p.task = some τ ∧ τ ≤ t + PEER_STALE_TIME := by
  have hr := h.reset hm hi (by simpa [Peer.isDynamic] using hd) hs
  have hI : Inv False nobody nobody nobody c := h.reach.inv fun s => s.elim
  have hdl : p.deadline ≤ p.resetTimeout := by
    unfold Peer.deadline timeoutMin
    split <;> omega
  obtain ⟨τ, h1, h2⟩ := hI.sched p hm id (by rw [hs]; intro h; cases h) (by omega)
  exact ⟨τ, h1, by omega⟩

end

/-! ### Examples -/

namespace Demo

def heardB [Env] (i : Nat) (c c' : Ctx) : Bool := (c'.log.drop c.log.length).any fun
  | .established j | .accept j _ _ => decide (j = i)
  | _ => false

theorem heard_of [Env] {i : Nat} {c c' : Ctx} {l : List Eff} (hl : c'.log = c.log ++ l) : Heard i c c' ↔ heardB i c c' = true := by
  have hd : c'.log.drop c.log.length = l := by rw [hl]; simp
  unfold heardB
  rw [hd, List.any_eq_true]
  constructor
  · rintro ⟨l', hl', h⟩
    have := List.append_cancel_left (hl.symm.trans hl')
    subst this
    rcases h with h | ⟨k, d, h⟩
    · exact ⟨_, h, by simp⟩
    · exact ⟨_, h, by simp⟩
  · rintro ⟨f, hf, h⟩
    refine ⟨l, hl, ?_⟩
    cases f with
    | established j => simp only [decide_eq_true_eq] at h; subst h; exact .inl hf
    | accept j k d => simp only [decide_eq_true_eq] at h; subst h; exact .inr ⟨k, d, hf⟩
    | _ => cases h

/-- Events, and when the last valid packet of the peer `i` arrived. -/
def listen [Env] (i : Nat) : List Event → Option Time → Ctx → Option (Option Time × Ctx)
  | [], t, c => some (t, c)
  | e :: es, t, c =>
    if possibleB c e then
      match handle e c with
      | .ok ((), c') => listen i es (if heardB i c c' then some c.now else t) c'
      | .error _ => none
    else none

theorem listen_ok [Env] {i : Nat} {es : List Event} {t t' : Option Time} {c c' : Ctx} (h : listen i es t c = some (t', c'))
    (hr : Reach anyEvent c) (ht : ∀ τ, t = some τ → LastHeard i τ c) :
    Reach anyEvent c' ∧ ∀ τ, t' = some τ → LastHeard i τ c' := by
  induction es generalizing t c with
  | nil => cases h; exact ⟨hr, ht⟩
  | cons e es ih =>
    unfold listen at h
    split at h
    · rename_i hp
      have hp' := possible_of hp
      cases he : handle e c with
      | error f => rw [he] at h; cases h
      | ok r =>
        obtain ⟨⟨⟩, c1⟩ := r
        rw [he] at h
        obtain ⟨l, hl⟩ := step_log hr he
        refine ih h (.step hr hp' trivial he) fun τ hτ => ?_
        split at hτ
        · rename_i hh
          cases hτ
          exact .heard hr hp' he ((heard_of hl).2 hh)
        · rename_i hh
          exact .quiet (ht τ hτ) hp' he fun h => hh ((heard_of hl).1 h)
    · cases h

/-- A property of the last event of a run, with the time of the last valid packet. -/
def heardStep [Env] (static : List PeerDef) (es : List Event) (i : Nat) (e : Event) (P : Time → Ctx → Ctx → Bool) : Bool :=
  match run static [] [] with
  | none => false
  | some c0 =>
    match listen i es none c0 with
    | some (some t, c) => possibleB c e && match handle e c with
      | .ok ((), c') => P t c c'
      | .error _ => false
    | _ => false

theorem heardStep_ok [Env] {static : List PeerDef} {es : List Event} {i : Nat} {e : Event} {P : Time → Ctx → Ctx → Bool}
    (h : heardStep static es i e P = true) :
    ∃ t c c', LastHeard i t c ∧ e.possible c ∧ handle e c = .ok ((), c') ∧ P t c c' = true := by
  unfold heardStep at h
  split at h
  · cases h
  · rename_i c0 hr
    split at h
    · rename_i t c hl
      rw [Bool.and_eq_true] at h
      obtain ⟨hp, h⟩ := h
      cases he : handle e c with
      | error f => rw [he] at h; cases h
      | ok r =>
        obtain ⟨⟨⟩, c'⟩ := r
        rw [he] at h
        exact ⟨t, c, c', (listen_ok hl (run_reach hr) (fun _ h => by cases h)).2 t rfl, possible_of hp, he, h⟩
    · cases h

def estB [Env] (i : Nat) (c : Ctx) : Bool := c.peers.any fun p => decide (p.id = i) && decide (p.state = .established)

section
local instance timersEnv : Env := env {}

/-- A packet arrives 30 seconds after the connection, at time 35000. 89999 ms later the peer is still connected, -/
example : ∃ t c c', LastHeard 0 t c ∧ (Event.task 0).possible c ∧ handle (.task 0) c = .ok ((), c') ∧
    (decide (t = 35000) && estB 0 c && decide (c.now = 124999) && estB 0 c') = true :=
  heardStep_ok (static := duo) (es := duoUp ++ [.tick 30000, .recv (.bound 0) (addrOf 1) (addrOf 2) (dataPkt 2 (frame 9 1)), .tick 89999])
    (by decide +kernel)

/-- and after one more ms it is not. -/
example : ∃ t c c', LastHeard 0 t c ∧ (Event.task 0).possible c ∧ handle (.task 0) c = .ok ((), c') ∧
    (decide (t = 35000) && estB 0 c && decide (c.now = 125000) && !estB 0 c') = true :=
  heardStep_ok (static := duo) (es := duoUp ++ [.tick 30000, .recv (.bound 0) (addrOf 1) (addrOf 2) (dataPkt 2 (frame 9 1)), .tick 90000])
    (by decide +kernel)

end

section
local instance timersEnvDyn : Env := env { onVerify := some true, tape := fun _ => 1 }

/-- For dynamic peers `C41_stale_partial` does not hold: a handshake that is not authenticated keeps the connection. -/
theorem C41_false : ¬ ∀ (c c' : Ctx) (i : Nat) (t : Time), LastHeard i t c → (Event.task i).possible c →
    handle (.task i) c = .ok ((), c') → ∀ p ∈ c.peers, p.id = i → p.state = .established → t + PEER_STALE_TIME ≤ c.now →
    ∃ q ∈ c'.peers, q.id = i ∧ q.state ≠ .established := by
  intro h
  obtain ⟨t, c, c', hl, hp, he, hb⟩ := heardStep_ok (static := []) (i := 0) (e := .task 0)
    (es := [.tick 5000, .recv (.bound 0) (addrOf 1) (addrOf 3) (hsPkt 1 3 1 60),
      .recv (.bound 0) (addrOf 1) (addrOf 3) (hsPkt 3 3 1 60), .tick 80000,
      .recv (.bound 0) (addrOf 1) (addrOf 9) ((hsPkt 1 3 1 60).dropLast ++ [0]), .tick 20000])
    (P := fun t c c' => decide (t + PEER_STALE_TIME ≤ c.now) && estB 0 c && c'.peers.all fun p => decide (p.state = .established))
    (by decide +kernel)
  simp only [Bool.and_eq_true, decide_eq_true_eq, List.all_eq_true, estB, List.any_eq_true] at hb
  obtain ⟨⟨ht, p, hp', hpi, hps⟩, ha⟩ := hb
  obtain ⟨q, hq, _, hn⟩ := h c c' 0 t hl hp he p hp' hpi hps ht
  exact hn (ha q hq)

end

end Demo

end Fastd.Daemon
