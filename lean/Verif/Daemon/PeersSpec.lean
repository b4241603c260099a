import Verif.Daemon.InvLemmas

/-!
# The functions of src/peer.c and the invariant: scheduling, reset, set-up, deletion
-/

namespace Fastd.Daemon

set_option linter.unusedSectionVars false

/-- Effects that are allowed everywhere. -/
def Eff.plain : Eff → Bool
  | .send .. | .disestablished _ => true
  | _ => false

def Eff.isHsInit : Eff → Bool
  | .hsInit .. => true
  | _ => false

theorem Eff.plain_sess {e : Eff} (h : e.plain = true) : e.sess = none := by
  cases e <;> simp_all [Eff.plain, Eff.sess]

variable [Env] {S : Prop} {x y z : Nat → Prop}

/-! ### Scheduling -/

theorem timeoutMin_le_left (a b : Time) : timeoutMin a b ≤ a := by unfold timeoutMin; split <;> omega
theorem timeoutMin_le_right (a b : Time) : timeoutMin a b ≤ b := by unfold timeoutMin; split <;> omega
theorem timeoutMin_eq (a b : Time) : timeoutMin a b = a ∨ timeoutMin a b = b := by unfold timeoutMin; split <;> simp

/-- What `schedule_peer_task` does to a peer. -/
def scheduled (p : Peer) : Peer :=
  if p.deadline = timeoutInv then { p with task := none }
  else if p.taskTimeout > p.deadline then { p with task := some p.deadline }
  else p

theorem scheduled_eq (p : Peer) : scheduled p = { p with task := (scheduled p).task } := by
  unfold scheduled
  split
  · rfl
  · split <;> rfl

theorem scheduled_sched (p : Peer) : Sched (scheduled p) := by
  intro _ hd
  have hdl : (scheduled p).deadline = p.deadline := by rw [scheduled_eq]; rfl
  rw [hdl] at hd ⊢
  unfold scheduled
  rw [if_neg (by omega)]
  split
  · exact ⟨_, rfl, Int.le_refl _⟩
  · rename_i hle
    unfold Peer.taskTimeout at hle
    cases ht : p.task with
    | none =>
      rw [ht] at hle
      simp only [Option.getD_none] at hle
      omega
    | some t =>
      rw [ht] at hle
      simp only [Option.getD_some] at hle
      exact ⟨t, rfl, by omega⟩

theorem deadline_le {p : Peer} : p.deadline ≤ p.resetTimeout ∧ p.deadline ≤ p.keepalive ∧ p.deadline ≤ p.nextHs := by
  unfold Peer.deadline
  have h1 := timeoutMin_le_left p.resetTimeout (timeoutMin p.keepalive p.nextHs)
  have h2 := timeoutMin_le_right p.resetTimeout (timeoutMin p.keepalive p.nextHs)
  have h3 := timeoutMin_le_left p.keepalive p.nextHs
  have h4 := timeoutMin_le_right p.keepalive p.nextHs
  omega

/-- The deadline is one of the three. -/
theorem deadline_eq (p : Peer) : p.deadline = p.resetTimeout ∨ p.deadline = p.keepalive ∨ p.deadline = p.nextHs := by
  unfold Peer.deadline
  rcases timeoutMin_eq p.resetTimeout (timeoutMin p.keepalive p.nextHs) with h | h
  · exact .inl h
  · rcases timeoutMin_eq p.keepalive p.nextHs with h' | h'
    · exact .inr (.inl (h.trans h'))
    · exact .inr (.inr (h.trans h'))

theorem deadline_mono {p q : Peer} (h1 : p.resetTimeout ≤ q.resetTimeout) (h2 : p.keepalive ≤ q.keepalive)
    (h3 : p.nextHs ≤ q.nextHs) : p.deadline ≤ q.deadline := by
  have := deadline_le (p := p)
  rcases deadline_eq q with h | h | h <;> omega

/-- Scheduling the task. -/
theorem wp_schedulePeerTask {z' : Nat → Prop} {c : Ctx} (h : Inv S x y z c) {p : Peer} (hp : p ∈ c.peers) {i : Nat}
    (hi : p.id = i) (hst : p.state ≠ .inactive) (hz : ∀ j, j ≠ i → z j → z' j)
    {Q : Unit → Ctx → Prop}
    (hQ : ∀ c', c' = { c with peers := updPeers c.peers i fun _ => scheduled p } → Inv S x y z' c' →
      scheduled p ∈ c'.peers → (∀ E, Fr (· = i) nobody E c c') → Q () c') :
    wp S (schedulePeerTask i) Q c := by
  have hk := h.peer p hp
  have hs := scheduled_eq p
  unfold schedulePeerTask
  refine wp_modP_core (f := scheduled) h hp hi ?_ (fun _ _ => id) (fun _ _ => id) hz ?_ ?_ ?_
    (fun _ => scheduled_sched p) hQ
  · rw [hs]
    exact ⟨rfl, rfl, rfl, rfl, Iff.rfl, rfl, rfl⟩
  · subst hi
    rw [hs]
    exact { hk with inact := fun h => absurd h hst }
  · subst hi
    rw [hs]
    exact fun hn => h.act p hp hn
  · rw [hs]
    exact h.timers p hp

theorem wp_scheduleHandshake {z' : Nat → Prop} {c : Ctx} (h : Inv S x y z c) {p : Peer} (hp : p ∈ c.peers) {i : Nat}
    (hi : p.id = i) (hst : p.state ≠ .inactive) (hz : ∀ j, j ≠ i → z j → z' j) {d : Time}
    (hs : S → p.remotes = [] → p.state = .established) {Q : Unit → Ctx → Prop}
    (hQ : ∀ c', c' = { c with peers := updPeers c.peers i fun _ => scheduled { p with nextHs := c.now + d } } →
      Inv S x y z' c' → scheduled { p with nextHs := c.now + d } ∈ c'.peers → (∀ E, Fr (· = i) nobody E c c') →
      Q () c') :
    wp S (scheduleHandshake i d) Q c := by
  have hk := h.peer p hp
  unfold scheduleHandshake setNextHandshake
  rw [wp_bind, wp_bind, wp_get]
  refine wp_modP_core (x' := x) (y' := y) (z' := fun j => z j ∨ j = i) h hp hi ?_ (fun _ _ => id) (fun _ _ => id)
    (fun _ _ => .inl) ?_ ?_ ?_ (fun hn => absurd (.inr rfl) hn) ?_
  · exact ⟨rfl, rfl, rfl, rfl, Iff.rfl, rfl, rfl⟩
  · subst hi
    exact { hk with hs := fun hS hr hne _ => absurd (hs hS hr) hne }
  · subst hi
    exact h.act p hp
  · exact h.timers p hp
  · intro c1 e1 h1 hp1 f1
    refine wp_schedulePeerTask (z' := z') h1 hp1 hi hst ?_ ?_
    · rintro j hj (h | h)
      · exact hz j hj h
      · exact absurd h hj
    · intro c2 e2 h2 hp2 f2
      refine hQ c2 ?_ h2 hp2 fun E => (f1 E).trans (f2 E)
      rw [e2, e1]
      simp only []
      rw [updPeers_updPeers]
      · rfl
      · intro q _ hq
        simp only []
        omega

/-- The delays drawn at random are at most 22.5 s. -/
theorem rand_le {a b : Time} (h : a < b) (n : Nat) : a + (n : Int) % (b - a) < b ∧ a ≤ a + (n : Int) % (b - a) := by
  have h1 := Int.emod_lt_of_pos (n : Int) (show (0 : Int) < b - a by omega)
  have h2 := Int.emod_nonneg (n : Int) (show (b - a : Int) ≠ 0 by omega)
  omega

theorem wp_handshakeDefaultRand {c : Ctx} {Q : Time → Ctx → Prop}
    (hQ : ∀ d : Time, d ≤ 22500 → 17500 ≤ d → Q d { c with pos := c.pos + 1 }) : wp S handshakeDefaultRand Q c := by
  unfold handshakeDefaultRand
  rw [wp_rand]
  have := rand_le (a := DEFAULT_HANDSHAKE_INTERVAL - DEFAULT_HANDSHAKE_JITTER)
    (b := DEFAULT_HANDSHAKE_INTERVAL + DEFAULT_HANDSHAKE_JITTER) (by decide) (Env.tape c.pos)
  refine hQ _ ?_ ?_
  · exact Int.le_of_lt this.1
  · exact this.2

/-! ### Explicit results: sockets -/

/-- Dynamic sockets without that of a peer. -/
def dropSock : Option Sock → List (Nat × Nat) → List (Nat × Nat)
  | some (.dyn n), l => l.filter (·.1 ≠ n)
  | _, l => l

theorem find_sock {ps : List Peer} {socks : List (Nat × Nat)} {next : Nat} (h : SocksOk ps socks next) {n i : Nat}
    (hm : (n, i) ∈ socks) : socks.find? (·.1 = n) = some (n, i) := by
  have hnd := h.nodup
  clear h
  induction socks with
  | nil => cases hm
  | cons s ss ih =>
    rw [List.map_cons, List.nodup_cons] at hnd
    rw [List.find?_cons]
    rcases List.mem_cons.1 hm with rfl | hm'
    · simp
    · have : s.1 ≠ n := by
        intro he
        exact hnd.1 (he ▸ List.mem_map.2 ⟨_, hm', rfl⟩)
      simp only [this, decide_false]
      exact ih hm' hnd.2

theorem updPeers_self {ps : List Peer} (hs : Sorted ps) {p : Peer} (hp : p ∈ ps) :
    (updPeers ps p.id fun _ => p) = ps := by
  unfold updPeers
  conv_rhs => rw [← List.map_id ps]
  refine List.map_congr_left fun q hq => ?_
  split
  · rename_i h
    rw [sorted_inj hs hq hp h]; rfl
  · rfl

theorem wp_freeSocket {c : Ctx} (hs : Sorted c.peers) (hk : SocksOk c.peers c.socks c.nextSock) {p : Peer}
    (hp : p ∈ c.peers) {Q : Unit → Ctx → Prop}
    (hQ : Q () { c with
      peers := updPeers c.peers p.id fun _ => { p with sock := none }
      socks := dropSock p.sock c.socks }) : wp S (freeSocket p.id) Q c := by
  unfold freeSocket
  rw [wp_bind, wp_getP hs hp]
  cases hsock : p.sock with
  | none =>
    simp only []
    rw [wp_pure]
    rw [hsock] at hQ
    have : ({ p with sock := none } : Peer) = p := by rw [← hsock]
    rw [this, updPeers_self hs hp] at hQ
    exact hQ
  | some s =>
    cases s with
    | bound k =>
      simp only []
      rw [wp_modP hs hp rfl, updPeers_const hs hp]
      rw [hsock] at hQ
      exact hQ
    | dyn n =>
      simp only []
      have hm := (hk.own p hp n).1 hsock
      rw [wp_bind]
      unfold sockPeer
      simp only []
      rw [wp_bind, wp_get, find_sock hk hm, wp_pure]
      rw [if_neg (by simp), wp_bind, wp_modify]
      refine (wp_modP (p := p) (by exact hs) (by exact hp) rfl).2 ?_
      rw [hsock] at hQ
      simp only [updPeers_const hs hp]
      exact hQ

theorem SocksOk.drop {ps : List Peer} {socks : List (Nat × Nat)} {next : Nat} (h : SocksOk ps socks next) {p q : Peer}
    (hp : p ∈ ps) (hid : q.id = p.id) (hq : ∀ n, q.sock ≠ some (.dyn n)) :
    SocksOk (updPeers ps p.id fun _ => q) (dropSock p.sock socks) next := by
  have hsub : ∀ s ∈ dropSock p.sock socks, s ∈ socks := by
    unfold dropSock
    split
    · intro s hs; exact (List.mem_filter.1 hs).1
    · exact fun _ => id
  have hno : ∀ n, (n, p.id) ∉ dropSock p.sock socks := by
    intro n hm
    have h1 := (h.own p hp n).2 (hsub _ hm)
    rw [h1] at hm
    simp [dropSock] at hm
  have hkeep : ∀ s ∈ socks, s.2 ≠ p.id → s ∈ dropSock p.sock socks := by
    intro s hs hne
    unfold dropSock
    split
    · rename_i n hn
      refine List.mem_filter.2 ⟨hs, ?_⟩
      simp only [ne_eq, decide_eq_true_eq]
      intro he
      have h1 := find_sock h ((h.own p hp n).1 hn)
      have h2 := find_sock h (n := n) (i := s.2) (by rw [← he]; exact hs)
      rw [h1] at h2
      simp only [Option.some.injEq, Prod.mk.injEq, true_and] at h2
      exact hne h2.symm
    · exact hs
  refine ⟨?_, fun s hs => h.lt s (hsub s hs), fun r hr n => ?_, fun s hs => ?_,
    fun he => List.eq_nil_iff_forall_not_mem.2 fun s hs => by simpa [h.none he] using hsub s hs⟩
  · unfold dropSock
    split
    · exact (List.Sublist.map _ List.filter_sublist).nodup h.nodup
    · exact h.nodup
  · rcases mem_upd hr with rfl | ⟨hr, hne⟩
    · rw [hid]
      constructor
      · exact fun he => absurd he (hq n)
      · exact fun he => absurd he (hno n)
    · rw [h.own r hr n]
      exact ⟨fun hm => hkeep _ hm hne, fun hm => hsub _ hm⟩
  · obtain ⟨r, hr, he⟩ := h.live s (hsub s hs)
    by_cases hi : r.id = p.id
    · exact ⟨q, mem_upd_self hp, by rw [hid, ← hi, he]⟩
    · exact ⟨r, mem_updPeers_other hr hi, he⟩

/-! ### Explicit results: sessions -/

/-- Method sessions without some. -/
def without (objs : Nat → Option Env.Sess) (l : List Nat) : Nat → Option Env.Sess :=
  fun k => if k ∈ l then none else objs k

theorem without_nil (objs : Nat → Option Env.Sess) : without objs [] = objs := by
  funext k; simp [without]

theorem without_without (objs : Nat → Option Env.Sess) (l l' : List Nat) :
    without (without objs l) l' = without objs (l ++ l') := by
  funext k
  simp only [without, List.mem_append]
  by_cases h1 : k ∈ l <;> by_cases h2 : k ∈ l' <;> simp [h1, h2]

theorem wp_freeState {c : Ctx} {o : Option Nat} (h : ∀ k, o = some k → (c.objs k).isSome = true)
    {Q : Unit → Ctx → Prop} (hQ : Q () { c with objs := without c.objs o.toList }) : wp S (freeState o) Q c := by
  cases o with
  | none =>
    unfold freeState
    rw [wp_pure]
    rw [Option.toList_none, without_nil] at hQ
    exact hQ
  | some k =>
    unfold freeState
    simp only []
    rw [wp_bind, wp_get]
    have := h k rfl
    cases hk : c.objs k with
    | none => rw [hk] at this; cases this
    | some o =>
      simp only []
      rw [wp_modify]
      have e : (fun j => if j = k then none else c.objs j) = without c.objs (some k).toList := by
        funext j
        simp [without]
      rw [e]
      exact hQ

theorem wp_freeSession {c : Ctx} {s : Session} (hm : s.mstate.isSome = true → s.method.isSome = true)
    (h : ∀ k, s.mstate = some k → (c.objs k).isSome = true)
    {Q : Unit → Ctx → Prop} (hQ : Q () { c with objs := without c.objs s.mstate.toList }) :
    wp S (freeSession s) Q c := by
  unfold freeSession
  cases hme : s.method with
  | none =>
    simp only []
    have : s.mstate = none := by
      cases hs : s.mstate with
      | none => rfl
      | some k => rw [hs, hme] at hm; simp at hm
    rw [wp_pure]
    rw [this, Option.toList_none, without_nil] at hQ
    exact hQ
  | some m =>
    simp only []
    exact wp_freeState h hQ

theorem mem_refs_of_mem {ps : List Peer} {p : Peer} (hp : p ∈ ps) {h : Nat} (hh : h ∈ p.refs) :
    h ∈ ps.flatMap Peer.refs := List.mem_flatMap.2 ⟨p, hp, hh⟩

theorem RefsOk.obj {ps : List Peer} {objs : Nat → Option Env.Sess} {n : Nat} (h : RefsOk ps objs n) {p : Peer}
    (hp : p ∈ ps) {k : Nat} (hk : k ∈ p.refs) : (objs k).isSome = true := (h.live k).2 (mem_refs_of_mem hp hk)

theorem nodup_refs {ps : List Peer} (h : (ps.flatMap Peer.refs).Nodup) {p : Peer} (hp : p ∈ ps) : p.refs.Nodup := by
  induction ps with
  | nil => cases hp
  | cons a as ih =>
    rw [List.flatMap_cons, List.nodup_append] at h
    rcases List.mem_cons.1 hp with rfl | hp'
    · exact h.1
    · exact ih h.2.1 hp'

theorem refs_disjoint {ps : List Peer} (hs : Sorted ps) (h : (ps.flatMap Peer.refs).Nodup) {p q : Peer} (hp : p ∈ ps)
    (hq : q ∈ ps) (hne : p.id ≠ q.id) {k : Nat} (hk : k ∈ p.refs) : k ∉ q.refs := by
  intro hk'
  induction ps with
  | nil => cases hp
  | cons a as ih =>
    have hs' := hs
    simp only [Sorted, List.map_cons, List.pairwise_cons] at hs'
    rw [List.flatMap_cons, List.nodup_append] at h
    rcases List.mem_cons.1 hp with rfl | hp' <;> rcases List.mem_cons.1 hq with rfl | hq'
    · exact hne rfl
    · exact h.2.2 k hk k (mem_refs_of_mem hq' hk') rfl
    · exact h.2.2 k hk' k (mem_refs_of_mem hp' hk) rfl
    · exact ih hs'.2 h.2.1 hp' hq'

theorem sorted_updPeers {ps : List Peer} (hs : Sorted ps) {i : Nat} {f : Peer → Peer}
    (hf : ∀ p ∈ ps, p.id = i → (f p).id = p.id) : Sorted (updPeers ps i f) := by
  unfold Sorted
  rw [updPeers_id hf]
  exact hs

theorem wp_resetPeerState {c : Ctx} (hs : Sorted c.peers) (hr : RefsOk c.peers c.objs c.nextObj) {p : Peer}
    (hp : p ∈ c.peers) (ho : p.old.mstate.isSome = true → p.old.method.isSome = true)
    (hse : p.sess.mstate.isSome = true → p.sess.method.isSome = true) {Q : Unit → Ctx → Prop}
    (hQ : Q () { c with
      peers := updPeers c.peers p.id fun _ => { p with old := {}, sess := {} }
      objs := without c.objs p.refs }) : wp S (resetPeerState p.id) Q c := by
  unfold resetPeerState
  rw [wp_bind, wp_getP hs hp, wp_bind]
  refine wp_freeSession ho ?_ ?_
  · intro k hk
    exact hr.obj hp (by simp [Peer.refs, hk])
  · rw [wp_bind, wp_modP (by exact hs) (by exact hp) rfl, wp_bind]
    have hs1 : Sorted (updPeers c.peers p.id fun p => { p with old := {} }) :=
      sorted_updPeers hs fun _ _ _ => rfl
    have hp1 : ({ p with old := {} } : Peer) ∈ updPeers c.peers p.id fun p => { p with old := {} } :=
      mem_updPeers_self hp
    refine (wp_getP' (p := { p with old := {} }) hs1 hp1 rfl).2 ?_
    rw [wp_bind]
    refine wp_freeSession hse ?_ ?_
    · intro k hk
      have hnd := nodup_refs hr.nodup hp
      have : k ∉ p.old.mstate.toList := by
        intro hm
        rw [Peer.refs, List.nodup_append] at hnd
        exact hnd.2.2 k hm k (by rw [hk]; simp) rfl
      simp only [without, this, if_false]
      exact hr.obj hp (by simp [Peer.refs, hk])
    · refine (wp_modP (p := { p with old := {} }) hs1 hp1 rfl).2 ?_
      simp only []
      rw [updPeers_updPeers (by intros; rfl), without_without, updPeers_const hs hp]
      exact hQ

theorem RefsOk.remove {ps : List Peer} {objs : Nat → Option Env.Sess} {n : Nat} (h : RefsOk ps objs n) (hs : Sorted ps)
    {p q : Peer} (hp : p ∈ ps) (hq : q.refs = []) :
    RefsOk (updPeers ps p.id fun _ => q) (without objs p.refs) n := by
  have hmem : ∀ k, k ∈ (updPeers ps p.id fun _ => q).flatMap Peer.refs ↔ k ∈ ps.flatMap Peer.refs ∧ k ∉ p.refs := by
    intro k
    rw [List.mem_flatMap, List.mem_flatMap]
    constructor
    · rintro ⟨r, hr, hk⟩
      rcases mem_upd hr with rfl | ⟨hr, hne⟩
      · rw [hq] at hk; cases hk
      · exact ⟨⟨r, hr, hk⟩, refs_disjoint hs h.nodup hr hp hne hk⟩
    · rintro ⟨⟨r, hr, hk⟩, hn⟩
      by_cases hi : r.id = p.id
      · rw [sorted_inj hs hr hp hi] at hk
        exact absurd hk hn
      · exact ⟨r, mem_updPeers_other hr hi, hk⟩
  refine ⟨?_, fun k => ?_, fun k hk => h.lt k ((hmem k).1 hk).1⟩
  · have hsub : (updPeers ps p.id fun _ => q).flatMap Peer.refs |>.Sublist (ps.flatMap Peer.refs) := by
      clear hmem h hs
      induction ps with
      | nil => exact List.Sublist.refl _
      | cons a as ih =>
        have ih' : ((updPeers as p.id fun _ => q).flatMap Peer.refs).Sublist (as.flatMap Peer.refs) := by
          by_cases hpa : p ∈ as
          · exact ih hpa
          · clear ih hpa hp
            induction as with
            | nil => exact List.Sublist.refl _
            | cons b bs ih =>
              simp only [updPeers, List.map_cons, List.flatMap_cons] at ih ⊢
              by_cases hb : b.id = p.id
              · simp only [hb, if_true, hq, List.nil_append]
                exact ih.trans (List.sublist_append_right _ _)
              · simp only [hb, if_false]
                exact List.Sublist.append (List.Sublist.refl _) ih
        simp only [updPeers, List.map_cons, List.flatMap_cons] at ih' ⊢
        by_cases hb : a.id = p.id
        · simp only [hb, if_true, hq, List.nil_append]
          exact ih'.trans (List.sublist_append_right _ _)
        · simp only [hb, if_false]
          exact List.Sublist.append (List.Sublist.refl _) ih'
    exact hsub.nodup h.nodup
  · rw [hmem k, ← h.live k]
    unfold without
    by_cases hk : k ∈ p.refs
    · simp [hk]
    · simp [hk]

end Fastd.Daemon
