import Verif.Daemon.Trail
import Verif.Props.Forward

/-!
# The MAC table, and the life of sessions

* C21: the MAC table is a map from addresses to the peers that have used them last
* C35: a session is freed only once

For all states reached from an arbitrary start by arbitrary events, in an arbitrary environment.
-/

namespace Fastd.Daemon

set_option linter.unusedSectionVars false

section

variable [Env]

/-! ### C21 -/

/-- The event `ev` with the effects `l` at time `now` shows an address: in TAP mode, a frame from the shared interface, or from a peer if it is
written to the interface, whose source address (bytes 6-11) is not that of a group. It is to be remembered for 5 minutes. -/
structure Shows (ev : Event) (l : List Eff) (now : Time) (e : Eth) : Prop where
  tap : Env.mode = .tap
  stamp : e.timeout = now + 300000
  frame : ∃ data : Bytes, 14 ≤ data.length ∧ e.addr = (data.drop 6).take 6 ∧ ¬ IsGroup e.addr ∧
    ((e.peer = none ∧ ev = .iface none data) ∨ ∃ j, e.peer = some j ∧ .write j data ∈ l)

theorem learnt_iff {now : Time} {o : Option Nat} {d : Bytes} {e : Eth} : learnt now o d = some e ↔
    Env.mode = .tap ∧ 14 ≤ d.length ∧ ¬ IsGroup e.addr ∧ e.addr = (d.drop 6).take 6 ∧ e.peer = o ∧ e.timeout = now + 300000 := by
  unfold learnt
  have hg : isUnicast (sourceMac d) = true ↔ ¬ IsGroup (sourceMac d) := by rw [← isUnicast_iff]; simp
  split
  · rename_i h
    rw [Option.some.injEq]
    constructor
    · rintro rfl
      exact ⟨h.1, h.2.1, hg.1 h.2.2, rfl, rfl, rfl⟩
    · rintro ⟨_, _, _, h1, h2, h3⟩
      obtain ⟨a, b, t⟩ := e
      simp only [] at h1 h2 h3
      rw [h1, h2, h3]
      rfl
  · rename_i h
    constructor
    · intro h'; cases h'
    · rintro ⟨h1, h2, h3, h4, _⟩
      exact absurd ⟨h1, h2, hg.2 (by unfold sourceMac; rw [← h4]; exact h3)⟩ h

/-- **C21**: the table is empty at the beginning. -/
theorem C21_start {now : Time} {seed useed : UInt32} {k0 : Nat} {static dirs : List PeerDef} {c : Ctx}
    (h : startup static dirs (initial now seed useed k0) = .ok ((), c)) : c.eth = [] := by
  have hb : Base (initial now seed useed k0) :=
    ⟨⟨List.Pairwise.nil, fun p hp => by cases hp⟩, List.Pairwise.nil, fun e he => by cases he⟩
  obtain ⟨l, _, _, _, he⟩ := ((tp_startup (D := True) trivial).none hb h).eth
  rw [List.eq_nil_iff_forall_not_mem]
  intro e hm
  have := ((he e).1 hm).1
  rw [known_none] at this
  cases this

/-- **C21**: what every event does to the table. An entry is in the table afterwards if and only if the event has shown it, or it was there before
and the event has not shown its address; but entries of peers that have been disconnected are dropped, and those that are 5 minutes old are
dropped by the maintenance. -/
theorem C21_step {ev : Event} {c c' : Ctx} (h : Reach anyEvent c) (he : handle ev c = .ok ((), c')) {l : List Eff}
    (hl : c'.log = c.log ++ l) (e : Eth) :
    e ∈ c'.eth ↔ (Shows ev l c.now e ∨ e ∈ c.eth ∧ ∀ e', Shows ev l c.now e' → e'.addr ≠ e.addr) ∧
      (∀ i, e.peer = some i → .disestablished i ∉ l) ∧ (ev = .maintenance → c.now < e.timeout) := by
  have hI : Inv False nobody nobody nobody c := h.inv fun s => s.elim
  have hb : Base c := hI.base
  -- from the specification in terms of the code
  have key : ∀ {V X}, Tl True V X c c' → ev ≠ .maintenance → (∀ e, Shows ev l c.now e ↔ X = some e) →
      (e ∈ c'.eth ↔ (Shows ev l c.now e ∨ e ∈ c.eth ∧ ∀ e', Shows ev l c.now e' → e'.addr ≠ e.addr) ∧
      (∀ i, e.peer = some i → .disestablished i ∉ l) ∧ (ev = .maintenance → c.now < e.timeout)) := by
    intro V X t hm hs
    obtain ⟨l', hl', _, _, hx⟩ := t.eth
    have : l' = l := List.append_cancel_left (hl'.symm.trans hl)
    subst this
    rw [hx e]
    unfold Known
    simp only [hs]
    constructor
    · rintro ⟨h1 | ⟨h1, h2⟩, h3⟩
      · exact ⟨.inl h1, h3, fun h => absurd h hm⟩
      · exact ⟨.inr ⟨h1, fun e' he' h => h2 e' he' h.symm⟩, h3, fun h => absurd h hm⟩
    · rintro ⟨h1 | ⟨h1, h2⟩, h3, _⟩
      · exact ⟨.inl h1, h3⟩
      · exact ⟨.inr ⟨h1, fun e' he' h => h2 e' he' h.symm⟩, h3⟩
  have quiet : ∀ {X}, Tl True none X c c' → ∀ j d, .write j d ∉ l := by
    intro X t j d hw
    obtain ⟨l', hl', _, hx, _⟩ := t.eth
    have : l' = l := List.append_cancel_left (hl'.symm.trans hl)
    subst this
    have := (hx j d).1 hw
    cases this
  have other : (∀ d, ev ≠ .iface none d) → Tl True none none c c' → ∀ e, Shows ev l c.now e ↔ none = some e := by
    intro hi t e
    constructor
    · rintro ⟨_, _, d, _, _, _, ⟨_, h1⟩ | ⟨j, _, h1⟩⟩
      · exact absurd h1 (hi d)
      · exact absurd h1 (quiet t j d)
    · intro h; cases h
  have silent : ∀ {l0}, c'.log = c.log ++ l0 → l0 = l := fun hl0 => List.append_cancel_left (hl0.symm.trans hl)
  cases ev with
  | tick d =>
    cases he
    obtain rfl : [] = l := silent (by simp)
    constructor
    · intro hm
      refine ⟨.inr ⟨hm, ?_⟩, by simp, fun h => by cases h⟩
      rintro e' ⟨_, _, d, _, _, _, ⟨_, h1⟩ | ⟨j, _, h1⟩⟩
      · cases h1
      · cases h1
    · rintro ⟨⟨_, _, d, _, _, _, ⟨_, h1⟩ | ⟨j, _, h1⟩⟩ | h1, _⟩
      · cases h1
      · cases h1
      · exact h1.1
  | maintenance =>
    obtain ⟨_, c1, h1, h2⟩ := bind_ok he
    cases h1; cases h2
    obtain rfl : [] = l := silent (by simp)
    simp only [ethCompact_eq, List.mem_filter]
    have ht : (!timedOut e.timeout c.now) = true ↔ c.now < e.timeout := by unfold timedOut; simp
    rw [ht]
    constructor
    · rintro ⟨hm, h3⟩
      refine ⟨.inr ⟨hm, ?_⟩, by simp, fun _ => h3⟩
      rintro e' ⟨_, _, d, _, _, _, ⟨_, h1⟩ | ⟨j, _, h1⟩⟩
      · cases h1
      · cases h1
    · rintro ⟨⟨_, _, d, _, _, _, ⟨_, h1⟩ | ⟨j, _, h1⟩⟩ | h1, _, h3⟩
      · cases h1
      · cases h1
      · exact ⟨h1.1, h3 trivial⟩
  | recv s la ra d =>
    obtain ⟨V, hV, t⟩ := tl_socketReceive hb he
    refine key t (by simp) fun e => ?_
    obtain ⟨l', hl', _, hw, _⟩ := t.eth
    obtain rfl := silent hl'
    cases V with
    | none =>
      simp only [Option.bind_none]
      exact other (by simp) t e
    | some x =>
      obtain ⟨j, data⟩ := x
      simp only [Option.bind_some]
      rw [learnt_iff]
      constructor
      · rintro ⟨h1, h2, d, h3, h4, h5, ⟨_, h6⟩ | ⟨j', h6, h7⟩⟩
        · cases h6
        · have := (hw j' d).1 h7
          cases this
          exact ⟨h1, h3, h5, h4, h6, h2⟩
      · rintro ⟨h1, h2, h3, h4, h5, h6⟩
        exact ⟨h1, h6, data, h2, h4, h3, .inr ⟨j, h5, (hw j data).2 rfl⟩⟩
  | iface o d =>
    cases o with
    | some i =>
      have t := tl_other hb rfl (by simp) (by simp) (by simp) he
      exact key t (by simp) (other (by simp) t)
    | none =>
      have t := tl_ifaceShared hb he
      refine key t (by simp) fun e => ?_
      rw [learnt_iff]
      constructor
      · rintro ⟨h1, h2, d', h3, h4, h5, ⟨h6, h7⟩ | ⟨j', h6, h7⟩⟩
        · cases h7
          exact ⟨h1, h3, h5, h4, h6, h2⟩
        · exact absurd h7 (quiet t _ _)
      · rintro ⟨h1, h2, h3, h4, h5, h6⟩
        exact ⟨h1, h6, d, h2, h4, h3, .inl ⟨h5, rfl⟩⟩
  | _ =>
    have t := tl_other hb rfl (by simp) (by simp) (by simp) he
    exact key t (by simp) (other (by simp) t)

/-- **C21**: `fastd_peer_find_by_eth_addr` returns the peer of the entry with this address (`none`: the interface), and there is only one. -/
theorem C21_lookup {c : Ctx} (h : Reach anyEvent c) (a : Bytes) :
    (∀ o, ethFind c.eth a = some o ↔ ∃ e ∈ c.eth, e.addr = a ∧ e.peer = o) ∧
      ∀ e ∈ c.eth, ∀ e' ∈ c.eth, e.addr = e'.addr → e = e' := by
  have hI : Inv False nobody nobody nobody c := h.inv fun s => s.elim
  have hs := hI.eth.sorted
  refine ⟨fun o => ?_, fun e he e' he' => ethSorted_inj hs he he'⟩
  rw [ethFind_spec hs, Option.map_eq_some_iff]
  constructor
  · rintro ⟨e, h1, h2⟩
    rw [ethEntry_some hs] at h1
    exact ⟨e, h1.1, h1.2, h2⟩
  · rintro ⟨e, h1, h2, h3⟩
    exact ⟨e, (ethEntry_some hs).2 ⟨h1, h2⟩, h3⟩

/-- **C21**: all peers in the table are connected. -/
theorem C21_connected {c : Ctx} (h : Reach anyEvent c) {e : Eth} (he : e ∈ c.eth) {i : Nat} (hi : e.peer = some i) :
    ∃ p ∈ c.peers, p.id = i ∧ p.state = .established :=
  (h.inv fun s => s.elim : Inv False nobody nobody nobody c).eth.peer e he i hi

/-! ### C35 -/

/-- **C35**: a session that has been freed stays so, whatever happens afterwards: it is freed only once, and memory is not used again. -/
theorem C35_once {c c' : Ctx} (h : Reach anyEvent c) (hs : Steps anyEvent c c') {k : Nat} {p : Peer} (hp : p ∈ c.peers) (ho : Owns p k)
    {c'' : Ctx} (hs' : Steps anyEvent c' c'') (hf : c'.objs k = none) : c''.objs k = none ∧ ∀ q ∈ c''.peers, ¬ Owns q k := by
  have lt : k < c'.nextObj := by
    have h0 : k < c.nextObj := by
      have hI : Inv False nobody nobody nobody c := h.inv fun s => s.elim
      exact hI.refs.lt k (List.mem_flatMap.2 ⟨p, hp, owns_iff_refs.1 ho⟩)
    clear hf hs'
    induction hs with
    | refl => exact h0
    | step hs hp hP he ih =>
      have hI : Inv False nobody nobody nobody _ := (h.steps hs).inv fun s => s.elim
      exact Nat.lt_of_lt_of_le ih (tc_handle hI.base he).1
  have hr := h.steps hs
  have hd : c''.objs k = none := by
    have : k < c''.nextObj ∧ c''.objs k = none := by
      induction hs' with
      | refl => exact ⟨lt, hf⟩
      | step hs _ hP he ih =>
        have hI : Inv False nobody nobody nobody _ := (hr.steps hs).inv fun s => s.elim
        obtain ⟨h1, h2, _⟩ := tc_handle hI.base he
        exact ⟨Nat.lt_of_lt_of_le ih.1 h1, h2 k ih.1 ih.2⟩
    exact this.2
  refine ⟨hd, fun q hq hoq => ?_⟩
  have := (C35_live (hr.steps hs') k).2 ⟨q, hq, hoq⟩
  rw [hd] at this
  cases this

/-- **C35**: a session never moves from one peer to another. -/
theorem C35_same {c c' : Ctx} (h : Reach anyEvent c) (hs : Steps anyEvent c c') {k : Nat} {p q : Peer} (hp : p ∈ c.peers) (ho : Owns p k)
    (hq : q ∈ c'.peers) (ho' : Owns q k) : q.id = p.id := by
  have h0 : k < c.nextObj := by
    have hI : Inv False nobody nobody nobody c := h.inv fun s => s.elim
    exact hI.refs.lt k (List.mem_flatMap.2 ⟨p, hp, owns_iff_refs.1 ho⟩)
  have : k < c'.nextObj ∧ ∀ q ∈ c'.peers, Owns q k → q.id = p.id := by
    clear hq ho'
    induction hs with
    | refl =>
      exact ⟨h0, fun q hq ho' => by rw [(C35_owner h hp hq ho ho').1]⟩
    | step hs _ hP he ih =>
      have hI : Inv False nobody nobody nobody _ := (h.steps hs).inv fun s => s.elim
      obtain ⟨h1, _, h3⟩ := tc_handle hI.base he
      refine ⟨Nat.lt_of_lt_of_le ih.1 h1, fun q hq ho' => ?_⟩
      obtain ⟨p', hp', hpi, hk⟩ := h3 q hq k (owns_iff_refs.1 ho') ih.1
      rw [← hpi]
      exact ih.2 p' hp' (owns_iff_refs.2 hk)
  exact this.2 q hq ho'

end

namespace Demo

section

local instance macEnv : Env := env {}

/-- The table, without the times. -/
def table (c : Ctx) : List (Bytes × Option Nat) := c.eth.map fun e => (e.addr, e.peer)

/-- Addresses are learnt from both directions, -/
def learning : List Event := duoUp ++ [.recv (.bound 0) (addrOf 1) (addrOf 3) (dataPkt 3 (frame 1 9)), .iface none (frame 9 1)]

example : after duo [] learning (fun c => decide (table c = [([2, 0, 0, 0, 0, 1], none), ([2, 0, 0, 0, 0, 9], some 1)])) = true := by
  decide +kernel

/-- move from one peer to another, -/
example : after duo [] (learning ++ [.recv (.bound 0) (addrOf 1) (addrOf 2) (dataPkt 2 (frame 1 9))])
    (fun c => decide (table c = [([2, 0, 0, 0, 0, 1], none), ([2, 0, 0, 0, 0, 9], some 0)])) = true := by
  decide +kernel

/-- are still there after almost 5 minutes, -/
example : after duo [] (learning ++ [.tick 299999, .maintenance]) (fun c => decide ((table c).length = 2)) = true := by
  decide +kernel

/-- but not longer, -/
example : after duo [] (learning ++ [.tick 299999, .maintenance, .tick 1, .maintenance]) (fun c => decide (table c = [])) = true := by
  decide +kernel

/-- and those of a peer disappear with its connection, as does its session, which is freed. -/
example : afterStep duo [] learning (.resetAll) (fun c c' => decide (table c' = [([2, 0, 0, 0, 0, 1], none)] ∧
    c.peers.map (fun p => p.sess.mstate) = [some 0, some 1] ∧ (c.objs 1).isSome ∧ c'.objs 1 = none ∧
      c'.peers.map (fun p => p.sess.mstate) = [none, none])) = true := by
  decide +kernel

end

end Demo

end Fastd.Daemon
