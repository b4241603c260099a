import Verif.Daemon.History
import Verif.Daemon.Demo

/-!
# Properties of the peer table

* C18: peer lookup by address finds exactly the right peer
* C19: no two peers own the same remote address
* C22: no table entry outlives its peer
* C37: peer group connection limits are respected
* C38: results of background jobs reach only the peer they were started for
* C40: no peer timer is ever missed

All theorems are about the states reached from an arbitrary start by arbitrary sequences of events (`Reach anyEvent`), in an
arbitrary environment (`Env`).
-/

namespace Fastd.Daemon

set_option linter.unusedSectionVars false

section

variable [Env]

/-! ### C18 -/

theorem bind_noExit {α β : Type} {x : Fail} {m : M α} {f : α → M β} (hm : ∀ c, m c ≠ .error x) (hf : ∀ a c, f a c ≠ .error x) (c : Ctx) :
    (m >>= f) c ≠ .error x := by
  intro h
  have h' : M.bind m f c = .error x := h
  unfold M.bind at h'
  cases hc : m c with
  | error e => rw [hc] at h'; cases h'; exact hm c hc
  | ok r => obtain ⟨a, c1⟩ := r; rw [hc] at h'; exact hf a c1 h'

theorem getP_noExit {x : Fail} (hx : x = .exit ∨ x = .config) (i : Nat) (c : Ctx) : getP i c ≠ .error x := by
  unfold getP
  refine bind_noExit (fun c h => by cases h) (fun y c h => ?_) c
  cases hf : y.peers.find? (·.id = i) with
  | none => simp only [hf] at h; rcases hx with rfl | rfl <;> cases h
  | some q => simp only [hf] at h; cases h

theorem htScan_noExit {x : Fail} (hx : x = .exit ∨ x = .config) (a : Addr) (l : List Nat) (c : Ctx) : htScan a l c ≠ .error x := by
  induction l generalizing c with
  | nil => intro h; cases h
  | cons j l ih =>
    unfold htScan
    refine bind_noExit (getP_noExit hx j) (fun q c h => ?_) c
    split at h
    · cases h
    · exact ih c h

theorem htLookup_noExit {x : Fail} (hx : x = .exit ∨ x = .config) (a : Addr) (c : Ctx) : htLookup a c ≠ .error x := by
  unfold htLookup
  refine bind_noExit (fun c h => by cases h) (fun y c h => ?_) c
  cases hb : bucket y.ht.seed y.ht.buckets.length a with
  | none => simp only [hb] at h; rcases hx with rfl | rfl <;> cases h
  | some b => simp only [hb] at h; exact htScan_noExit hx _ _ _ h

/-- **C18**: a lookup does not change or break anything and returns a peer exactly if the peer has this address. -/
theorem C18_lookup {c : Ctx} (h : Reach anyEvent c) {a : Addr} (ha : a.isSet = true) :
    ∃ r, htLookup a c = .ok (r, c) ∧ ∀ i, r = some i ↔ ∃ p ∈ c.peers, p.id = i ∧ addrEq p.addr a = true := by
  have hI : Inv False nobody nobody nobody c := h.inv fun s => s.elim
  have hw := wp_htLookup (S := True) hI.ids hI.ht ha
  unfold wp at hw
  cases hr : htLookup a c with
  | error e =>
    rw [hr] at hw
    cases e with
    | bug => exact absurd trivial hw
    | mem => exact absurd trivial hw
    | fuel => exact hw.elim
    | exit => exact absurd hr (htLookup_noExit (.inl rfl) a c)
    | config => exact absurd hr (htLookup_noExit (.inr rfl) a c)
  | ok x =>
    obtain ⟨r, c'⟩ := x
    rw [hr] at hw
    obtain ⟨rfl, hw⟩ := hw
    refine ⟨r, rfl, fun i => ?_⟩
    rcases hw with ⟨p, hp, rfl, hpa⟩ | ⟨rfl, hn⟩
    · refine ⟨fun h => ⟨p, hp, by simpa using h, hpa⟩, ?_⟩
      rintro ⟨q, hq, hqi, hqa⟩
      have := hI.uniq p hp q hq (addrEq_set hpa ha) (addrEq_trans hpa (addrEq_symm hqa))
      rw [this, hqi]
    · refine ⟨fun h => (by cases h), ?_⟩
      rintro ⟨q, hq, _, hqa⟩
      rw [hn q hq] at hqa; cases hqa

/-! ### C19 -/

/-- **C19**: different peers have different addresses. -/
theorem C19_unique_address {c : Ctx} (h : Reach anyEvent c) {p q : Peer} (hp : p ∈ c.peers) (hq : q ∈ c.peers)
    (ha : p.addr.isSet = true) (he : addrEq p.addr q.addr = true) : p = q :=
  have hI : Inv False nobody nobody nobody c := h.inv fun s => s.elim
  hI.inj hp hq (hI.uniq p hp q hq ha he)

/-! ### C22 -/

/-- **C22**: the tables refer to existing peers only: the MAC table to established ones, the address table to those that have an
address. -/
theorem C22_no_dangling {c : Ctx} (h : Reach anyEvent c) :
    (∀ e ∈ c.eth, ∀ i, e.peer = some i → ∃ p ∈ c.peers, p.id = i ∧ p.state = .established) ∧
    ∀ b ∈ c.ht.buckets, ∀ i ∈ b, ∃ p ∈ c.peers, p.id = i ∧ p.addr.isSet = true := by
  have hI : Inv False nobody nobody nobody c := h.inv fun s => s.elim
  refine ⟨hI.eth.peer, fun b hb i hi => ?_⟩
  obtain ⟨k, hk⟩ := List.getElem?_of_mem hb
  obtain ⟨p, hp, hpi, _, hpa, _⟩ := (hI.ht.mem k b hk i).1 hi
  exact ⟨p, hp, hpi, hpa⟩

/-- **C22**: sockets of peers are not left behind either, and are not shared. -/
theorem C22_sockets {c : Ctx} (h : Reach anyEvent c) {n i : Nat} (hs : (n, i) ∈ c.socks) :
    ∃ p ∈ c.peers, p.id = i ∧ p.sock = some (.dyn n) ∧ ∀ q ∈ c.peers, q.sock = some (.dyn n) → q = p := by
  have hI : Inv False nobody nobody nobody c := h.inv fun s => s.elim
  obtain ⟨p, hp, hpi⟩ := hI.socks.live _ hs
  have hpi : p.id = i := hpi
  refine ⟨p, hp, hpi, (hI.socks.own p hp n).2 (by rw [hpi]; exact hs), fun q hq hqs => ?_⟩
  exact hI.inj hq hp ((hI.sockInj ((hI.socks.own q hq n).1 hqs) hs).trans hpi.symm)

/-! ### C37 -/

/-- **C37**: at most `max_connections` peers of a group and its subgroups are established. -/
theorem C37_group_limits {c : Ctx} (h : Reach anyEvent c) {g m : Nat} (hm : Env.maxConn g = some m) :
    (c.peers.filter fun p => decide (p.state = .established ∧ g ∈ Env.chain p.group)).length ≤ m := by
  have hI : Inv False nobody nobody nobody c := h.inv fun s => s.elim
  have := hI.limits g m hm
  unfold countEstablished at this
  convert this using 3
  simp [Peer.isEstablished, inGroup]

/-! ### C38 -/

/-- **C38**: the lookup by id finds exactly the peer with this id. -/
theorem C38_lookup {c : Ctx} (h : Reach anyEvent c) (i : Nat) (p : Peer) :
    findById c.peers i = some p ↔ p ∈ c.peers ∧ p.id = i := by
  have hI : Inv False nobody nobody nobody c := h.inv fun s => s.elim
  refine ⟨findById_some hI.ids, ?_⟩
  rintro ⟨hp, hi⟩
  cases hf : findById c.peers i with
  | some q =>
    obtain ⟨hq, hqi⟩ := findById_some hI.ids hf
    rw [hI.inj hq hp (hqi.trans hi.symm)]
  | none =>
    exfalso
    have hs := Data.sortedFor_nat (fun q : Peer => q.id) c.peers (List.pairwise_map.1 hI.ids) i
    unfold findById at hf
    cases hb : peerIndex c.peers i with
    | none =>
      have := Data.bsearch_none hs hb p hp
      exact this (Nat.compare_eq_eq.2 hi.symm)
    | some k =>
      obtain ⟨e, he, _⟩ := Data.bsearch_some hs hb
      rw [hb] at hf
      simp only [Option.bind_some] at hf
      rw [he] at hf; cases hf

theorem handle_back {c c' : Ctx} {e : Event} (hi : Ids c) (he : handle e c = .ok ((), c')) :
    Ids c' ∧ c.nextId ≤ c'.nextId ∧ ∀ p' ∈ c'.peers, (∃ p ∈ c.peers, p'.id = p.id ∧ p'.key = p.key ∧ p'.isDynamic = p.isDynamic) ∨
      c.nextId ≤ p'.id := by
  have tr : ∀ {E}, Tr E c c' → Ids c' ∧ c.nextId ≤ c'.nextId ∧
      ∀ p' ∈ c'.peers, (∃ p ∈ c.peers, p'.id = p.id ∧ p'.key = p.key ∧ p'.isDynamic = p.isDynamic) ∨ c.nextId ≤ p'.id := by
    intro E t
    obtain ⟨l, _, hb⟩ := t.back
    refine ⟨t.ids, t.nextId, fun p' hp' => ?_⟩
    rcases hb p' hp' with ⟨p, hp, r⟩ | ⟨h, _⟩
    · exact .inl ⟨p, hp, r.id, r.key, r.dyn⟩
    · exact .inr h
  by_cases hr : e.isReload = true
  · cases e <;> first | (cases hr; done) | skip
    exact tr (pr_loadPeerDirs (E := Reloading) trivial (fun _ => trivial) id id _ _ _ hi he)
  · by_cases ht : e.isTick = true
    · cases e <;> first | (cases ht; done) | skip
      cases he
      exact ⟨⟨hi.sorted, hi.lt⟩, Nat.le_refl _, fun p hp => .inl ⟨p, hp, rfl, rfl, rfl⟩⟩
    · exact tr (pr_handle (by simpa using hr) (by simpa using ht) _ _ _ hi he)

/-- **C38**: an id always means the same peer. In particular, an id that is not in use any more is not used again. -/
theorem C38_never_reused {c c' : Ctx} (h : Reach anyEvent c) (hs : Steps anyEvent c c') {p' : Peer} (hp' : p' ∈ c'.peers)
    (hlt : p'.id < c.nextId) : ∃ p ∈ c.peers, p.id = p'.id ∧ p.key = p'.key ∧ p.isDynamic = p'.isDynamic := by
  have h0 : Inv False nobody nobody nobody c := h.inv fun s => s.elim
  have key : Ids c' ∧ c.nextId ≤ c'.nextId ∧
      ∀ p' ∈ c'.peers, (∃ p ∈ c.peers, p'.id = p.id ∧ p'.key = p.key ∧ p'.isDynamic = p.isDynamic) ∨ c.nextId ≤ p'.id := by
    clear hp' hlt p'
    induction hs with
    | refl => exact ⟨h0.idsOk, Nat.le_refl _, fun p hp => .inl ⟨p, hp, rfl, rfl, rfl⟩⟩
    | step _ hp hP he ih =>
      obtain ⟨i1, i2, i3⟩ := ih
      obtain ⟨j1, j2, j3⟩ := handle_back i1 he
      refine ⟨j1, Nat.le_trans i2 j2, fun p' hp' => ?_⟩
      rcases j3 p' hp' with ⟨q, hq, e1, e2, e3⟩ | hn
      · rcases i3 q hq with ⟨p, hp, f1, f2, f3⟩ | hn
        · exact .inl ⟨p, hp, e1.trans f1, e2.trans f2, e3.trans f3⟩
        · exact .inr (by rw [e1]; exact hn)
      · exact .inr (Nat.le_trans i2 hn)
  rcases key.2.2 p' hp' with ⟨p, hp, e1, e2, e3⟩ | hn
  · exact ⟨p, hp, e1.symm, e2.symm, e3.symm⟩
  · exact absurd hlt (Nat.not_lt.2 hn)

/-- **C38**: ids of peers are below `nextId`, so the previous theorem applies to all of them. -/
theorem C38_ids {c : Ctx} (h : Reach anyEvent c) : (c.peers.map (·.id)).Nodup ∧ ∀ p ∈ c.peers, p.id < c.nextId := by
  have hI : Inv False nobody nobody nobody c := h.inv fun s => s.elim
  exact ⟨hI.ids.imp fun h => Nat.ne_of_lt h, hI.idlt⟩

theorem Fr.others {i : Nat} {E : Eff → Prop} {c c' : Ctx} (h : Fr (· = i) nobody E c c') :
    c'.peers.map (·.id) = c.peers.map (·.id) ∧ (∀ p ∈ c.peers, p.id ≠ i → p ∈ c'.peers) ∧
      ((∀ p ∈ c.peers, p.id ≠ i) → c'.peers = c.peers) := by
  refine ⟨h.idsEq, fun p hp hne => ?_, fun hall => ?_⟩
  · obtain ⟨p', hp', hr⟩ := forall₂_mem h.peers hp
    rw [← hr.same hne]; exact hp'
  · have := h.peers
    revert hall this
    generalize c.peers = a
    generalize c'.peers = b
    intro hall hf
    induction hf with
    | nil => rfl
    | cons hr _ ih =>
      rw [hr.same (hall _ List.mem_cons_self), ih fun p hp => hall p (List.mem_cons_of_mem _ hp)]

/-- **C38**: the result of a DNS request concerns only the peer with the id it was started for; if it does not exist any more,
no peer changes. -/
theorem C38_resolved {c c' : Ctx} (h : Reach anyEvent c) {k : Nat} {addrs : List Addr} (hp : (Event.resolved k addrs).possible c)
    (he : handle (.resolved k addrs) c = .ok ((), c')) :
    ∃ i r, c.resolves[k]? = some (i, r) ∧ c'.peers.map (·.id) = c.peers.map (·.id) ∧ (∀ p ∈ c.peers, p.id ≠ i → p ∈ c'.peers) ∧
      ((∀ p ∈ c.peers, p.id ≠ i) → c'.peers = c.peers) := by
  obtain ⟨⟨i, r⟩, hr, hf⟩ := h.res hp he
  exact ⟨i, r, hr, (hf fun _ => True).others⟩

/-- **C38**: the same for verifications. -/
theorem C38_verified {c c' : Ctx} (h : Reach anyEvent c) {k : Nat} {ok : Bool} (hp : (Event.verified k ok).possible c)
    (he : handle (.verified k ok) c = .ok ((), c')) :
    ∃ v, c.verifs[k]? = some v ∧ c'.peers.map (·.id) = c.peers.map (·.id) ∧ (∀ p ∈ c.peers, p.id ≠ v.peer → p ∈ c'.peers) ∧
      ((∀ p ∈ c.peers, p.id ≠ v.peer) → c'.peers = c.peers) := by
  obtain ⟨v, hv, hf⟩ := h.res hp he
  exact ⟨v, hv, (hf (fun _ => True) fun _ _ => trivial).others⟩

/-! ### C40 -/

/-- **C40**: no deadline of an active peer is before the time its task is scheduled. -/
theorem C40_no_timer_missed {c : Ctx} (h : Reach anyEvent c) {p : Peer} (hp : p ∈ c.peers) (ha : p.state ≠ .inactive)
    {d : Time} (hd : d = p.resetTimeout ∨ d = p.keepalive ∨ d = p.nextHs) (hlt : d < timeoutInv) :
    ∃ t, p.task = some t ∧ t ≤ d := by
  have hI : Inv False nobody nobody nobody c := h.inv fun s => s.elim
  have hs := hI.sched p hp id ha
  have hle : p.deadline ≤ d := by
    unfold Peer.deadline timeoutMin
    rcases hd with rfl | rfl | rfl <;> (repeat' split) <;> omega
  obtain ⟨t, ht, hle'⟩ := hs (by omega)
  exact ⟨t, ht, by omega⟩

end

/-! ### Examples -/

namespace Demo

section
local instance : Env := env {}

/-- Both peers are found by their addresses (C18, C19), unknown addresses are not. -/
example : ∃ c, Reach anyEvent c ∧ (decide (c.peers.map (·.state) = [.established, .established]) &&
    ([addrOf 2, addrOf 3, addrOf 4].map fun a => match htLookup a c with
      | .ok (r, _) => r
      | .error _ => none) == [some 0, some 1, none]) = true :=
  after_reach (static := duo) (dirs := []) (es := duoUp) (by decide +kernel)

/-- The tables have entries (C22): two addresses, two learned MAC addresses; all deadlines are covered (C40). -/
example : ∃ c, Reach anyEvent c ∧ (decide (c.ht.buckets.flatten.length = 2) && decide (c.eth.map (·.peer) = [some 0, some 1]) &&
    c.peers.all (fun p => p.task.any (· ≤ p.deadline) && decide (p.deadline < timeoutInv))) = true :=
  after_reach (static := duo) (dirs := []) (es := duoUp ++ [.recv (.bound 0) (addrOf 1) (addrOf 2) (dataPkt 2 (frame 9 1)),
    .recv (.bound 0) (addrOf 1) (addrOf 3) (dataPkt 3 (frame 9 2))]) (by decide +kernel)

/-- After the first peer has timed out, nothing refers to it any more (C22). -/
example : ∃ c, Reach anyEvent c ∧ (decide (c.ht.buckets.flatten = [1]) && decide (c.eth.map (·.peer) = [some 1])) = true :=
  after_reach (static := duo) (dirs := []) (es := duoUp ++ [.recv (.bound 0) (addrOf 1) (addrOf 2) (dataPkt 2 (frame 9 1)),
    .recv (.bound 0) (addrOf 1) (addrOf 3) (dataPkt 3 (frame 9 2)), .tick 90000, .task 0]) (by decide +kernel)

end

section
local instance : Env := env { tape := (· + 1) }

/-- A DNS request is running for a peer that has a remote with a hostname; it is deleted and another one is added, which gets a
new id (C38). -/
example : ∃ c, Reach anyEvent c ∧ (decide (c.resolves = [(0, 0)]) && decide (c.peers.map (·.id) = [1])) = true :=
  after_reach (static := []) (dirs := [{ peer 2 [] with remotes := [{ hostname := some [97], address := .unspec 10 }] }])
    (es := [.tick 5000, .reload [peer 3 []]]) (by decide +kernel)

/-- Then the result arrives. -/
example : ∃ c, Reach anyEvent c ∧ (decide (c.resolves = []) && c.peers.all (fun p => p.remotes.isEmpty)) = true :=
  after_reach (static := []) (dirs := [{ peer 2 [] with remotes := [{ hostname := some [97], address := .unspec 10 }] }])
    (es := [.tick 5000, .reload [peer 3 []], .resolved 0 [addrOf 9]]) (by decide +kernel)

end

section
local instance : Env := env { maxConn := fun g => if g = 0 then some 1 else none }

/-- With a limit of one connection the second peer is not established (C37). -/
example : ∃ c, Reach anyEvent c ∧ decide (c.peers.map (·.state) = [.established, .passive]) = true :=
  after_reach (static := duo) (dirs := []) (es := [.tick 5000, .task 0,
    .recv (.bound 0) (addrOf 1) (addrOf 2) (hsPkt 2 2 2 50), .recv (.bound 0) (addrOf 1) (addrOf 3) (hsPkt 3 3 2 60)])
    (by decide +kernel)

end

section
local instance : Env := env { maxConn := fun g => if g = 0 then some 2 else none }

/-- With a limit of two it is. -/
example : ∃ c, Reach anyEvent c ∧ decide (c.peers.map (·.state) = [.established, .established]) = true :=
  after_reach (static := duo) (dirs := []) (es := [.tick 5000, .task 0,
    .recv (.bound 0) (addrOf 1) (addrOf 2) (hsPkt 2 2 2 50), .recv (.bound 0) (addrOf 1) (addrOf 3) (hsPkt 3 3 2 60)])
    (by decide +kernel)

end

end Demo

end Fastd.Daemon
