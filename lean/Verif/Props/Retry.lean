import Verif.Props.Timers
import Verif.Props.Abort
import Verif.Props.Packets

/-!
# Initial handshakes

* C42: the rate of initial handshakes
* C44: the order in which the remotes of a peer are tried
-/

namespace Fastd.Daemon

set_option linter.unusedSectionVars false

section

variable [Env]

/-! ### C44 -/

/-- The remote and the address of it that is tried next. -/
def At (p : Peer) (k j : Nat) : Prop := p.nextRemote = some k ∧ ∃ r, p.remotes[k]? = some r ∧ r.cur = j

/-- The numbers of addresses of the remotes. -/
def sizes (p : Peer) : List Nat := p.remotes.map fun r => r.addrs.length

/-- The next address of the same remote, or the first one of the next remote; after the last remote the first one follows. -/
def following (l : List Nat) (pos : Nat × Nat) : Nat × Nat :=
  if pos.2 + 1 < l.getD pos.1 0 then (pos.1, pos.2 + 1) else ((pos.1 + 1) % l.length, 0)

/-- **C44**: the remote and the address that are tried next always exist, unless the remote has no addresses. -/
theorem C44_range {c : Ctx} (h : Reach anyEvent c) {p : Peer} (hp : p ∈ c.peers) (hs : p.state ≠ .inactive) {k : Nat}
    (hk : p.nextRemote = some k) : ∃ j, At p k j ∧ k < (sizes p).length ∧ (j < (sizes p).getD k 0 ∨ (sizes p).getD k 0 = 0) := by
  have hI : Inv False nobody nobody nobody c := h.inv fun s => s.elim
  obtain ⟨r, hr, hcur⟩ := (hI.peer p hp).rem hs k hk
  have hlt : k < p.remotes.length := (List.getElem?_eq_some_iff.1 hr).1
  refine ⟨r.cur, ⟨hk, r, hr, rfl⟩, by simpa [sizes] using hlt, ?_⟩
  have : (sizes p).getD k 0 = r.addrs.length := by simp [sizes, hr]
  rw [this]
  rcases hcur with h1 | h1
  · exact .inl h1
  · exact .inr (by rw [h1]; rfl)

theorem wrap_eq {n k : Nat} (h : k < n) : wrap n (some (k + 1)) = (k + 1) % n := by
  unfold wrap
  simp only []
  split
  · have : k + 1 = n := by omega
    rw [this, Nat.mod_self]
  · rw [Nat.mod_eq_of_lt (by omega)]

theorem addrs_modify {l : List Remote} {k : Nat} {f : Remote → Remote} (hf : ∀ r, (f r).addrs = r.addrs) :
    (l.modify k f).map (·.addrs) = l.map (·.addrs) := by
  apply List.ext_getElem?
  intro j
  rw [List.getElem?_map, List.getElem?_map, List.getElem?_modify]
  split <;> cases l[j]? <;> simp [hf]

theorem Next.at {k j : Nat} {p q : Peer} (h : Next k p q) (ha : At p k j) :
    At q (following (sizes p) (k, j)).1 (following (sizes p) (k, j)).2 ∧ q.remotes.map (·.addrs) = p.remotes.map (·.addrs) := by
  obtain ⟨hk, r', hr', hj⟩ := ha
  obtain ⟨r, hr, h⟩ := h
  obtain rfl : r' = r := by rw [hr] at hr'; cases hr'; rfl
  rename' r' => r
  have hlt : k < p.remotes.length := (List.getElem?_eq_some_iff.1 hr).1
  have hsz : (sizes p).getD k 0 = r.addrs.length := by simp [sizes, hr]
  have hn : (sizes p).length = p.remotes.length := by simp [sizes]
  unfold following
  simp only [hsz, hn]
  subst hj
  rcases h with ⟨h1, h2, h3⟩ | ⟨h1, h2, f, hf, h3⟩
  · rw [if_pos h1, h3]
    refine ⟨⟨h2.trans hk, { r with cur := r.cur + 1 }, ?_, rfl⟩, addrs_modify fun _ => rfl⟩
    rw [h3, List.getElem?_modify, hr]; simp
  · rw [if_neg (by omega), h3]
    have hw : wrap p.remotes.length (p.nextRemote.map (· + 1)) = (k + 1) % p.remotes.length := by
      rw [hk]; exact wrap_eq hlt
    rw [hw] at h2 h3 ⊢
    have hlt' : (k + 1) % p.remotes.length < p.remotes.length := Nat.mod_lt _ (by omega)
    refine ⟨⟨h2, ?_⟩, ?_⟩
    · rw [h3, List.getElem?_modify, List.getElem?_modify, List.getElem?_eq_getElem hlt']
      simp only [if_true]
      exact ⟨_, rfl, (hf _).2.2.2⟩
    · rw [addrs_modify fun r => (hf r).2.2.1]
      exact addrs_modify fun _ => rfl

/-- More connections are allowed for the group of the peer. -/
def Allowed (c : Ctx) (p : Peer) : Prop :=
  ∀ g ∈ Env.chain p.group, ∀ m, Env.maxConn g = some m →
    (c.peers.filter fun q => q.isEstablished && (Env.chain q.group).contains g).length < m

theorem Allowed.mono {c c1 : Ctx} {p q : Peer} {t : Nat → Prop} {E : Eff → Prop} (h : Allowed c p) (hf : Fr t nobody E c c1)
    (hg : q.group = p.group) : mayConnect c1.peers q = true := by
  unfold mayConnect
  split
  · rfl
  · simp only [List.all_eq_true]
    intro g hgm
    rw [hg] at hgm
    cases hm : Env.maxConn g with
    | none => rfl
    | some m =>
      have h1 := h g hgm m hm
      have h2 : countEstablished c1.peers g ≤ countEstablished c.peers g :=
        countEstablished_le (hf.peers.imp fun _ _ h => ⟨stat_group h.stat, fun e => (h.est e).elim id fun h => h.elim⟩) g
      simp only [Bool.not_eq_true', decide_eq_false_iff_not, ge_iff_le, Nat.not_le]
      unfold countEstablished inGroup at h2
      unfold countEstablished inGroup
      omega

/-- **C44**: when it is time for a handshake with a peer that is not connected, the address at the current position is tried, and the
position advances; if there is no position yet, it becomes the first one. Handshakes are sent to no other address. -/
theorem C44_step {c c' : Ctx} (h : Reach anyEvent c) {i : Nat} (hp : (Event.task i).possible c) (he : handle (.task i) c = .ok ((), c'))
    {p : Peer} (hm : p ∈ c.peers) (hi : p.id = i) (hs : p.state ≠ .established) (hr : c.now < p.resetTimeout) (hd : p.nextHs ≤ c.now)
    (ha : Allowed c p) : ∃ q ∈ c'.peers, q.id = i ∧ q.remotes.map (·.addrs) = p.remotes.map (·.addrs) ∧
      (∀ k j, At p k j → At q (following (sizes p) (k, j)).1 (following (sizes p) (k, j)).2) ∧ (p.nextRemote = none → At q 0 0) ∧
      ∀ l, c'.log = c.log ++ l → ∀ o a, .hsInit o a ∈ l → o = some i ∧ ∃ k j, At p k j ∧ ∃ r, p.remotes[k]? = some r ∧ r.addrs[j]? = some a := by
  have hI : Inv False nobody nobody nobody c := h.inv fun s => s.elim
  obtain ⟨p', hm', hi', r, _⟩ := h.res hp he
  obtain rfl := sorted_inj hI.ids hm hm' (hi.trans hi'.symm)
  cases r with
  | deleted h1 => omega
  | reset q h1 => omega
  | handled c1 q1 q _ hq1 hq hid hk hnow hf hh hl hest =>
    cases hk with
    | dead h1 => exact absurd h1 hs
    | soft _ _ hq1e =>
      have hq1e := hq1e hs
      have e1 : q1.nextHs = p.nextHs := by rw [hq1e]
      have e2 : q1.nextRemote = p.nextRemote := by rw [hq1e]
      have e3 : q1.remotes = p.remotes := by rw [hq1e]
      have e4 : q1.state = p.state := by rw [hq1e]
      have e5 : q1.group = p.group := by rw [hq1e]
      have hAt : ∀ k j, At p k j ↔ At q1 k j := by intro k j; unfold At; rw [e2, e3]
      have hsz : sizes q1 = sizes p := by unfold sizes; rw [e3]
      refine ⟨q, hq, hid.trans hi, ?_⟩
      obtain ⟨l1, hl1, hlog⟩ := hl
      have hsend : ∀ l, c'.log = c.log ++ l → ∀ o a, .hsInit o a ∈ l → o = some i ∧ ∃ k j, At p k j ∧ ∃ r, p.remotes[k]? = some r ∧
          r.addrs[j]? = some a := by
        intro l hl o a hmem
        obtain ⟨l0, hl0, hl0'⟩ := hf.log
        rw [hl1, hl0, List.append_assoc] at hl
        have := List.append_cancel_left hl
        subst this
        rcases List.mem_append.1 hmem with hmem | hmem
        · have := hl0' _ hmem
          cases this
        · obtain ⟨h1, _, h3⟩ := hlog o a hmem
          obtain ⟨k, r, h4, h5, h6⟩ := h3 (by rw [e4]; exact hs)
          rw [e2] at h4
          rw [e3] at h5
          exact ⟨h1.trans (by rw [hi]), k, r.cur, ⟨h4, r, h5, rfl⟩, r, h5, h6⟩
      rcases hh with ⟨h1, _⟩ | ⟨_, ht⟩
      · rw [e1] at h1; omega
      · cases ht with
        | est h1 => rw [e4] at h1; exact absurd h1 hs
        | full h1 => rw [ha.mono hf e5] at h1; cases h1
        | next k h1 h2 h3 h4 =>
          have hk3 : p.nextRemote = some k := e2.symm.trans h3
          have key : ∀ j, At p k j → _ := fun j hj => h4.at ((hAt k j).1 hj)
          obtain ⟨r, hr1, _⟩ := h4
          have := key r.cur ⟨hk3, r, by rw [← e3]; exact hr1, rfl⟩
          refine ⟨by rw [this.2, e3], fun k' j hj => ?_, (fun hn => by rw [hk3] at hn; cases hn), hsend⟩
          have : k' = k := by have := hj.1; rw [hk3] at this; cases this; rfl
          subst this
          have := (key j hj).1
          rw [hsz] at this
          exact this
        | first f h1 h2 h3 h4 hf' h5 h6 =>
          refine ⟨by rw [h5, e3, addrs_modify fun r => (hf' r).2.2.1], fun k j hj => ?_, fun _ => ⟨h6, ?_⟩, hsend⟩
          · have := hj.1
            rw [← e2, h3] at this; cases this
          · rw [h5, List.getElem?_modify, List.getElem?_eq_getElem (List.length_pos_iff.2 h4)]
            simp only [if_true]
            exact ⟨_, rfl, (hf' _).2.2.2⟩

/-- A position that exists; a remote without addresses has one position. -/
def Valid (l : List Nat) (pos : Nat × Nat) : Prop := pos.1 < l.length ∧ (pos.2 < l.getD pos.1 0 ∨ pos.2 = 0)

theorem following_within (l : List Nat) (k j n : Nat) (h : j + n < l.getD k 0) : (following l)^[n] (k, j) = (k, j + n) := by
  induction n with
  | zero => rfl
  | succ n ih =>
    rw [Function.iterate_succ_apply', ih (by omega)]
    unfold following
    simp only []
    rw [if_pos (by omega)]
    rfl

/-- From any position the first one of the next remote follows. -/
theorem following_next (l : List Nat) (k j : Nat) : ∃ n, (following l)^[n] (k, j) = ((k + 1) % l.length, 0) := by
  refine ⟨l.getD k 0 - 1 - j + 1, ?_⟩
  rw [Function.iterate_succ_apply']
  by_cases h : j < l.getD k 0
  · rw [following_within _ _ _ _ (by omega)]
    unfold following
    simp only []
    rw [if_neg (by omega)]
  · rw [show l.getD k 0 - 1 - j = 0 by omega]
    show following l (k, j) = _
    unfold following
    simp only []
    rw [if_neg (by omega)]

theorem following_remote (l : List Nat) (k j d : Nat) : ∃ n, (following l)^[n] (k, j) = ((k + d + 1) % l.length, 0) := by
  induction d with
  | zero => exact following_next l k j
  | succ d ih =>
    obtain ⟨n, hn⟩ := ih
    obtain ⟨m, hm⟩ := following_next l ((k + d + 1) % l.length) 0
    refine ⟨m + n, ?_⟩
    rw [Function.iterate_add_apply, hn, hm]
    simp only [Nat.mod_add_mod]
    rfl

/-- **C44**: this way all addresses of all remotes are tried: from every position all others are reached. -/
theorem C44_cycle (l : List Nat) {pos pos' : Nat × Nat} (h : Valid l pos) (h' : Valid l pos') : ∃ n, (following l)^[n] pos = pos' := by
  obtain ⟨k, j⟩ := pos
  obtain ⟨k', j'⟩ := pos'
  obtain ⟨h1, _⟩ := h
  obtain ⟨h3, h4⟩ := h'
  simp only [] at *
  obtain ⟨n, hn⟩ := following_remote l k j (k' + l.length - k - 1)
  have : (k + (k' + l.length - k - 1) + 1) % l.length = k' := by
    rw [show k + (k' + l.length - k - 1) + 1 = k' + l.length by omega, Nat.add_mod_right, Nat.mod_eq_of_lt h3]
  rw [this] at hn
  rcases h4 with h4 | h4
  · refine ⟨j' + n, ?_⟩
    rw [Function.iterate_add_apply, hn, following_within _ _ _ _ (by omega)]
    simp
  · exact ⟨n, by rw [hn, h4]⟩

/-- **C44**, partially: handling a task makes no invalid access, under the conditions of C65. Missing: see `Demo.C65_remote_false`,
where a remote that does not exist is accessed. -/
theorem C44_access_partial (hE : Sane) {c : Ctx} (h : Reach Harmless c) {i : Nat} (hp : (Event.task i).possible c)
    (hn : c.now < timeoutInv) : handle (.task i) c ≠ .error .mem := fun he =>
  nomatch C65_partial hE h hp ⟨fun _ _ => hn, fun _ _ _ _ _ h => nomatch h⟩ he

/-! ### C42 -/

/-- The peer with this id has not been reset between two states: it has not been set up again. -/
def NotReset (i : Nat) (c c' : Ctx) : Prop :=
  ∃ p ∈ c.peers, ∃ p' ∈ c'.peers, p.id = i ∧ p'.id = i ∧ p'.setups = p.setups

/-- The last initial handshake for the peer `i` was sent at time `t` to the address `a`. The peer was not reset since. -/
inductive LastInit (i : Nat) : Time → Addr → Ctx → Prop
  | sent {e : Event} {c c' : Ctx} {l : List Eff} {as : List Addr} {a : Addr} : Reach anyEvent c → e.possible c →
      handle e c = .ok ((), c') → c'.log = c.log ++ l → inits i l = as ++ [a] → NotReset i c c' → LastInit i c.now a c'
  | quiet {e : Event} {c c' : Ctx} {l : List Eff} {t : Time} {a : Addr} : LastInit i t a c → e.possible c →
      handle e c = .ok ((), c') → c'.log = c.log ++ l → inits i l = [] → NotReset i c c' → LastInit i t a c'

theorem LastInit.reach {i : Nat} {t : Time} {a : Addr} {c : Ctx} (h : LastInit i t a c) : Reach anyEvent c := by
  induction h with
  | sent h1 h2 h3 => exact .step h1 h2 trivial h3
  | quiet h1 h2 h3 _ _ _ ih => exact .step ih h2 trivial h3

theorem step_hs {e : Event} {c c' : Ctx} (h : Reach anyEvent c) (he : handle e c = .ok ((), c')) {l : List Eff}
    (hl : c'.log = c.log ++ l) {i : Nat} {p p' : Peer} (hp : p ∈ c.peers) (hp' : p' ∈ c'.peers) (hi : p.id = i) (hi' : p'.id = i)
    (hs : p'.setups = p.setups) : HsRun c.now (p.lastHsTimeout, p.lastHsAddr) (inits i l) (p'.lastHsTimeout, p'.lastHsAddr) := by
  have hI : Inv False nobody nobody nobody c := h.inv fun s => s.elim
  subst hi
  have main : ∀ {E : Ex}, Tr E c c' → E.hs = nobody →
      HsRun c.now (p.lastHsTimeout, p.lastHsAddr) (inits p.id l) (p'.lastHsTimeout, p'.lastHsAddr) := by
    intro E t hE
    obtain ⟨l', hl', hb⟩ := t.back
    have : l' = l := List.append_cancel_left (hl'.symm.trans hl)
    subst this
    rcases hb p' hp' with ⟨p0, hp0, r⟩ | ⟨hn, _⟩
    · obtain rfl := sorted_inj hI.ids hp0 hp (r.id.symm.trans hi')
      have := (r.hs hs).2
      rw [hE] at this
      exact this id
    · have := hI.idlt p hp
      omega
  cases htk : e.isTick with
  | true =>
    cases e with
    | tick d =>
      cases he
      rw [log_same rfl hl, sorted_inj hI.ids hp' hp hi']
      rfl
    | _ => cases htk
  | false =>
    cases hrl : e.isReload with
    | true =>
      cases e with
      | reload ds => exact main (pr_loadPeerDirs (E := Reloading) trivial (fun _ => trivial) id id _ _ _ hI.idsOk he) rfl
      | _ => cases hrl
    | false => exact main (pr_handle hrl htk _ _ _ hI.idsOk he) rfl

theorem HsRun.last {now : Time} {s s' : Time × Addr} {as : List Addr} {a : Addr} (h : HsRun now s (as ++ [a]) s') :
    s' = (now + MIN_HANDSHAKE_INTERVAL, a) := by
  induction as generalizing s with
  | nil => exact h.2
  | cons b bs ih => exact ih h.2

theorem LastInit.recorded {i : Nat} {t : Time} {a : Addr} {c : Ctx} (h : LastInit i t a c) {p : Peer} (hp : p ∈ c.peers) (hi : p.id = i) :
    p.lastHsTimeout = t + MIN_HANDSHAKE_INTERVAL ∧ p.lastHsAddr = a := by
  induction h generalizing p with
  | sent hr hpos he hl has hk =>
    obtain ⟨p0, hp0, p', hp', h1, h2, h3⟩ := hk
    have hI' : Inv False nobody nobody nobody _ := Reach.inv (P := anyEvent) (fun s => s.elim) (.step hr hpos trivial he)
    obtain rfl := sorted_inj hI'.ids hp hp' (hi.trans h2.symm)
    have := step_hs hr he hl hp0 hp h1 hi h3
    rw [has] at this
    have := this.last
    exact ⟨congrArg Prod.fst this, congrArg Prod.snd this⟩
  | quiet hr hpos he hl has hk ih =>
    obtain ⟨p0, hp0, p', hp', h1, h2, h3⟩ := hk
    have hI' : Inv False nobody nobody nobody _ := Reach.inv (P := anyEvent) (fun s => s.elim) (.step hr.reach hpos trivial he)
    obtain rfl := sorted_inj hI'.ids hp hp' (hi.trans h2.symm)
    have := step_hs hr.reach he hl hp0 hp h1 hi h3
    rw [has] at this
    have e : (p.lastHsTimeout, p.lastHsAddr) = (p0.lastHsTimeout, p0.lastHsAddr) := this
    obtain ⟨h4, h5⟩ := ih hp0 h1
    exact ⟨(congrArg Prod.fst e).trans h4, (congrArg Prod.snd e).trans h5⟩

/-- **C42**, partially: as long as a peer is not reset, an initial handshake to the same address as the last one is sent only when the minimum
interval has passed. Missing: a reset forgets the last handshake (`Demo.C42_false`), and only the last address is remembered. -/
theorem C42_partial {i : Nat} {t : Time} {a b : Addr} {c c' : Ctx} (h : LastInit i t a c) {e : Event}
    (he : handle e c = .ok ((), c')) {l : List Eff} (hl : c'.log = c.log ++ l) (hk : NotReset i c c') {bs : List Addr}
    (hb : inits i l = b :: bs) : addrEq b a = false ∨ t + MIN_HANDSHAKE_INTERVAL ≤ c.now := by
  obtain ⟨p, hp, p', hp', h1, h2, h3⟩ := hk
  have := step_hs h.reach he hl hp hp' h1 h2 h3
  obtain ⟨h4, h5⟩ := h.recorded hp h1
  rw [hb] at this
  rcases this.1 with h6 | h6
  · simp only [h4] at h6
    exact .inr (by simpa [timedOut] using h6)
  · simp only [h5] at h6
    exact .inl h6

/-- **C42**, partially: in the same way, when one event sends more than one handshake for a peer. -/
theorem C42_once_partial {c c' : Ctx} (h : Reach anyEvent c) {e : Event} (he : handle e c = .ok ((), c')) {l : List Eff}
    (hl : c'.log = c.log ++ l) {i : Nat} (hk : NotReset i c c') : (inits i l).IsChain fun a b => addrEq b a = false := by
  obtain ⟨p, hp, p', hp', h1, h2, h3⟩ := hk
  have := step_hs h he hl hp hp' h1 h2 h3
  generalize inits i l = as at this
  generalize (p.lastHsTimeout, p.lastHsAddr) = s at this
  generalize (p'.lastHsTimeout, p'.lastHsAddr) = s' at this
  induction as generalizing s with
  | nil => exact .nil
  | cons a as ih =>
    cases as with
    | nil => exact .singleton _
    | cons b bs =>
      refine List.isChain_cons_cons.2 ⟨?_, ih _ this.2⟩
      rcases this.2.1 with h | h
      · simp [timedOut, MIN_HANDSHAKE_INTERVAL] at h
      · exact h

end

/-! ### Examples -/

namespace Demo

section
local instance retryEnv : Env := env {}

/-- The peer has three addresses. -/
def trio : List PeerDef := [peer 2 [addrOf 2, addrOf 3, addrOf 4]]

/-- They are tried in turn: after four handshakes it is the second one's turn again (C44). -/
example : ∃ c, Reach anyEvent c ∧ (decide (inits 0 c.log = [addrOf 2, addrOf 3, addrOf 4, addrOf 2]) &&
    decide (c.peers.map (fun p => (p.nextRemote, sizes p)) = [(some 1, [1, 1, 1])])) = true :=
  after_reach (static := trio) (dirs := []) (es := [.tick 5000, .task 0, .tick 30000, .task 0, .tick 30000, .task 0, .tick 30000, .task 0])
    (by decide +kernel)

example : (List.range 5).map (fun n => (following [1, 0, 3])^[n] (0, 0)) = [(0, 0), (1, 0), (2, 0), (2, 1), (2, 2)] := by decide

/-- Two events that both send an initial handshake for the peer `i` to `a`, at the same time. -/
def twice (static : List PeerDef) (es : List Event) (e : Event) (es' : List Event) (e' : Event) (i : Nat) (a : Addr) : Bool :=
  match run static [] es with
  | none => false
  | some c0 => possibleB c0 e && match handle e c0 with
    | .error _ => false
    | .ok ((), c1) => decide (a ∈ inits i (c1.log.drop c0.log.length)) && match steps es' c1 with
      | none => false
      | some c2 => possibleB c2 e' && match handle e' c2 with
        | .error _ => false
        | .ok ((), c3) => decide (a ∈ inits i (c3.log.drop c2.log.length)) && decide (c2.now = c0.now)

/-- A second initial handshake is sent when the peer is reset, without any delay (C42). -/
theorem C42_false : ¬ ∀ (c0 c1 c2 c3 : Ctx) (i : Nat) (a : Addr) (l l' : List Eff) (e e' : Event), Reach anyEvent c0 → e.possible c0 →
    handle e c0 = .ok ((), c1) → c1.log = c0.log ++ l → a ∈ inits i l → Steps anyEvent c1 c2 → e'.possible c2 →
    handle e' c2 = .ok ((), c3) → c3.log = c2.log ++ l' → a ∈ inits i l' → c0.now + MIN_HANDSHAKE_INTERVAL ≤ c2.now := by
  intro h
  have key : twice duo [.tick 5000] (.task 0) [.resetAll] (.task 0) 0 (addrOf 2) = true := by decide +kernel
  unfold twice at key
  split at key
  · cases key
  · rename_i c0 hr0
    have hr := run_reach hr0
    rw [Bool.and_eq_true] at key
    obtain ⟨hp, key⟩ := key
    cases he : handle (.task 0) c0 with
    | error f => simp only [he] at key; cases key
    | ok r =>
      obtain ⟨⟨⟩, c1⟩ := r
      simp only [he, Bool.and_eq_true, decide_eq_true_eq] at key
      obtain ⟨h1, key⟩ := key
      split at key
      · cases key
      · rename_i c2 hs
        rw [Bool.and_eq_true] at key
        obtain ⟨hp', key⟩ := key
        cases he' : handle (.task 0) c2 with
        | error f => simp only [he'] at key; cases key
        | ok r =>
          obtain ⟨⟨⟩, c3⟩ := r
          simp only [he', Bool.and_eq_true, decide_eq_true_eq] at key
          obtain ⟨h2, h3⟩ := key
          have hr1 : Reach anyEvent c1 := .step hr (possible_of hp) trivial he
          obtain ⟨l, hl⟩ := step_log hr he
          obtain ⟨l', hl'⟩ := step_log (hr1.steps (steps_reach hs)) he'
          have := h c0 c1 c2 c3 0 (addrOf 2) l l' _ _ hr (possible_of hp) he hl (by rw [hl] at h1; simpa using h1) (steps_reach hs)
            (possible_of hp') he' hl' (by rw [hl'] at h2; simpa using h2)
          rw [h3] at this
          unfold MIN_HANDSHAKE_INTERVAL at this
          omega

end

end Demo

end Fastd.Daemon
