import Verif.Daemon.Hooks
import Verif.Daemon.Shutdown
import Verif.Daemon.Demo
import Mathlib.Data.List.Nodup

/-!
# The commands for connections, and shutting down

* C85: on shutdown everything of every peer is given back
* C86: the commands on-establish and on-disestablish alternate

For all states reached from an arbitrary start by arbitrary events, in an arbitrary environment.
-/

namespace Fastd.Daemon

set_option linter.unusedSectionVars false

section

variable [Env]

/-! ### C86 -/

theorem swing_spec {s t : Bool} {l : List Bool} (h : swing s l = some t) :
    (∀ k b, l[k]? = some b → b = (s != decide (k % 2 = 0))) ∧ t = (s != decide (l.length % 2 = 1)) := by
  induction l generalizing s with
  | nil => cases h; exact ⟨fun k b h => by simp at h, by simp⟩
  | cons x l ih =>
    unfold swing at h
    split at h
    · cases h
    · rename_i hx
      have hxs : x = !s := by cases x <;> cases s <;> simp_all
      obtain ⟨h1, h2⟩ := ih h
      subst hxs
      constructor
      · intro k b hb
        cases k with
        | zero =>
          have : (!s) = b := by simpa only [List.getElem?_cons_zero, Option.some.injEq] using hb
          rw [← this]; cases s <;> rfl
        | succ k =>
          rw [h1 k b (by simpa using hb)]
          have : (k + 1) % 2 = 0 ↔ ¬ k % 2 = 0 := by omega
          rw [decide_eq_decide.2 this, decide_not]
          generalize decide (k % 2 = 0) = d
          cases s <;> cases d <;> rfl
      · rw [h2]
        have : (l.length + 1) % 2 = 1 ↔ ¬ l.length % 2 = 1 := by omega
        rw [List.length_cons, decide_eq_decide.2 this, decide_not]
        generalize decide (l.length % 2 = 1) = d
        cases s <;> cases d <;> rfl

theorem Reach.swing {P : Event → Ctx → Prop} {c : Ctx} (h : Reach P c) : Ids c ∧ ∀ i, Daemon.swing false (hooks i c.log) = some (est c.peers i) := by
  induction h with
  | @start now seed useed k0 static dirs c _ _ he =>
    obtain ⟨⟨hi, l, hl, hs⟩, _⟩ := bl_startup static dirs (initial now seed useed k0) () c ⟨List.Pairwise.nil, fun p hp => by cases hp⟩ out_none he
    have hl : c.log = l := by rw [hl]; rfl
    exact ⟨hi, fun i => by rw [hl]; exact hs i⟩
  | @step e c c' _ _ _ he ih =>
    obtain ⟨⟨hi, l, hl, hs⟩, _⟩ := bl_handle e c () c' ih.1 out_none he
    exact ⟨hi, fun i => by rw [hl, hooks_append, swing_append (ih.2 i)]; exact hs i⟩

/-- **C86**: the commands run for a peer are on-establish (`true`), on-disestablish (`false`), on-establish and so on. -/
theorem C86_alternate {P : Event → Ctx → Prop} {c : Ctx} (h : Reach P c) (i k : Nat) (b : Bool) (hb : (hooks i c.log)[k]? = some b) :
    b = true ↔ k % 2 = 0 := by
  rw [(swing_spec (h.swing.2 i)).1 k b hb]
  simp

/-- **C86**: a peer is established if and only if on-establish has been run once more than on-disestablish; the numbers are equal otherwise. -/
theorem C86_state {P : Event → Ctx → Prop} {c : Ctx} (h : Reach P c) (i : Nat) :
    c.log.count (.established i) = c.log.count (.disestablished i) +
      if ∃ p ∈ c.peers, p.id = i ∧ p.state = .established then 1 else 0 := by
  have key : ∀ (l : List Eff) (s t : Bool), Daemon.swing s (hooks i l) = some t →
      l.count (.established i) + s.toNat = l.count (.disestablished i) + t.toNat := by
    intro l
    induction l with
    | nil => intro s t h; cases h; simp
    | cons e l ih =>
      intro s t h
      have other : hooks i (e :: l) = hooks i l → e ≠ .established i → e ≠ .disestablished i →
          (e :: l).count (.established i) + s.toNat = (e :: l).count (.disestablished i) + t.toNat := by
        intro he h1 h2
        rw [he] at h
        rw [List.count_cons_of_ne h1, List.count_cons_of_ne h2]
        exact ih s t h
      cases e with
      | established j =>
        by_cases hj : j = i
        · subst hj
          have e1 : hooks j (.established j :: l) = true :: hooks j l := by simp [hooks]
          rw [e1] at h
          unfold Daemon.swing at h
          split at h
          · cases h
          · rename_i hs
            have := ih _ _ h
            rw [List.count_cons_self, List.count_cons_of_ne (by simp)]
            have hs' : s = false := by cases s <;> simp_all
            subst hs'
            simp only [Bool.toNat_true, Bool.toNat_false] at this ⊢
            omega
        · exact other (by simp [hooks, hj]) (by simpa using hj) (by simp)
      | disestablished j =>
        by_cases hj : j = i
        · subst hj
          have e1 : hooks j (.disestablished j :: l) = false :: hooks j l := by simp [hooks]
          rw [e1] at h
          unfold Daemon.swing at h
          split at h
          · cases h
          · rename_i hs
            have := ih _ _ h
            rw [List.count_cons_self, List.count_cons_of_ne (by simp)]
            have hs' : s = true := by cases s <;> simp_all
            subst hs'
            simp only [Bool.toNat_true, Bool.toNat_false] at this ⊢
            omega
        · exact other (by simp [hooks, hj]) (by simp) (by simpa using hj)
      | _ => exact other rfl (by simp) (by simp)
  have := key c.log false _ (h.swing.2 i)
  by_cases he : ∃ p ∈ c.peers, p.id = i ∧ p.state = .established
  · rw [est_true.2 he] at this
    rw [if_pos he]
    simpa using this
  · have hf : est c.peers i = false := by rw [Bool.eq_false_iff, Ne, est_true]; exact he
    rw [hf] at this
    rw [if_neg he]
    simpa using this

/-! ### C85 -/

/-- **C85**: shutting down always succeeds. Afterwards there is no peer, no socket of a peer, no session, no peer that is looked up by its address
and no MAC address of a peer left; and on-disestablish has been run once for each peer that was established, and nothing else has been done. -/
theorem C85_shutdown {P : Event → Ctx → Prop} {c : Ctx} (h : Reach P c) :
    ∃ c' l, shutdown c = .ok ((), c') ∧ c'.peers = [] ∧ c'.socks = [] ∧ (∀ k, c'.objs k = none) ∧ (∀ b ∈ c'.ht.buckets, b = []) ∧
      (∀ e ∈ c'.eth, e.peer = none) ∧ c'.log = c.log ++ l ∧
      (∀ e ∈ l, ∃ p ∈ c.peers, p.state = .established ∧ e = .disestablished p.id) ∧
      ∀ p ∈ c.peers, p.state = .established → l.count (.disestablished p.id) = 1 := by
  have hI : Inv False nobody nobody nobody c := h.inv fun s => s.elim
  have hw : wp True (deletePeers (c.peers.length + 1)) (fun _ c' => Inv False nobody nobody nobody c' ∧ c'.peers = [] ∧
      c'.log = c.log ++ (c.peers.reverse.filter (·.isEstablished)).map (fun p => .disestablished p.id)) c :=
    wp_deletePeers _ hI (Nat.lt_succ_self _) fun c' h1 h2 _ _ h3 => ⟨h1, h2, h3⟩
  obtain ⟨⟨⟩, c', hc', hI', hnil, hlog⟩ := must_of_wp (ks_deletePeers _) hw
  refine ⟨c', _, ?_, hnil, ?_, fun k => ?_, fun b hb => ?_, fun e he => ?_, hlog, fun e he => ?_, fun p hp hs => ?_⟩
  · exact hc'
  · rw [List.eq_nil_iff_forall_not_mem]
    intro s hs
    obtain ⟨p, hp, _⟩ := hI'.socks.live s hs
    rw [hnil] at hp
    cases hp
  · cases ho : c'.objs k with
    | none => rfl
    | some o =>
      have := (hI'.refs.live k).1 (by rw [ho]; rfl)
      rw [hnil] at this
      cases this
  · obtain ⟨n, hn⟩ := List.getElem?_of_mem hb
    rw [List.eq_nil_iff_forall_not_mem]
    intro i hi
    obtain ⟨p, hp, _⟩ := (hI'.ht.mem n b hn i).1 hi
    rw [hnil] at hp
    cases hp
  · cases hp : e.peer with
    | none => rfl
    | some i =>
      obtain ⟨p, hp, _⟩ := hI'.eth.peer e he i hp
      rw [hnil] at hp
      cases hp
  · obtain ⟨p, hp, rfl⟩ := List.mem_map.1 he
    obtain ⟨hp, hs⟩ := List.mem_filter.1 hp
    exact ⟨p, List.mem_reverse.1 hp, by simpa [Peer.isEstablished] using hs, rfl⟩
  · apply List.count_eq_one_of_mem
    · refine List.pairwise_map.2 ?_
      refine List.Pairwise.filter _ (List.pairwise_reverse.2 ?_)
      refine (List.pairwise_map.1 hI.ids).imp fun {a b} hab he => ?_
      have : b.id = a.id := by injection he
      omega
    · exact List.mem_map.2 ⟨p, List.mem_filter.2 ⟨List.mem_reverse.2 hp, by simp [Peer.isEstablished, hs]⟩, rfl⟩

/-- **C85**: in the end, on-disestablish has been run for a peer as often as on-establish. -/
theorem C85_matched {P : Event → Ctx → Prop} {c c' : Ctx} (h : Reach P c) (hs : shutdown c = .ok ((), c')) (i : Nat) :
    c'.log.count (.established i) = c'.log.count (.disestablished i) := by
  obtain ⟨c1, l, h1, _, _, _, _, _, hl, honly, honce⟩ := C85_shutdown h
  rw [hs] at h1
  obtain rfl : c' = c1 := by cases h1; rfl
  rw [hl, List.count_append, List.count_append, C86_state h i]
  have h0 : l.count (.established i) = 0 := by
    rw [List.count_eq_zero]
    intro hm
    obtain ⟨p, _, _, he⟩ := honly _ hm
    cases he
  rw [h0]
  by_cases he : ∃ p ∈ c.peers, p.id = i ∧ p.state = .established
  · obtain ⟨p, hp, hpi, hps⟩ := he
    rw [if_pos ⟨p, hp, hpi, hps⟩, ← hpi, honce p hp hps]
  · rw [if_neg he]
    have : l.count (.disestablished i) = 0 := by
      rw [List.count_eq_zero]
      intro hm
      obtain ⟨p, hp, hps, hpe⟩ := honly _ hm
      injection hpe with hpe
      exact he ⟨p, hp, hpe.symm, hps⟩
    rw [this]

end

namespace Demo

section

local instance shutdownEnv : Env := env {}

/-- Two peers connect, one of them is reset, and the daemon is shut down. -/
example : after duo [] duoUp (fun c => match shutdown c with
    | .ok ((), c') => decide (hooks 0 c.log = [true] ∧ hooks 1 c.log = [true] ∧
        c'.log.drop c.log.length = [.disestablished 1, .disestablished 0] ∧ c'.peers.length = 0 ∧ c.peers.length = 2 ∧
        (c.objs 0).isSome ∧ c'.objs 0 = none ∧ hooks 0 c'.log = [true, false])
    | .error _ => false) = true := by decide +kernel

example : after duo [] (duoUp ++ [.resetAll]) (fun c => match shutdown c with
    | .ok ((), c') => decide (hooks 0 c.log = [true, false] ∧ c'.log = c.log)
    | .error _ => false) = true := by decide +kernel

end

end Demo

end Fastd.Daemon
