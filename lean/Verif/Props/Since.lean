import Verif.Props.Status
import Verif.Daemon.SinceSpec

/-!
# Since when peers are connected

C88: the time shown by the status socket is the time since on-establish was run for the last time.
-/

namespace Fastd.Daemon

section

variable [Env]

/-- **C88**: the time since which an established peer is shown to be connected is the time of the last event in which on-establish was run for it. Thus it
is never in the future. -/
theorem C88_since {c : Ctx} (h : Reach anyEvent c) {p : Peer} (hp : p ∈ c.peers) (he : p.state = .established) :
    ∃ c0 e c1 l l', Reach anyEvent c0 ∧ e.possible c0 ∧ handle e c0 = .ok ((), c1) ∧ Steps anyEvent c1 c ∧
      c1.log = c0.log ++ l ∧ .established p.id ∈ l ∧ c.log = c1.log ++ l' ∧ .established p.id ∉ l' ∧
      p.established = c0.now ∧ p.established ≤ c.now := by
  induction h generalizing p with
  | start h1 h2 hs =>
    obtain ⟨-, l, -, hr⟩ := es_startup (Q := False) _ _ _ _ _ hs
    rcases hr p hp he with ⟨h, _⟩ | ⟨_, q, hq, _⟩
    · exact h.elim
    · cases hq
  | @step e c c' hr hpos _ hh ih =>
    have old : ∀ l q, c'.log = c.log ++ l → .established p.id ∉ l → q ∈ c.peers → q.id = p.id → q.state = .established →
        p.established = q.established → c.now ≤ c'.now → ∃ c0 e c1 l l', Reach anyEvent c0 ∧ e.possible c0 ∧ handle e c0 = .ok ((), c1) ∧
          Steps anyEvent c1 c' ∧ c1.log = c0.log ++ l ∧ .established p.id ∈ l ∧ c'.log = c1.log ++ l' ∧ .established p.id ∉ l' ∧
          p.established = c0.now ∧ p.established ≤ c'.now := by
      intro l q hl hn hq hi hs ht hle
      obtain ⟨c0, e0, c1, l0, l1, g0, g1, g2, g3, g4, g5, g6, g7, g8, g9⟩ := ih hq hs
      rw [hi] at g5 g7
      refine ⟨c0, e0, c1, l0, l1 ++ l, g0, g1, g2, .step g3 hpos trivial hh, g4, g5, by rw [hl, g6, List.append_assoc], ?_, ht.trans g8,
        by rw [ht]; exact Int.le_trans g9 hle⟩
      intro h
      rcases List.mem_append.1 h with h | h
      · exact g7 h
      · exact hn h
    by_cases ht : ∃ d, e = .tick d
    · obtain ⟨d, rfl⟩ := ht
      cases hh
      exact old [] p (by simp) (by simp) hp rfl he rfl (by simp only []; omega)
    · obtain ⟨hn, l, hl, hrel⟩ := es_handle trivial e (fun d h => ht ⟨d, h⟩) _ _ _ hh
      rcases hrel p hp he with ⟨-, h1, h2⟩ | ⟨h1, q, hq, hi, hs, h3⟩
      · exact ⟨c, e, c', l, [], hr, hpos, hh, .refl, hl, h2, by simp, by simp, h1, by rw [h1, hn]⟩
      · exact old l q hl h1 hq hi hs h3 (Int.le_of_eq hn.symm)

end

namespace Demo

section

local instance sinceEnv : Env := env {}

/-- Two peers are established; five milliseconds later both are shown to be connected since five milliseconds. -/
example : after duo [] (learning ++ [.tick 5]) (fun c => decide (c.peers.map (fun p => (p.state, c.now - p.established, c.log.count (.established p.id))) =
    [(.established, 5, 1), (.established, 5, 1)])) = true := by
  decide +kernel

end

end Demo

end Fastd.Daemon
