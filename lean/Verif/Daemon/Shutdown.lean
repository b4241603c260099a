import Verif.Daemon.AddrSpec
import Verif.Daemon.ConnectSpec
import Verif.Daemon.StepSpec

/-!
# Shutting down

`delete_peers` (src/fastd.c), with which `cleanup` begins after a signal to terminate.
-/

namespace Fastd.Daemon

set_option linter.unusedSectionVars false

variable [Env]

/-- The loop of `delete_peers` (src/fastd.c:601-604): the last peer is deleted while there is one. -/
def deletePeers : Nat → M Unit
  | 0 => fail .fuel
  | n + 1 => do
    match (← get).peers.getLast? with
    | none => pure ()
    | some p => do
      peerDelete p.id
      deletePeers n

/-- `delete_peers` -/
def shutdown : M Unit := do
  let c ← get
  deletePeers (c.peers.length + 1)

theorem without'_last {ps : List Peer} {p : Peer} (hs : Sorted (ps ++ [p])) : without' (ps ++ [p]) p.id = ps := by
  unfold without'
  rw [List.filter_append, List.filter_eq_self.2 fun q hq => ?_]
  · simp
  · have hp : p ∈ ps ++ [p] := by simp
    have hq' : q ∈ ps ++ [p] := List.mem_append_left _ hq
    simp only [Bool.not_eq_true', decide_eq_false_iff_not]
    intro hid
    have hnd : (ps ++ [p]).Nodup := by
      have := hs
      unfold Sorted at this
      have h2 : ((ps ++ [p]).map (·.id)).Nodup := this.imp (fun h => Nat.ne_of_lt h)
      exact (List.pairwise_map.1 h2).imp fun h e => h (by rw [e])
    have he := sorted_inj hs hq' hp hid
    subst he
    rw [List.nodup_append] at hnd
    exact absurd rfl (hnd.2.2 q hq q (by simp))

theorem wp_deletePeers {S T : Prop} {x y z : Nat → Prop} (n : Nat) {c : Ctx} (h : Inv S x y z c) (hn : c.peers.length < n) {Q : Unit → Ctx → Prop}
    (hQ : ∀ c', Inv S x y z c' → c'.peers = [] → c'.now = c.now → (∀ e ∈ c'.eth, e ∈ c.eth) →
      c'.log = c.log ++ (c.peers.reverse.filter (·.isEstablished)).map (fun p => .disestablished p.id) → Q () c') :
    wp T (deletePeers n) Q c := by
  induction n generalizing c with
  | zero => omega
  | succ n ih =>
    unfold deletePeers
    rw [wp_bind, wp_get]
    rcases List.eq_nil_or_concat c.peers with hnil | ⟨ps, p, hps⟩
    · simp only [hnil, List.getLast?_nil]
      rw [wp_pure]
      exact hQ c h hnil rfl (fun _ h => h) (by rw [hnil]; simp)
    · have hp : p ∈ c.peers := by rw [hps]; simp
      have hlast : c.peers.getLast? = some p := by rw [hps]; simp
      simp only [hlast]
      rw [wp_bind]
      refine wp_peerDelete (x' := x) (y' := y) (z' := z) h hp rfl (fun _ _ h => h) (fun _ _ h => h) (fun _ _ h => h) fun c1 ht h1 e1 => ?_
      have hw : c1.peers = ps := by
        rw [e1]
        show without' c.peers p.id = ps
        have hs := h.ids
        rw [hps] at hs ⊢
        simp only [List.concat_eq_append] at hs ⊢
        exact without'_last hs
      refine ih h1 (by rw [hw]; rw [hps] at hn; simp at hn; omega) fun c' h' hnil hnow heth hlog => ?_
      refine hQ c' h' hnil (by rw [hnow, e1]) (fun e he => ?_) ?_
      · have := heth e he
        rw [e1] at this
        exact (List.mem_filter.1 this).1
      · rw [hlog, hw, hps, e1]
        simp only [List.concat_eq_append, List.reverse_append, List.reverse_cons, List.reverse_nil, List.nil_append, List.cons_append,
          List.filter_cons]
        split <;> simp

theorem ks_deletePeers {b : Bool} (n : Nat) : Ks b (deletePeers n) := by
  induction n with
  | zero => exact fun c => ⟨Fail.noConfusion, fun _ => Fail.noConfusion⟩
  | succ n ih =>
    unfold deletePeers
    ks [ks_peerDelete _, ih]

end Fastd.Daemon
