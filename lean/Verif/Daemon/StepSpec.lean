import Verif.Daemon.ReloadSpec

/-!
# The invariant holds in all executions
-/

namespace Fastd.Daemon

set_option linter.unusedSectionVars false

variable [Env] {S : Prop} {x y z : Nat → Prop}

/-- Conditions on events under which nothing goes wrong: the clock does not overflow, and handshakes are not received
on a socket of another peer. -/
def Event.fine (c : Ctx) : Event → Prop
  | .task _ => c.now < timeoutInv
  | .recv sock _ _ pkt => ∀ q b, payload pkt = some (q, b) → OwnSock c sock q b
  | _ => True

/-- Nothing but plain effects. -/
def Quiet (c c' : Ctx) : Prop := ∀ E : Eff → Prop, (∀ e, e.plain = true → E e) → Lg E c c'

/-- What an event does. -/
def StepRes : Event → Ctx → Ctx → Prop
  | .tick d, c, c' => c' = { c with now := c.now + d }
  | .task i, c, c' => ∃ p ∈ c.peers, p.id = i ∧ TaskRes p c c' ∧ ∀ E : Eff → Prop, (∀ e, e.plain = true → E e) →
      (∀ a, E (.hsInit (some i) a)) → (p.state = .established → ∀ k, E (.encrypt i k [])) → Lg E c c'
  | .maintenance, c, c' => c' = { c with
      eth := c.eth.filter fun e => !timedOut e.timeout c.now
      maintenance := c.maintenance + MAINTENANCE_INTERVAL }
  | .recv sock loc rem pkt, c, c' => RecvEv sock loc rem pkt c c'
  | .iface peer data, c, c' => ∃ l, c'.log = c.log ++ l ∧ (peer = none → Sends c data (targets c none data) l) ∧
      (∀ d, peer = some d → Sends c data (others none (c.peers.filter (·.id = d))) l) ∧
      ∀ E, PayE E c none data → Fr (fun _ => True) nobody E c c'
  | .resolved k _, c, c' => ∃ r, c.resolves[k]? = some r ∧ ∀ E, Fr (· = r.1) nobody E c c'
  | .verified k _, c, c' => ∃ v, c.verifs[k]? = some v ∧ ∀ E : Eff → Prop, (∀ e, e.plain = true → E e) → Fr (· = v.peer) nobody E c c'
  | .reload defs, c, c' => (∃ ps, Loaded defs c c' ps) ∧ c'.keys = c.keys ∧ Quiet c c'
  | .resetAll, c, c' => (∀ p ∈ c'.peers, p.state ≠ .established ∧ p.isDynamic = false) ∧ Quiet c c'

theorem Inv.tick {c : Ctx} (h : Inv S x y z c) (d : Nat) : Inv S x y z { c with now := c.now + d } :=
  { h with timers := fun p hp he => ⟨by
      have := (h.timers p hp he).1
      simp only []; omega, by
      have := (h.timers p hp he).2
      simp only []; omega⟩ }

theorem findById_some {ps : List Peer} (hs : Sorted ps) {i : Nat} {p : Peer} (h : findById ps i = some p) : p ∈ ps ∧ p.id = i := by
  unfold findById at h
  obtain ⟨k, hk, hp⟩ := Option.bind_eq_some_iff.1 h
  refine ⟨List.mem_of_getElem? hp, ?_⟩
  obtain ⟨q, hq, he⟩ := Data.bsearch_some (Data.sortedFor_nat (fun q : Peer => q.id) ps (List.pairwise_map.1 hs) i) hk
  rw [hq] at hp; cases hp
  exact (Nat.compare_eq_eq.1 he).symm

theorem wp_handle {e : Event} {c : Ctx} (h : Inv S nobody nobody nobody c) (hp : e.possible c)
    (hS : S → EnvOk ∧ e.fine c) {Q : Unit → Ctx → Prop}
    (hQ : ∀ c', Inv S nobody nobody nobody c' → StepRes e c c' → Q () c') : wp S (handle e) Q c := by
  cases e with
  | tick d => exact wp_modify.2 (hQ _ (h.tick d) rfl)
  | task i =>
    obtain ⟨p, hm, hi, t, ht, hn⟩ := hp
    refine wp_peerTask h hm hi (fun hst => ?_) hS fun c' h1 r1 l1 => hQ c' h1 ⟨p, hm, hi, r1, l1⟩
    have := ((h.peer p hm).inact hst).2.2
    rw [ht] at this; cases this
  | maintenance =>
    show wp S (ethCleanup >>= fun _ => _) Q c
    rw [wp_bind]
    unfold ethCleanup
    rw [wp_modify, wp_modify, ethCompact_eq]
    refine hQ _ ?_ rfl
    refine { h with eth := ⟨h.eth.sorted.filter _, fun e he => h.eth.peer e (List.mem_filter.1 he).1⟩ }
  | recv sock loc rem pkt =>
    obtain ⟨h1, h2, h3⟩ := hp
    refine wp_socketReceive h h2 h1 ?_ hS fun c' h1 r1 => hQ c' h1 r1
    cases sock with
    | bound b => trivial
    | dyn n => exact h3
  | iface peer data =>
    refine wp_sendData h (fun s => (hS s).1) (fun d hd => ⟨rfl, ?_⟩) fun c' l h1 l1 s1 s2 f1 =>
      hQ c' h1 ⟨l, l1, s1, s2, fun E hE => (f1 E hE).mono (fun _ _ => trivial) (fun _ h => h) fun _ h => h⟩
    subst hd
    obtain ⟨p, hm, hi, _⟩ := hp
    exact ⟨p, hm, hi⟩
  | resolved k addrs =>
    obtain ⟨hk, ha⟩ := hp
    show wp S (get >>= fun c => memIfNone (c.resolves[k]?) >>= fun x => _) Q c
    rw [wp_bind, wp_get, wp_bind, List.getElem?_eq_getElem hk]
    refine wp_memIfNone (fun _ => rfl) fun a hx => ?_
    cases hx
    rw [wp_bind, wp_modify]
    have hr := h.resolves _ (List.getElem_mem hk)
    have hg : c.resolves[k]? = some c.resolves[k] := List.getElem?_eq_getElem hk
    have h1 : Inv S nobody nobody nobody { c with resolves := c.resolves.eraseIdx k } :=
      { h with resolves := fun r hr => h.resolves r (List.mem_of_mem_eraseIdx hr) }
    have f1 : ∀ E, Fr (· = c.resolves[k].1) nobody E c { c with resolves := c.resolves.eraseIdx k } := fun E =>
      ⟨rfl, rfl, Nat.le_refl _, forall₂_refl' fun _ _ => PFr.refl, fun _ _ _ _ _ => rfl, [], by simp, by simp⟩
    refine wp_opaque fun c1 e1 => ?_
    rw [← e1] at h1 f1
    unfold resolveReturn
    rw [wp_bind, wp_get]
    cases hf : findById c1.peers c.resolves[k].1 with
    | none => exact hQ c1 h1 ⟨_, hg, f1⟩
    | some p =>
      simp only []
      obtain ⟨hm, hi⟩ := findById_some h1.ids hf
      have hm' : p ∈ c.peers := by rw [e1] at hm; exact hm
      obtain ⟨hd, hl⟩ := hr.2 p hm' hi
      refine wp_ite (fun _ => hQ c1 h1 ⟨_, hg, f1⟩) fun he => wp_ite (fun hd' => ?_) fun _ => ?_
      · rw [hd] at hd'; cases hd'
      · refine wp_handleResolve h1 hm hl ha fun c2 q h2 o2 core2 => hQ c2 h2 ⟨_, hg, fun E => (f1 E).trans ?_⟩
        exact o2.fr ⟨core2.stat, fun h => absurd hi h, fun he => .inl (core2.est.1 he), .inl core2.serial⟩
  | verified k ok =>
    have hk : k < c.verifs.length := hp
    show wp S (get >>= fun c => memIfNone (c.verifs[k]?) >>= fun x => _) Q c
    rw [wp_bind, wp_get, wp_bind, List.getElem?_eq_getElem hk]
    refine wp_memIfNone (fun _ => rfl) fun a hx => ?_
    cases hx
    rw [wp_bind, wp_modify]
    obtain ⟨v1, v2, v3, v4, v5⟩ := h.verifs _ (List.getElem_mem hk)
    have hg : c.verifs[k]? = some c.verifs[k] := List.getElem?_eq_getElem hk
    generalize c.verifs[k] = v at *
    have h1 : Inv S nobody nobody nobody { c with verifs := c.verifs.eraseIdx k } :=
      { h with verifs := fun r hr => h.verifs r (List.mem_of_mem_eraseIdx hr) }
    have f1 : ∀ E, Fr (· = v.peer) nobody E c { c with verifs := c.verifs.eraseIdx k } := fun E =>
      ⟨rfl, rfl, Nat.le_refl _, forall₂_refl' fun _ _ => PFr.refl, fun _ _ _ _ _ => rfl, [], by simp, by simp⟩
    refine wp_opaque fun c1 e1 => ?_
    rw [← e1] at h1 f1
    unfold verifyReturn
    rw [wp_bind, wp_get]
    cases hf : findById c1.peers v.peer with
    | none => exact hQ c1 h1 ⟨_, hg, fun E _ => f1 E⟩
    | some p =>
      simp only []
      obtain ⟨hm, hi⟩ := findById_some h1.ids hf
      have hm' : p ∈ c.peers := by rw [e1] at hm; exact hm
      have hd := v5 p hm' hi
      refine wp_ite (fun hd' => ?_) fun _ => ?_
      · rw [hd] at hd'; cases hd'
      · have hst : p.state ≠ .inactive := by
          intro hst
          have := (h.act p hm' id).1 hst
          unfold Peer.isDynamic at hd
          unfold Peer.isEnabled at this
          simp_all
        rw [wp_bind]
        unfold setVerified
        rw [wp_bind, wp_get]
        refine wp_modP_verif h1 hm rfl (a := p.verifyTimeout) (b := c1.now + (if ok then VERIFY_VALID_TIME else 0))
          (v := c1.now + (if ok then VERIFY_VALID_TIME else 0)) ?_ rfl fun c2 e2 h2 hm2 f2 _ => ?_
        · split <;> simp [VERIFY_VALID_TIME, PEER_STALE_TIME]
        · refine wp_handleVerifyReturn h2 hm2 hi hst v3 (fun s => ⟨(hS s).1, v2, ?_⟩) fun c3 h3 f3 => hQ c3 h3 ⟨_, hg, fun E hE => ?_⟩
          · obtain ⟨b, hb⟩ := v4 s
            rw [hb]; trivial
          · exact (f1 E).trans (((f2 E).mono (fun j hj => hj.trans hi) (fun _ h => h) fun _ h => h).trans (f3 E hE))
  | reload defs =>
    refine wp_loadPeerDirs h hp (fun h => by cases h) fun c' ps h1 r1 k1 l1 => hQ c' h1 ⟨⟨ps, r1⟩, k1, l1⟩
  | resetAll =>
    show wp S (get >>= fun c => resetAll (c.peers.length + 1) 0) Q c
    rw [wp_bind, wp_get]
    refine wp_resetAll h (by omega) (Nat.zero_le _) (fun j p hj => absurd hj (Nat.not_lt_zero _)) fun c' h1 n1 l1 =>
      hQ c' h1 ⟨n1, l1⟩

/-! ### Executions -/

theorem Reach.inv {P : Event → Ctx → Prop} (hS : S → EnvOk ∧ ∀ e c, P e c → e.fine c) {c : Ctx} (h : Reach P c) :
    Inv S nobody nobody nobody c := by
  induction h with
  | start hs hd he => exact wp_ok (Q := fun (_ : Unit) c => Inv S nobody nobody nobody c) (wp_startup hs hd fun c' h _ _ => h) he
  | step _ hp hP he ih =>
    exact wp_ok (Q := fun (_ : Unit) c => Inv S nobody nobody nobody c) (wp_handle ih hp (fun s => ⟨(hS s).1, (hS s).2 _ _ hP⟩)
      fun c' h _ => h) he

/-- The result of an event in a reachable state. -/
theorem Reach.res {P : Event → Ctx → Prop} {c : Ctx} (h : Reach P c) {e : Event} {c' : Ctx} (hp : e.possible c)
    (he : handle e c = .ok ((), c')) : StepRes e c c' :=
  wp_ok (Q := fun (_ : Unit) c' => StepRes e c c') (wp_handle (S := False) (h.inv (fun s => s.elim)) hp (fun s => s.elim)
    fun _ _ h => h) he

theorem Reach.steps {P : Event → Ctx → Prop} {c c' : Ctx} (h : Reach P c) (hs : Steps P c c') : Reach P c' := by
  induction hs with
  | refl => exact h
  | step _ hp hP he ih => exact .step ih hp hP he

end Fastd.Daemon
