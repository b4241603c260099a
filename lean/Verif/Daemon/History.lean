import Verif.Daemon.StepSpec

/-!
# How peers change over time

A relation between the states before and after any computation of the model. In contrast to the invariant it is about
what *cannot* change: identity and configuration of peers, and when certain fields change. It holds for all
functions without any condition except that peer ids are unique.
-/

namespace Fastd.Daemon

set_option linter.unusedSectionVars false

variable [Env]

/-! ### Definitions -/

/-- The addresses initial handshakes for a peer were sent to. -/
def inits (i : Nat) (l : List Eff) : List Addr := l.filterMap fun
  | .hsInit (some j) a => if j = i then some a else none
  | _ => none

/-- Initial handshakes sent at a given time, starting from a recorded time-out and address: each of them is to a new address or
after the time-out, and is recorded. -/
def HsRun (now : Time) : Time × Addr → List Addr → Time × Addr → Prop
  | s, [], s' => s' = s
  | s, b :: bs, s' => (timedOut s.1 now = true ∨ addrEq b s.2 = false) ∧ HsRun now (now + MIN_HANDSHAKE_INTERVAL, b) bs s'

/-- No peer uses an address that is configured for another enabled peer. -/
def OwnOk (c : Ctx) : Prop :=
  ∀ p ∈ c.peers, ∀ q ∈ c.peers, p.id ≠ q.id → q.isEnabled = true → p.addr.isSet = true → ownsAddress q p.addr = false

/-- Parameters of the relation: peers that may become established, whose `resetTimeout` may change, whose handshakes are not
accounted for, which may be deleted although they are not dynamic; whether peers may be added, the configuration is unchanged,
`OwnOk` is kept, no addresses are set. -/
structure Ex where
  est : Nat → Prop
  reset : Nat → Prop
  hs : Nat → Prop
  del : Nat → Prop
  add : Prop
  stat : Prop
  own : Prop
  addr : Prop

/-- How a peer changes. -/
structure Rho (E : Ex) (now : Time) (l : List Eff) (p p' : Peer) : Prop where
  id : p'.id = p.id
  key : p'.key = p.key
  dyn : p'.isDynamic = p.isDynamic
  stat : E.stat → p'.stat = p.stat
  addr : E.addr → p'.addr = p.addr ∨ p'.addr.isSet = false
  setups : p.setups ≤ p'.setups
  est : p'.state = .established → p.state = .established ∨ E.est p.id ∨ .established p.id ∈ l
  reset : p.isDynamic = false → p'.state = .established → p'.resetTimeout = p.resetTimeout ∨ E.reset p.id ∨ E.est p.id ∨
    .established p.id ∈ l ∨ ∃ k d, .accept p.id k d ∈ l
  late : p.isDynamic = false → p'.state = .established → .established p.id ∈ l → E.reset p.id ∨ E.est p.id ∨
    (∃ k d, .accept p.id k d ∈ l) ∨ p'.resetTimeout = now + PEER_STALE_TIME
  hs : p'.setups = p.setups → (E.hs p.id → p'.lastHsTimeout = p.lastHsTimeout ∧ p'.lastHsAddr = p.lastHsAddr) ∧
    (¬ E.hs p.id → HsRun now (p.lastHsTimeout, p.lastHsAddr) (inits p.id l) (p'.lastHsTimeout, p'.lastHsAddr))

/-- A peer that was added. -/
structure Born (E : Ex) (l : List Eff) (p' : Peer) : Prop where
  add : E.add
  est : p'.state = .established → E.est p'.id ∨ .established p'.id ∈ l
  addr : E.addr → p'.addr.isSet = false
  dyn : E.stat → p'.isDynamic = true

/-- Peer ids are unique. -/
structure Ids (c : Ctx) : Prop where
  sorted : Sorted c.peers
  lt : ∀ p ∈ c.peers, p.id < c.nextId

structure Tr (E : Ex) (c c' : Ctx) : Prop where
  now : c'.now = c.now
  nextId : c.nextId ≤ c'.nextId
  ids : Ids c'
  back : ∃ l, c'.log = c.log ++ l ∧ ∀ p' ∈ c'.peers, (∃ p ∈ c.peers, Rho E c.now l p p') ∨ (c.nextId ≤ p'.id ∧ Born E l p')
  own : E.own → OwnOk c → OwnOk c'
  keep : ∀ p ∈ c.peers, p.isDynamic = false → E.del p.id ∨ ∃ p' ∈ c'.peers, p'.id = p.id ∧ p'.isDynamic = false

/-- A computation that respects the relation. -/
def Pr (E : Ex) {α : Type} (m : M α) : Prop := ∀ c a c', Ids c → m c = .ok (a, c') → Tr E c c'

/-! ### Properties of the relation -/

theorem inits_append (i : Nat) (l l' : List Eff) : inits i (l ++ l') = inits i l ++ inits i l' := List.filterMap_append

theorem HsRun.append {now : Time} {s s' s'' : Time × Addr} {l l' : List Addr} (h : HsRun now s l s') (h' : HsRun now s' l' s'') :
    HsRun now s (l ++ l') s'' := by
  induction l generalizing s with
  | nil => cases h; exact h'
  | cons b bs ih => exact ⟨h.1, ih h.2⟩

theorem Rho.refl {E : Ex} {now : Time} {p : Peer} : Rho E now [] p p :=
  ⟨rfl, rfl, rfl, fun _ => rfl, fun _ => .inl rfl, Nat.le_refl _, .inl, fun _ _ => .inl rfl, (by intros; contradiction),
    fun _ => ⟨fun _ => ⟨rfl, rfl⟩, fun _ => rfl⟩⟩

theorem Rho.trans {E : Ex} {now : Time} {l l' : List Eff} {p q r : Peer} (h : Rho E now l p q) (h' : Rho E now l' q r) :
    Rho E now (l ++ l') p r := by
  have hid := h.id
  refine ⟨h'.id.trans hid, h'.key.trans h.key, h'.dyn.trans h.dyn, fun s => (h'.stat s).trans (h.stat s), fun a => ?_,
    Nat.le_trans h.setups h'.setups, fun he => ?_, fun hd he => ?_, fun hd he hm => ?_, fun hs => ?_⟩
  · rcases h'.addr a with h1 | h1
    · rw [h1]; exact h.addr a
    · exact .inr h1
  · rcases h'.est he with h1 | h1 | h1
    · rcases h.est h1 with h2 | h2 | h2
      · exact .inl h2
      · exact .inr (.inl h2)
      · exact .inr (.inr (List.mem_append_left _ h2))
    · rw [hid] at h1; exact .inr (.inl h1)
    · rw [hid] at h1; exact .inr (.inr (List.mem_append_right _ h1))
  · have hd' := h.dyn.trans hd
    rcases h'.est he with h1 | h1 | h1
    · rcases h'.reset hd' he with h2 | h2 | h2 | h2 | ⟨k, d, h2⟩
      · rcases h.reset hd h1 with h3 | h3 | h3 | h3 | ⟨k, d, h3⟩
        · exact .inl (h2.trans h3)
        · exact .inr (.inl h3)
        · exact .inr (.inr (.inl h3))
        · exact .inr (.inr (.inr (.inl (List.mem_append_left _ h3))))
        · exact .inr (.inr (.inr (.inr ⟨k, d, List.mem_append_left _ h3⟩)))
      · rw [hid] at h2; exact .inr (.inl h2)
      · rw [hid] at h2; exact .inr (.inr (.inl h2))
      · rw [hid] at h2; exact .inr (.inr (.inr (.inl (List.mem_append_right _ h2))))
      · rw [hid] at h2; exact .inr (.inr (.inr (.inr ⟨k, d, List.mem_append_right _ h2⟩)))
    · rw [hid] at h1; exact .inr (.inr (.inl h1))
    · rw [hid] at h1; exact .inr (.inr (.inr (.inl (List.mem_append_right _ h1))))
  · have hd' := h.dyn.trans hd
    have hl := h'.late hd' he
    rw [hid] at hl
    have right : .established p.id ∈ l' → E.reset p.id ∨ E.est p.id ∨ (∃ k d, .accept p.id k d ∈ l ++ l') ∨
        r.resetTimeout = now + PEER_STALE_TIME := fun h1 => by
      rcases hl h1 with h2 | h2 | ⟨k, d, h2⟩ | h2
      · exact .inl h2
      · exact .inr (.inl h2)
      · exact .inr (.inr (.inl ⟨k, d, List.mem_append_right _ h2⟩))
      · exact .inr (.inr (.inr h2))
    rcases List.mem_append.1 hm with hm | hm
    · have he' := h'.est he
      have hr' := h'.reset hd' he
      rw [hid] at he' hr'
      rcases he' with h1 | h1 | h1
      · rcases hr' with h2 | h2 | h2 | h2 | ⟨k, d, h2⟩
        · rcases h.late hd h1 hm with h3 | h3 | ⟨k, d, h3⟩ | h3
          · exact .inl h3
          · exact .inr (.inl h3)
          · exact .inr (.inr (.inl ⟨k, d, List.mem_append_left _ h3⟩))
          · exact .inr (.inr (.inr (h2.trans h3)))
        · exact .inl h2
        · exact .inr (.inl h2)
        · exact right h2
        · exact .inr (.inr (.inl ⟨k, d, List.mem_append_right _ h2⟩))
      · exact .inr (.inl h1)
      · exact right h1
    · exact right hm
  · have h1 := h.setups
    have h2 := h'.setups
    obtain ⟨a, b⟩ := h.hs (by omega)
    obtain ⟨a', b'⟩ := h'.hs (by omega)
    rw [hid] at a' b'
    refine ⟨fun e => ⟨(a' e).1.trans (a e).1, (a' e).2.trans (a e).2⟩, fun e => ?_⟩
    rw [inits_append]
    exact (b e).append (b' e)

theorem Born.trans {E : Ex} {now : Time} {l l' : List Eff} {q r : Peer} (h : Born E l q) (h' : Rho E now l' q r) :
    Born E (l ++ l') r := by
  refine ⟨h.add, fun he => ?_, fun a => ?_, fun s => h'.dyn.trans (h.dyn s)⟩
  · rw [h'.id]
    rcases h'.est he with h1 | h1 | h1
    · rcases h.est h1 with h2 | h2
      · exact .inl h2
      · exact .inr (List.mem_append_left _ h2)
    · exact .inl h1
    · exact .inr (List.mem_append_right _ h1)
  · rcases h'.addr a with h1 | h1
    · rw [h1]; exact h.addr a
    · exact h1

theorem Born.right {E : Ex} {l l' : List Eff} {q : Peer} (h : Born E l' q) : Born E (l ++ l') q :=
  ⟨h.add, fun he => (h.est he).imp_right (List.mem_append_right _), h.addr, h.dyn⟩

theorem Tr.refl {E : Ex} {c : Ctx} (h : Ids c) : Tr E c c :=
  ⟨rfl, Nat.le_refl _, h, ⟨[], by simp, fun p hp => .inl ⟨p, hp, Rho.refl⟩⟩, fun _ h => h, fun p hp hd => .inr ⟨p, hp, rfl, hd⟩⟩

theorem Tr.trans {E : Ex} {c c' c'' : Ctx} (h : Tr E c c') (h' : Tr E c' c'') : Tr E c c'' := by
  obtain ⟨l, hl, hb⟩ := h.back
  obtain ⟨l', hl', hb'⟩ := h'.back
  refine ⟨h'.now.trans h.now, Nat.le_trans h.nextId h'.nextId, h'.ids, ⟨l ++ l', by rw [hl', hl, List.append_assoc], ?_⟩,
    fun o ho => h'.own o (h.own o ho), fun p hp hd => ?_⟩
  rotate_left
  · rcases h.keep p hp hd with h1 | ⟨q, hq, hqi, hqd⟩
    · exact .inl h1
    · rcases h'.keep q hq hqd with h1 | ⟨r, hr, hri, hrd⟩
      · exact .inl (hqi ▸ h1)
      · exact .inr ⟨r, hr, hri.trans hqi, hrd⟩
  intro r hr
  rcases hb' r hr with ⟨q, hq, hqr⟩ | ⟨hn, hf⟩
  · rw [h.now] at hqr
    rcases hb q hq with ⟨p, hp, hpq⟩ | ⟨hn, hf⟩
    · exact .inl ⟨p, hp, hpq.trans hqr⟩
    · exact .inr ⟨by rw [hqr.id]; exact hn, hf.trans hqr⟩
  · exact .inr ⟨Nat.le_trans h.nextId hn, hf.right⟩

/-! ### Computations -/

variable {E : Ex} {α β : Type}

theorem Pr.pure {a : α} : Pr E (Pure.pure a : M α) := by
  intro c a' c' hi h
  cases h
  exact Tr.refl hi

theorem Pr.fail {e : Fail} : Pr E (fail e : M α) := by
  intro c a' c' hi h
  cases h

theorem Pr.get : Pr E get := by
  intro c a' c' hi h
  cases h
  exact Tr.refl hi

theorem bind_ok {m : M α} {f : α → M β} {c c' : Ctx} {b : β} (h : (m >>= f) c = .ok (b, c')) :
    ∃ a c1, m c = .ok (a, c1) ∧ f a c1 = .ok (b, c') := by
  have h' : M.bind m f c = .ok (b, c') := h
  unfold M.bind at h'
  cases hm : m c with
  | error e => rw [hm] at h'; cases h'
  | ok r => obtain ⟨a, c1⟩ := r; rw [hm] at h'; exact ⟨a, c1, rfl, h'⟩

theorem Pr.bind {m : M α} {f : α → M β} (hm : Pr E m) (hf : ∀ a, Pr E (f a)) : Pr E (m >>= f) := by
  intro c b c' hi h
  obtain ⟨a, c1, h1, h2⟩ := bind_ok h
  have t1 := hm c a c1 hi h1
  exact t1.trans (hf a c1 b c' t1.ids h2)

/-- The same, with what is known about the result of the first part. -/
theorem Pr.bind' {m : M α} {f : α → M β} (hm : Pr E m)
    (hf : ∀ a c c1, Ids c → m c = .ok (a, c1) → ∀ b c', f a c1 = .ok (b, c') → Tr E c1 c') : Pr E (m >>= f) := by
  intro c b c' hi h
  obtain ⟨a, c1, h1, h2⟩ := bind_ok h
  exact (hm c a c1 hi h1).trans (hf a c c1 hi h1 b c' h2)

theorem Pr.ite {P : Prop} [Decidable P] {m m' : M α} (h : Pr E m) (h' : Pr E m') : Pr E (if P then m else m') := by
  by_cases hP : P
  · rw [if_pos hP]; exact h
  · rw [if_neg hP]; exact h'

theorem Pr.when {b : Bool} {m : M Unit} (h : Pr E m) : Pr E (when b m) := Pr.ite h Pr.pure

theorem Pr.draw : Pr E draw := by
  intro c a' c' hi h
  cases h
  exact ⟨rfl, Nat.le_refl _, ⟨hi.sorted, hi.lt⟩, ⟨[], by simp, fun p hp => .inl ⟨p, hp, Rho.refl⟩⟩, fun _ h => h,
    fun p hp hd => .inr ⟨p, hp, rfl, hd⟩⟩

theorem Pr.drawBool : Pr E drawBool := Pr.bind Pr.draw fun _ => Pr.pure

theorem Pr.rand {a b : Time} : Pr E (rand a b) := Pr.bind Pr.draw fun _ => Pr.pure

/-- Changes that do not concern peers. -/
theorem Pr.modify {f : Ctx → Ctx} (hn : ∀ c, (f c).now = c.now) (hx : ∀ c, (f c).nextId = c.nextId)
    (hp : ∀ c, (f c).peers = c.peers) (hl : ∀ c, (f c).log = c.log) : Pr E (modify f) := by
  intro c a' c' hi h
  cases h
  refine ⟨hn c, Nat.le_of_eq (hx c).symm, ⟨by rw [hp]; exact hi.sorted, by rw [hp, hx]; exact hi.lt⟩, ⟨[], by rw [hl]; simp, ?_⟩,
    fun _ h => by unfold OwnOk; rw [hp]; exact h, fun p hq hd => .inr ⟨p, by rw [hp]; exact hq, rfl, hd⟩⟩
  rw [hp]
  exact fun p hp => .inl ⟨p, hp, Rho.refl⟩

theorem Rho.log {now : Time} {p : Peer} {l : List Eff} (h : E.hs p.id ∨ inits p.id l = [])
    (h' : E.est p.id ∨ .established p.id ∉ l) : Rho E now l p p := by
  refine ⟨rfl, rfl, rfl, fun _ => rfl, fun _ => .inl rfl, Nat.le_refl _, .inl, fun _ _ => .inl rfl, fun _ _ hm => ?_, fun _ =>
    ⟨fun _ => ⟨rfl, rfl⟩, fun hn => ?_⟩⟩
  · rcases h' with h' | h'
    · exact .inr (.inl h')
    · exact absurd hm h'
  rcases h with h | h
  · exact absurd h hn
  · rw [h]; rfl

theorem Pr.emit {e : Eff} (he : ∀ i, E.hs i ∨ inits i [e] = []) (hs : ∀ i, E.est i ∨ .established i ∉ [e]) : Pr E (emit e) := by
  intro c a' c' hi h
  cases h
  exact ⟨rfl, Nat.le_refl _, ⟨hi.sorted, hi.lt⟩, ⟨[e], rfl, fun p hp => .inl ⟨p, hp, Rho.log (he _) (hs _)⟩⟩, fun _ h => h,
    fun p hp hd => .inr ⟨p, hp, rfl, hd⟩⟩

theorem getP_ok {i : Nat} {c c' : Ctx} {p : Peer} (h : getP i c = .ok (p, c')) : c' = c ∧ p ∈ c.peers ∧ p.id = i := by
  unfold getP at h
  obtain ⟨a, c1, h1, h2⟩ := bind_ok h
  cases h1
  cases hf : c.peers.find? (·.id = i) with
  | none => simp only [hf] at h2; cases h2
  | some q =>
    simp only [hf] at h2
    cases h2
    exact ⟨rfl, List.mem_of_find?_eq_some hf, by simpa using List.find?_some hf⟩

theorem Pr.getP {i : Nat} : Pr E (getP i) := by
  intro c a' c' hi h
  obtain ⟨rfl, _⟩ := getP_ok h
  exact Tr.refl hi

/-- The state after changing a peer. -/
theorem modP_ok {i : Nat} {f : Peer → Peer} {c c' : Ctx} {a : Unit} (h : modP i f c = .ok (a, c')) :
    (∃ p ∈ c.peers, p.id = i) ∧ c' = { c with peers := updPeers c.peers i f } := by
  unfold modP at h
  obtain ⟨p, c1, h1, h2⟩ := bind_ok h
  obtain ⟨rfl, hp, hi⟩ := getP_ok h1
  cases h2
  exact ⟨⟨p, hp, hi⟩, rfl⟩

theorem mem_upd_cases {ps : List Peer} {i : Nat} {f : Peer → Peer} {p' : Peer} (h : p' ∈ updPeers ps i f) :
    (p' ∈ ps ∧ p'.id ≠ i) ∨ ∃ p ∈ ps, p.id = i ∧ p' = f p := by
  obtain ⟨s, hs, he⟩ := mem_updPeers.1 h
  by_cases hsi : s.id = i
  · rw [if_pos hsi] at he; exact .inr ⟨s, hs, hsi, he.symm⟩
  · rw [if_neg hsi] at he; subst he; exact .inl ⟨hs, hsi⟩

theorem Ids.upd {c : Ctx} (h : Ids c) {i : Nat} {f : Peer → Peer} (hf : ∀ p ∈ c.peers, p.id = i → (f p).id = p.id) :
    Ids { c with peers := updPeers c.peers i f } := by
  refine ⟨sorted_updPeers h.sorted fun p hp hi => hf p hp hi, fun p' hp' => ?_⟩
  rcases mem_upd_cases hp' with ⟨hp, _⟩ | ⟨p, hp, hi, rfl⟩
  · exact h.lt p' hp
  · rw [hf p hp hi]; exact h.lt p hp

theorem owns_stat {p q : Peer} (h : p.stat = q.stat) (a : Addr) : ownsAddress p a = ownsAddress q a := by
  have hr : p.remotes.map (fun r => (r.hostname, r.address)) = q.remotes.map fun r => (r.hostname, r.address) := congrArg Stat.rem h
  have hf : p.floating = q.floating := congrArg Stat.floating h
  have he : p.remotes.isEmpty = q.remotes.isEmpty := by
    have := congrArg List.isEmpty hr
    rwa [List.isEmpty_map, List.isEmpty_map] at this
  unfold ownsAddress Peer.isFloating
  rw [hf, he]
  split
  · rfl
  · have := congrArg (fun l => l.any fun (x : Option Bytes × Addr) => x.1 = none && addrEq x.2 a) hr
    rw [List.any_map, List.any_map] at this
    exact this

theorem enabled_stat {p q : Peer} (h : p.stat = q.stat) : p.isEnabled = q.isEnabled := by
  unfold Peer.isEnabled; rw [stat_cfg h]

/-- Peers neither change their configuration nor get an address. -/
theorem OwnOk.calm {c c' : Ctx} (h : OwnOk c)
    (hb : ∀ p' ∈ c'.peers, ∃ p ∈ c.peers, p'.stat = p.stat ∧ (p'.addr = p.addr ∨ p'.addr.isSet = false)) : OwnOk c' := by
  intro p' hp' q' hq' hne hen ha
  obtain ⟨p, hp, hps, hpa⟩ := hb p' hp'
  obtain ⟨q, hq, hqs, _⟩ := hb q' hq'
  rcases hpa with hpa | hpa
  · rw [owns_stat hqs, hpa]
    refine h p hp q hq ?_ (by rw [← enabled_stat hqs]; exact hen) (by rw [← hpa]; exact ha)
    rw [← stat_id hps, ← stat_id hqs]; exact hne
  · rw [hpa] at ha; cases ha

theorem Tr.modP {i : Nat} {f : Peer → Peer} {c c' : Ctx} {a : Unit} (hc : Ids c) (h : modP i f c = .ok (a, c'))
    (hf : ∀ p ∈ c.peers, p.id = i → Rho E c.now [] p (f p))
    (ho : E.own → ∀ p ∈ c.peers, p.id = i → (f p).stat = p.stat ∧ ((f p).addr = p.addr ∨ (f p).addr.isSet = false)) : Tr E c c' := by
  obtain ⟨_, rfl⟩ := modP_ok h
  refine ⟨rfl, Nat.le_refl _, hc.upd fun p hp hi => (hf p hp hi).id, ⟨[], by simp, fun p' hp' => .inl ?_⟩, fun o hO => ?_,
    fun p hp hd => .inr ?_⟩
  rotate_left 2
  · by_cases hpi : p.id = i
    · exact ⟨f p, mem_updPeers.2 ⟨p, hp, if_pos hpi⟩, (hf p hp hpi).id, (hf p hp hpi).dyn.trans hd⟩
    · exact ⟨p, mem_updPeers.2 ⟨p, hp, if_neg hpi⟩, rfl, hd⟩
  · rcases mem_upd_cases hp' with ⟨hp, _⟩ | ⟨p, hp, hi, rfl⟩
    · exact ⟨p', hp, Rho.refl⟩
    · exact ⟨p, hp, hf p hp hi⟩
  · refine hO.calm fun p' hp' => ?_
    rcases mem_upd_cases hp' with ⟨hp, _⟩ | ⟨p, hp, hi, rfl⟩
    · exact ⟨p', hp, rfl, .inl rfl⟩
    · exact ⟨p, hp, ho o p hp hi⟩

theorem Pr.modP {i : Nat} {f : Peer → Peer} (hf : ∀ now p, p.id = i → Rho E now [] p (f p))
    (ho : E.own → ∀ p, p.id = i → (f p).stat = p.stat ∧ ((f p).addr = p.addr ∨ (f p).addr.isSet = false)) : Pr E (modP i f) :=
  fun c _ _ hc h => Tr.modP hc h (fun p _ => hf c.now p) fun o p _ => ho o p

/-- Changes of uninteresting fields. -/
structure Calm (p p' : Peer) : Prop where
  stat : p'.stat = p.stat
  addr : p'.addr = p.addr ∨ p'.addr.isSet = false
  setups : p'.setups = p.setups
  est : p'.state = .established → p.state = .established
  reset : p'.state = .established → p'.resetTimeout = p.resetTimeout
  hs : p'.lastHsTimeout = p.lastHsTimeout ∧ p'.lastHsAddr = p.lastHsAddr

theorem dyn_stat {p q : Peer} (h : p.stat = q.stat) : p.isDynamic = q.isDynamic := by unfold Peer.isDynamic; rw [stat_cfg h]

theorem Calm.rho {now : Time} {p p' : Peer} (h : Calm p p') : Rho E now [] p p' :=
  ⟨stat_id h.stat, stat_key h.stat, dyn_stat h.stat, fun _ => h.stat, fun _ => h.addr, Nat.le_of_eq h.setups.symm,
    fun he => .inl (h.est he), fun _ he => .inl (h.reset he), (by intros; contradiction), fun _ => ⟨fun _ => h.hs, fun _ => by rw [h.hs.1, h.hs.2]; rfl⟩⟩

theorem Pr.calm {i : Nat} {f : Peer → Peer} (hf : ∀ p, Calm p (f p)) : Pr E (Daemon.modP i f) :=
  Pr.modP (fun _ p _ => (hf p).rho) fun _ p _ => ⟨(hf p).stat, (hf p).addr⟩

theorem Pr.forEach {f : α → M Unit} (hf : ∀ a, Pr E (f a)) (l : List α) : Pr E (forEach f l) := by
  induction l with
  | nil => exact Pr.pure
  | cons a as ih => exact Pr.bind (hf a) fun _ => ih

/-- Proves `Pr` for a program of known parts. -/
syntax "pr" "[" term,* "]" : tactic

macro_rules
  | `(tactic| pr [$ls,*]) => `(tactic| repeat' (first
      | exact Pr.pure
      | exact Pr.fail
      | exact Pr.get
      | exact Pr.getP
      | exact Pr.draw
      | exact Pr.drawBool
      | exact Pr.rand
      | exact Pr.modify (fun _ => rfl) (fun _ => rfl) (fun _ => rfl) (fun _ => rfl)
      | exact Pr.emit (fun _ => .inr rfl) fun _ => .inr (by simp)
      | exact Pr.calm fun _ => ⟨rfl, .inl rfl, rfl, id, fun _ => rfl, rfl, rfl⟩
      | (first $[| exact $(ls.getElems)]*)
      | with_reducible refine Pr.bind ?_ fun _ => ?_
      | with_reducible refine Pr.when ?_
      | with_reducible refine Pr.forEach (fun _ => ?_) _
      | with_reducible refine Pr.ite ?_ ?_
      | split))

theorem Pr.unit : Pr E (Pure.pure () : M Unit) := Pr.pure

/-! ### Hash table, MAC table, sockets -/

theorem pr_htInsertFuel (n i : Nat) : Pr E (htInsertFuel n i) := by
  induction n generalizing i with
  | zero => exact Pr.fail
  | succ n ih => unfold htInsertFuel; pr [ih _]

theorem pr_htInsert (i : Nat) : Pr E (htInsert i) := pr_htInsertFuel 2 i

theorem pr_htRemove (i : Nat) : Pr E (htRemove i) := by unfold htRemove; pr [Pr.unit]

theorem pr_htScan (a : Addr) (l : List Nat) : Pr E (htScan a l) := by
  induction l with
  | nil => exact Pr.pure
  | cons i l ih => unfold htScan; pr [ih]

theorem pr_htLookup (a : Addr) : Pr E (htLookup a) := by unfold htLookup; pr [pr_htScan _ _]

theorem pr_ethPut (o : Option Nat) (a : Bytes) : Pr E (ethPut o a) := by unfold ethPut; pr [Pr.unit]

theorem pr_ethAdd (o : Option Nat) (a : Bytes) : Pr E (ethAdd o a) := by unfold ethAdd; pr [pr_ethPut _ _]

theorem pr_sockLive (s : Sock) : Pr E (sockLive s) := by unfold sockLive; pr [Pr.unit]

theorem pr_sockPeer (s : Sock) : Pr E (sockPeer s) := by unfold sockPeer; pr [Pr.unit]

theorem pr_freeSocket (i : Nat) : Pr E (freeSocket i) := by unfold freeSocket; pr [pr_sockPeer _]

theorem pr_socketOpen (i : Nat) : Pr E (socketOpen i) := by unfold socketOpen; pr [Pr.unit]

theorem pr_newSocket (i : Nat) (d : Option Nat) : Pr E (newSocket i d) := by unfold newSocket; pr [pr_socketOpen _]

theorem pr_resetSocket (i : Nat) : Pr E (resetSocket i) := by unfold resetSocket; pr [pr_freeSocket _, pr_newSocket _ _]

/-! ### Set-up and reset -/

theorem pr_schedulePeerTask (i : Nat) : Pr E (schedulePeerTask i) := by
  unfold schedulePeerTask
  refine Pr.calm fun p => ?_
  split
  · exact ⟨rfl, .inl rfl, rfl, id, fun _ => rfl, rfl, rfl⟩
  · split <;> exact ⟨rfl, .inl rfl, rfl, id, fun _ => rfl, rfl, rfl⟩

theorem pr_setNextHandshake (i : Nat) (d : Time) : Pr E (setNextHandshake i d) := by unfold setNextHandshake; pr [Pr.unit]

theorem pr_handshakeDefaultRand : Pr E handshakeDefaultRand := Pr.rand

theorem pr_setNextHandshakeDefault (i : Nat) : Pr E (setNextHandshakeDefault i) := by
  unfold setNextHandshakeDefault; pr [pr_handshakeDefaultRand, pr_setNextHandshake _ _]

theorem pr_scheduleHandshake (i : Nat) (d : Time) : Pr E (scheduleHandshake i d) := by
  unfold scheduleHandshake; pr [pr_setNextHandshake _ _, pr_schedulePeerTask _]

theorem pr_scheduleHandshakeDefault (i : Nat) : Pr E (scheduleHandshakeDefault i) := by
  unfold scheduleHandshakeDefault; pr [pr_handshakeDefaultRand, pr_scheduleHandshake _ _]

theorem pr_freeState (o : Option Nat) : Pr E (freeState o) := by unfold freeState; pr [Pr.unit]

theorem pr_freeSession (s : Session) : Pr E (freeSession s) := by unfold freeSession; pr [pr_freeState _]

theorem pr_resetPeerState (i : Nat) : Pr E (resetPeerState i) := by unfold resetPeerState; pr [pr_freeSession _]

theorem pr_resetPeer (i : Nat) : Pr E (resetPeer i) := by
  unfold resetPeer
  pr [pr_freeSocket _, pr_resetPeerState _, pr_htRemove _,
    Pr.calm fun _ => ⟨rfl, .inr rfl, rfl, fun h => (by simp at h), fun h => (by simp at h), rfl, rfl⟩]

theorem pr_initDelay (g : Nat) : Pr E (initDelay g) := by unfold initDelay; pr [Pr.unit]

theorem pr_initHandshake (i : Nat) : Pr E (initHandshake i) := by
  unfold initHandshake
  pr [pr_initDelay _, pr_scheduleHandshake _ _,
    Pr.calm fun _ => ⟨rfl, .inl rfl, rfl, fun h => (by simp at h), fun h => (by simp at h), rfl, rfl⟩]

theorem pr_getR (i k : Nat) : Pr E (getR i k) := by unfold getR; pr [Pr.unit]

theorem modify_stat {l : List Remote} {k : Nat} {f : Remote → Remote} (hf : ∀ r, (f r).hostname = r.hostname ∧ (f r).address = r.address) :
    (l.modify k f).map (fun r => (r.hostname, r.address)) = l.map fun r => (r.hostname, r.address) := by
  induction l generalizing k with
  | nil => cases k <;> rfl
  | cons a l ih =>
    cases k with
    | zero => simp [(hf a).1, (hf a).2]
    | succ k => simp [ih]

theorem pr_modR {i k : Nat} {f : Remote → Remote} (hf : ∀ r, (f r).hostname = r.hostname ∧ (f r).address = r.address) :
    Pr E (modR i k f) := by
  unfold modR
  pr [pr_getR _ _, Pr.calm fun p => ⟨by unfold Peer.stat; simp only [modify_stat hf], .inl rfl, rfl, id, fun _ => rfl, rfl, rfl⟩]

theorem pr_resolvePeer (i k : Nat) : Pr E (resolvePeer i k) := by
  unfold resolvePeer
  pr [pr_getR _ _, pr_modR fun _ => ⟨rfl, rfl⟩]

theorem pr_setupIface (i : Nat) : Pr E (setupIface i) := by unfold setupIface; pr [Pr.unit]

theorem pr_setupConnect (i : Nat) : Pr E (setupConnect i) := by
  unfold setupConnect
  pr [pr_getR _ _, pr_modR fun _ => ⟨rfl, rfl⟩, pr_resolvePeer _ _, pr_setNextHandshakeDefault _, pr_initHandshake _,
    Pr.calm fun _ => ⟨rfl, .inl rfl, rfl, fun h => (by simp at h), fun h => (by simp at h), rfl, rfl⟩]

theorem pr_setupPeer (i : Nat) (hE : E.reset i) : Pr E (setupPeer i) := by
  unfold setupPeer
  pr [pr_setupIface _, pr_setupConnect _, pr_schedulePeerTask _]
  refine Pr.modP (fun now p hi => ?_) fun _ p _ => ⟨setupFields_stat _ p, .inl rfl⟩
  have hs := setupFields_stat
  refine ⟨stat_id (hs _ p), stat_key (hs _ p), dyn_stat (hs _ p), fun _ => hs _ p, fun _ => .inl rfl, ?_, .inl, fun _ _ => .inr (.inl ?_),
    (by intros; contradiction), ?_⟩
  · show p.setups ≤ p.setups + 1
    omega
  · rw [hi]; exact hE
  · intro h
    have : p.setups + 1 = p.setups := h
    omega

/-- A computation that logs nothing. -/
def Mute {α : Type} (m : M α) : Prop := ∀ c a c', m c = .ok (a, c') → c'.log = c.log

theorem Mute.bind {m : M α} {f : α → M β} (hm : Mute m) (hf : ∀ a, Mute (f a)) : Mute (m >>= f) := by
  intro c b c' h
  obtain ⟨a, c1, h1, h2⟩ := bind_ok h
  exact (hf a c1 b c' h2).trans (hm c a c1 h1)

theorem Mute.pure {a : α} : Mute (Pure.pure a : M α) := by intro c a c' h; cases h; rfl

theorem Mute.fail {e : Fail} : Mute (fail e : M α) := by intro c a c' h; cases h

theorem Mute.get : Mute get := by intro c a c' h; cases h; rfl

theorem Mute.draw : Mute draw := by intro c a c' h; cases h; rfl

theorem Mute.getP {i : Nat} : Mute (getP i) := by intro c a c' h; obtain ⟨rfl, _⟩ := getP_ok h; rfl

theorem Mute.modP {i : Nat} {f : Peer → Peer} : Mute (modP i f) := by intro c a c' h; obtain ⟨_, rfl⟩ := modP_ok h; rfl

theorem Mute.modify {f : Ctx → Ctx} (hf : ∀ c, (f c).log = c.log) : Mute (modify f) := by intro c a c' h; cases h; exact hf c

/-- Proves `Mute` for a program of known parts. -/
syntax "mute" "[" term,* "]" : tactic

macro_rules
  | `(tactic| mute [$ls,*]) => `(tactic| repeat' (first
      | exact Mute.pure
      | exact Mute.fail
      | exact Mute.get
      | exact Mute.getP
      | exact Mute.modP
      | exact Mute.draw
      | exact Mute.modify fun _ => rfl
      | (first $[| exact $(ls.getElems)]*)
      | with_reducible refine Mute.bind ?_ fun _ => ?_
      | split))

theorem mute_setupPeer (i : Nat) : Mute (setupPeer i) := by
  have h1 (d) : Mute (setNextHandshake i d) := by unfold setNextHandshake; mute [Mute.get]
  have h2 : Mute (schedulePeerTask i) := Mute.modP
  have h0 (k) : Mute (getR i k) := by unfold getR; mute [Mute.get]
  have h3 (k) : Mute (resolvePeer i k) := by unfold resolvePeer modR drawBool Daemon.when; mute [h0 _]
  have h4 : Mute (initHandshake i) := by unfold initHandshake initDelay scheduleHandshake rand; mute [h1 _, h2]
  have h5 : Mute (setNextHandshakeDefault i) := by unfold setNextHandshakeDefault handshakeDefaultRand rand; mute [h1 _]
  have h6 : Mute (setupIface i) := by unfold setupIface; mute [h2]
  unfold setupPeer setupConnect modR
  mute [h0 _, h2, h3 _, h4, h5, h6]

/-- Only changes of the time-out of an established static peer count. -/
theorem Tr.noReset {c c' : Ctx} {i : Nat} (h : Tr { E with reset := fun j => E.reset j ∨ j = i } c c')
    (hn : ∀ p ∈ c.peers, p.id = i → p.isDynamic = true ∨ p.state ≠ .established ∧ c'.log = c.log) : Tr E c c' := by
  obtain ⟨l, hl, hb⟩ := h.back
  refine ⟨h.now, h.nextId, h.ids, ⟨l, hl, fun p' hp' => ?_⟩, h.own, h.keep⟩
  rcases hb p' hp' with ⟨p, hp, r⟩ | ⟨h1, h2⟩
  · refine .inl ⟨p, hp, r.id, r.key, r.dyn, r.stat, r.addr, r.setups, r.est, fun hd he => ?_, fun hd he hm => ?_, r.hs⟩
    rotate_left
    · rcases r.late hd he hm with (h1 | h1) | h1
      · exact .inl h1
      · rcases hn p hp h1 with h2 | h2
        · rw [hd] at h2; cases h2
        · have : l = [] := by simpa [h2.2] using hl
          rw [this] at hm; contradiction
      · exact .inr h1
    rcases r.reset hd he with h1 | (h1 | h1) | h1
    · exact .inl h1
    · exact .inr (.inl h1)
    · rcases hn p hp h1 with h2 | ⟨h2, _⟩
      · rw [hd] at h2; cases h2
      · rcases r.est he with h3 | h3 | h3
        · exact absurd h3 h2
        · exact .inr (.inr (.inl h3))
        · exact .inr (.inr (.inr (.inl h3)))
    · exact .inr (.inr h1)
  · exact .inr ⟨h1, h2.add, h2.est, h2.addr, h2.dyn⟩

/-- The strongest form. -/
def strict : Ex := ⟨nobody, nobody, nobody, fun _ => True, False, True, True, True⟩

theorem Tr.strict {c c' : Ctx} (h : Tr strict c c') {p' : Peer} (hp' : p' ∈ c'.peers) :
    ∃ p ∈ c.peers, p'.id = p.id ∧ p'.stat = p.stat ∧ (p'.addr = p.addr ∨ p'.addr.isSet = false) ∧
      (p'.state = .established → p.state = .established ∨ ∃ l, c'.log = c.log ++ l ∧ .established p.id ∈ l) := by
  obtain ⟨l, hl, hb⟩ := h.back
  rcases hb p' hp' with ⟨p, hp, r⟩ | ⟨_, h2⟩
  · exact ⟨p, hp, r.id, r.stat trivial, r.addr trivial, fun he => by
      rcases r.est he with h | h | h
      · exact .inl h
      · exact h.elim
      · exact .inr ⟨l, hl, h⟩⟩
  · exact h2.add.elim

theorem mem_upd_id {ps : List Peer} {i : Nat} {f : Peer → Peer} {p' : Peer}
    (h : p' ∈ updPeers ps i f) (hi : p'.id = i) : ∃ p ∈ ps, p.id = i ∧ p' = f p := by
  rcases mem_upd_cases h with ⟨_, h⟩ | ⟨p, hp, hpi, rfl⟩
  · exact absurd hi h
  · exact ⟨p, hp, hpi, rfl⟩

theorem resetPeer_state {i : Nat} {c c' : Ctx} {a : Unit} (h : resetPeer i c = .ok (a, c')) :
    ∀ p ∈ c'.peers, p.id = i → p.state = .inactive := by
  unfold resetPeer at h
  obtain ⟨_, c1, _, h⟩ := bind_ok h
  obtain ⟨_, c2, _, h⟩ := bind_ok h
  obtain ⟨_, c3, _, h⟩ := bind_ok h
  obtain ⟨_, c4, _, h⟩ := bind_ok h
  obtain ⟨_, c5, _, h⟩ := bind_ok h
  obtain ⟨_, c6, _, h⟩ := bind_ok h
  obtain ⟨_, c7, _, h⟩ := bind_ok h
  obtain ⟨_, c8, h8, h⟩ := bind_ok h
  obtain ⟨_, e8⟩ := modP_ok h8
  obtain ⟨_, e9⟩ := modP_ok h
  intro p hp hi
  rw [e9] at hp
  obtain ⟨q, hq, hqi, rfl⟩ := mem_upd_id hp hi
  rw [e8] at hq
  obtain ⟨r, hr, hri, rfl⟩ := mem_upd_id hq hqi
  rfl

theorem pr_peerReset (i : Nat) : Pr E (peerReset i) := by
  unfold peerReset
  intro c a c' hi h0
  obtain ⟨p, c1, h1, h'⟩ := bind_ok h0
  clear h0
  obtain ⟨rfl, hp, hpi⟩ := getP_ok h1
  obtain ⟨_, c2, h2, h⟩ := bind_ok h'
  have t2 : Tr E c1 c2 := Pr.when (pr_resetPeer i) _ _ _ hi h2
  refine t2.trans (Tr.noReset (i := i) (pr_setupPeer i (Or.inr rfl) _ _ _ t2.ids h) fun q hq hqi => .inr ⟨?_, mute_setupPeer i _ _ _ h⟩)
  by_cases hs : p.state = .inactive
  · simp only [hs, when, ne_eq, not_true_eq_false, decide_false, Bool.false_eq_true, if_false] at h2
    cases h2
    rw [sorted_inj hi.sorted hq hp (hqi.trans hpi.symm), hs]
    decide
  · simp only [hs, when, ne_eq, not_false_eq_true, decide_true, if_true] at h2
    rw [resetPeer_state h2 q hq hqi]
    decide

theorem freeState_peers {o : Option Nat} {c c' : Ctx} {a : Unit} (h : freeState o c = .ok (a, c')) : c'.peers = c.peers := by
  cases o with
  | none => cases h; rfl
  | some k =>
    obtain ⟨c1, c2, h1, h2⟩ := bind_ok h
    cases h1
    cases hx : c.objs k with
    | none => simp only [hx] at h2; cases h2
    | some _ => simp only [hx] at h2; cases h2; rfl

theorem freeSession_peers {s : Session} {c c' : Ctx} {a : Unit} (h : freeSession s c = .ok (a, c')) : c'.peers = c.peers := by
  unfold freeSession at h
  cases hm : s.method with
  | none => simp only [hm] at h; cases h; rfl
  | some _ => simp only [hm] at h; exact freeState_peers h

theorem updPeers_ids {ps : List Peer} {i : Nat} {f : Peer → Peer} (hf : ∀ p, (f p).id = p.id) :
    (updPeers ps i f).map (·.id) = ps.map (·.id) := by
  unfold updPeers
  rw [List.map_map]
  apply List.map_congr_left
  intro p _
  simp only [Function.comp_apply]
  split
  · exact hf p
  · rfl

theorem resetPeerState_ids {i : Nat} {c c' : Ctx} {a : Unit} (h : resetPeerState i c = .ok (a, c')) :
    c'.peers.map (·.id) = c.peers.map (·.id) := by
  unfold resetPeerState at h
  obtain ⟨p, c1, h1, ha⟩ := bind_ok h
  obtain ⟨rfl, _⟩ := getP_ok h1
  obtain ⟨_, c2, h2, hb⟩ := bind_ok ha
  obtain ⟨_, c3, h3, hc⟩ := bind_ok hb
  obtain ⟨_, rfl⟩ := modP_ok h3
  obtain ⟨q, c4, h4, hd⟩ := bind_ok hc
  obtain ⟨rfl, _⟩ := getP_ok h4
  obtain ⟨_, c5, h5, he⟩ := bind_ok hd
  obtain ⟨_, rfl⟩ := modP_ok he
  show (updPeers c5.peers _ _).map _ = _
  rw [updPeers_ids (by intros; rfl), freeSession_peers h5]
  show (updPeers c2.peers _ _).map _ = _
  rw [updPeers_ids (by intros; rfl), freeSession_peers h2]

theorem pr_deletePeer {i : Nat} (hD : E.del i) : Pr E (deletePeer i) := by
  unfold deletePeer
  intro c a c' hi h
  obtain ⟨p0, c0, h0, h'⟩ := bind_ok h
  obtain ⟨rfl, hp0, hpi0⟩ := getP_ok h0
  clear h
  obtain ⟨c2, c3, h2, h⟩ := bind_ok h'
  cases h2
  cases hx : peerIndex c0.peers i with
  | none => simp only [hx] at h; cases h
  | some k =>
    simp only [hx] at h
    obtain ⟨_, c4, h4, h5⟩ := bind_ok h
    have t4 : Tr E c0 c4 := pr_resetPeerState _ _ _ _ hi h4
    have i4 : c4.peers.map (·.id) = c0.peers.map (·.id) := resetPeerState_ids h4
    refine t4.trans ?_
    have hi4 := t4.ids
    cases h5
    have hsub : ∀ p, p ∈ c4.peers.eraseIdx k → p ∈ c4.peers := fun p hp => List.mem_of_mem_eraseIdx hp
    refine ⟨rfl, Nat.le_refl _, ⟨?_, fun p hp => hi4.lt p (hsub p hp)⟩, ⟨[], by simp, fun p hp => .inl ⟨p, hsub p hp, Rho.refl⟩⟩,
      fun _ ho p hp q hq => ho p (hsub p hp) q (hsub q hq), fun p hp hd => ?_⟩
    · exact List.Pairwise.sublist ((List.eraseIdx_sublist _ _).map _) hi4.sorted
    · by_cases hpi : p.id = i
      · exact .inl (hpi ▸ hD)
      · refine .inr ⟨p, List.mem_eraseIdx_iff_getElem?.2 ?_, rfl, hd⟩
        obtain ⟨n, hn⟩ := List.getElem?_of_mem hp
        refine ⟨n, fun hnk => hpi ?_, hn⟩
        subst hnk
        obtain ⟨q, hq, he⟩ := Data.bsearch_some (Data.sortedFor_nat (fun q : Peer => q.id) c0.peers (List.pairwise_map.1 hi.sorted) i) hx
        have h1 : (c4.peers.map (·.id))[n]? = some p.id := by rw [List.getElem?_map, hn]; rfl
        rw [i4, List.getElem?_map, hq] at h1
        have h1 : q.id = p.id := by simpa using h1
        rw [← h1]
        exact (Nat.compare_eq_eq.1 he).symm

theorem pr_peerDelete {i : Nat} (hD : E.del i) : Pr E (peerDelete i) := by unfold peerDelete; pr [pr_resetPeer _, pr_deletePeer hD]

/-- Dynamic peers may always be deleted. -/
theorem Tr.noDel {c c' : Ctx} {i : Nat} (h : Tr { E with del := fun j => E.del j ∨ j = i } c c')
    (hn : ∀ p ∈ c.peers, p.id = i → p.isDynamic = true) : Tr E c c' := by
  obtain ⟨l, hl, hb⟩ := h.back
  refine ⟨h.now, h.nextId, h.ids, ⟨l, hl, fun p' hp' => ?_⟩, h.own, fun p hp hd => ?_⟩
  · rcases hb p' hp' with ⟨p, hp, r⟩ | ⟨h1, h2⟩
    · exact .inl ⟨p, hp, r.id, r.key, r.dyn, r.stat, r.addr, r.setups, r.est, r.reset, r.late, r.hs⟩
    · exact .inr ⟨h1, h2.add, h2.est, h2.addr, h2.dyn⟩
  · rcases h.keep p hp hd with (h1 | h1) | h1
    · exact .inl h1
    · rw [hn p hp h1] at hd; cases hd
    · exact .inr h1

theorem tr_peerDelete {c c' : Ctx} {i : Nat} {a : Unit} (hi : Ids c) (hn : ∀ p ∈ c.peers, p.id = i → p.isDynamic = true)
    (h : peerDelete i c = .ok (a, c')) : Tr E c c' :=
  Tr.noDel (pr_peerDelete (E := { E with del := fun j => E.del j ∨ j = i }) (Or.inr rfl) _ _ _ hi h) hn

theorem pr_handleResolve (i k : Nat) (l : List Addr) : Pr E (handleResolve i k l) := by
  unfold handleResolve; pr [pr_modR fun _ => ⟨rfl, rfl⟩, pr_initHandshake _]

/-! ### Addresses -/

theorem pr_resetPeerAddress (i : Nat) : Pr E (resetPeerAddress i) := by
  unfold resetPeerAddress
  pr [pr_peerReset _, pr_htRemove _, Pr.calm fun _ => ⟨rfl, .inr rfl, rfl, id, fun _ => rfl, rfl, rfl⟩]

theorem pr_claimSock (i : Nat) (s : Option Sock) : Pr E (claimSock i s) := by
  unfold claimSock; pr [pr_sockLive _, pr_freeSocket _]

theorem Tr.withOwn {c c' : Ctx} (h : Tr { E with own := False } c c') (ho : E.own → OwnOk c → OwnOk c') : Tr E c c' := by
  obtain ⟨l, hl, hb⟩ := h.back
  refine ⟨h.now, h.nextId, h.ids, ⟨l, hl, fun p' hp' => ?_⟩, ho, h.keep⟩
  rcases hb p' hp' with ⟨p, hp, r⟩ | ⟨h1, h2⟩
  · exact .inl ⟨p, hp, r.id, r.key, r.dyn, r.stat, r.addr, r.setups, r.est, r.reset, r.late, r.hs⟩
  · exact .inr ⟨h1, h2.add, h2.est, h2.addr, h2.dyn⟩

theorem claimFinish_own {i : Nat} {sock : Option Sock} {loc : Option Addr} {rem : Addr} {c c' : Ctx} {a : Bool} (hi : Ids c)
    (hO : OwnOk c) (hown : ∀ q ∈ c.peers, q.id ≠ i → q.isEnabled = true → rem.isSet = true → ownsAddress q rem = false)
    (h : claimFinish i sock loc rem c = .ok (a, c')) : OwnOk c' := by
  unfold claimFinish at h
  obtain ⟨_, c1, h1, h'⟩ := bind_ok h
  clear h
  have s1 : Tr strict c c1 := pr_htRemove i _ _ _ hi h1
  obtain ⟨_, c2, h2, h⟩ := bind_ok h'
  obtain ⟨_, e2⟩ := modP_ok h2
  have i2 : Ids c2 := by rw [e2]; exact s1.ids.upd fun _ _ _ => rfl
  have t3 : Tr strict c2 c' := by
    have : Pr strict (do
        htInsert i
        claimSock i sock
        modP i fun p => { p with localAddr := loc.getD p.localAddr }
        pure true : M Bool) := by pr [pr_htInsert _, pr_claimSock _ _]
    exact this _ _ _ i2 h
  refine t3.own trivial ?_
  have hO1 := s1.own trivial hO
  have back : ∀ q' ∈ c2.peers, ∃ q ∈ c1.peers, q'.stat = q.stat ∧ ((q'.id ≠ i ∧ q' = q) ∨ (q'.id = i ∧ q'.addr = rem)) := by
    intro q' hq'
    rw [e2] at hq'
    rcases mem_upd_cases hq' with ⟨hp, h⟩ | ⟨p, hp, hpi, rfl⟩
    · exact ⟨q', hp, rfl, .inl ⟨h, rfl⟩⟩
    · exact ⟨p, hp, rfl, .inr ⟨hpi, rfl⟩⟩
  intro p' hp' q' hq' hne hen ha
  obtain ⟨p, hp, hps, hpp⟩ := back p' hp'
  obtain ⟨q, hq, hqs, _⟩ := back q' hq'
  rw [owns_stat hqs]
  rw [enabled_stat hqs] at hen
  have hqi := stat_id hqs
  rcases hpp with ⟨hpi, rfl⟩ | ⟨hpi, hpa⟩
  · exact hO1 p' hp q hq (by rw [← hqi]; exact hne) hen ha
  · obtain ⟨q0, hq0, h0, h0s, _⟩ := s1.strict hq
    rw [owns_stat h0s, hpa]
    rw [enabled_stat h0s] at hen
    exact hown q0 hq0 (by rw [← h0, ← hqi, ← hpi]; exact fun h => hne h.symm) hen (by rw [← hpa]; exact ha)


theorem pr_claimFinish {i : Nat} {sock : Option Sock} {loc : Option Addr} {rem : Addr} (hA : ¬ E.addr) (hO : ¬ E.own) :
    Pr E (claimFinish i sock loc rem) := by
  unfold claimFinish
  pr [pr_htInsert _, pr_claimSock _ _, pr_htRemove _, Pr.modP
    (fun _ _ _ => ⟨rfl, rfl, rfl, fun _ => rfl, fun h => absurd h hA, Nat.le_refl _, .inl, fun _ _ => .inl rfl, (by intros; contradiction), fun _ =>
        ⟨fun _ => ⟨rfl, rfl⟩, fun _ => rfl⟩⟩) fun h => absurd h hO]

theorem owns_addrEq {a b : Addr} (h : addrEq a b = true) (p : Peer) : ownsAddress p a = ownsAddress p b := by
  unfold ownsAddress
  split
  · rfl
  · congr 1
    funext r
    congr 1
    rw [Bool.eq_iff_iff]
    exact ⟨fun h' => addrEq_trans h' h, fun h' => addrEq_trans h' (addrEq_symm h)⟩

theorem pr_claimAddress {i : Nat} {sock : Option Sock} {loc : Option Addr} {rem : Addr} {force : Bool} (hA : ¬ E.addr) :
    Pr E (claimAddress i sock loc rem force) := by
  intro c a c' hi h
  have fin : ∀ {c1 : Ctx}, Ids c1 → claimFinish i sock loc rem c1 = .ok (a, c') → Tr { E with own := False } c1 c' :=
    fun h1 h2 => pr_claimFinish (E := { E with own := False }) hA id _ _ _ h1 h2
  unfold claimAddress at h
  by_cases hr : rem.isSet = true
  · simp only [hr, Bool.not_true, Bool.false_eq_true, if_false] at h
    obtain ⟨_, c1, h1, h'⟩ := bind_ok h
    cases h1
    clear h
    cases hs : claimScan i rem c.peers with
    | free =>
      simp only [hs] at h'
      exact (fin hi h').withOwn fun _ hO => claimFinish_own hi hO (fun q hq hne hen _ => (claimScan_free hs q hq hne hen).2) h'
    | owned =>
      simp only [hs] at h'
      exact (by pr [pr_resetPeerAddress _] : Pr E (do
        resetPeerAddress i
        pure false : M Bool)) _ _ _ hi h'
    | held j =>
      simp only [hs] at h'
      obtain ⟨q, c2, h2, h⟩ := bind_ok h'
      obtain ⟨rfl, hq, hqj⟩ := getP_ok h2
      clear h'
      by_cases hf : (!force && q.isEstablished) = true
      · rw [if_pos hf] at h
        exact (by pr [pr_resetPeerAddress _] : Pr E (do
          resetPeerAddress i
          pure false : M Bool)) _ _ _ hi h
      · rw [if_neg hf] at h
        obtain ⟨_, c3, h3, h'⟩ := bind_ok h
        have t3 : Tr { E with own := False } c2 c3 := pr_resetPeerAddress j _ _ _ hi h3
        have s3 : Tr strict c2 c3 := pr_resetPeerAddress j _ _ _ hi h3
        refine (t3.trans (fin t3.ids h')).withOwn fun _ hO => claimFinish_own t3.ids (s3.own trivial hO) (fun r hr1 hne hen _ => ?_) h'
        obtain ⟨q', hq', hj', hji, hen', hae, how⟩ := claimScan_held hs
        obtain ⟨r0, hr0, h0, h0s, _⟩ := s3.strict hr1
        rw [owns_stat h0s]
        rw [enabled_stat h0s] at hen
        by_cases hrj : r0.id = j
        · have : r0 = q' := sorted_inj hi.sorted hr0 hq' (hrj.trans hj'.symm)
          rw [this]; exact how
        · have := hO q' hq' r0 hr0 (fun h => hrj (h.symm.trans hj')) hen (addrEq_set hae hr)
          rwa [owns_addrEq hae] at this
  · simp only [Bool.not_eq_true] at hr
    simp only [hr, Bool.not_false, if_true] at h
    obtain ⟨p, c1, h1, h'⟩ := bind_ok h
    obtain ⟨rfl, hp, hpi⟩ := getP_ok h1
    clear h
    obtain ⟨_, c2, h2, h⟩ := bind_ok h'
    have t2 : Tr { E with own := False } c1 c2 := Pr.when (pr_peerReset i) _ _ _ hi h2
    have s2 : Tr strict c1 c2 := Pr.when (pr_peerReset i) _ _ _ hi h2
    exact (t2.trans (fin t2.ids h)).withOwn fun _ hO => claimFinish_own t2.ids (s2.own trivial hO)
      (fun _ _ _ _ hs => by rw [hr] at hs; cases hs) h

/-! ### Adding peers -/

theorem pr_addNew {q : Peer} (ha : E.add) (hs : q.state ≠ .established) (hq : q.addr.isSet = false)
    (ho : E.own → ∀ a, ownsAddress q a = false) (hd : E.stat → q.isDynamic = true) : Pr E (addNew q) := by
  unfold addNew
  intro c a c' hi h
  obtain ⟨_, c1, h1, h'⟩ := bind_ok h
  cases h1
  obtain ⟨_, c2, h2, h3⟩ := bind_ok h'
  cases h2
  cases h3
  refine ⟨rfl, Nat.le_succ _, ⟨?_, ?_⟩, ⟨[], by simp, ?_⟩, fun o hO => ?_,
    fun p hp hd => .inr ⟨p, List.mem_append_left _ hp, rfl, hd⟩⟩
  · show (List.map _ (c.peers ++ _)).Pairwise _
    rw [List.map_append, List.pairwise_append]
    refine ⟨hi.sorted, List.pairwise_singleton _ _, fun a ha b hb => ?_⟩
    obtain ⟨p, hp, rfl⟩ := List.mem_map.1 ha
    obtain ⟨r, hr, rfl⟩ := List.mem_map.1 hb
    rw [List.mem_singleton.1 hr]
    exact hi.lt p hp
  · intro p hp
    rcases List.mem_append.1 hp with hp | hp
    · exact Nat.lt_succ_of_lt (hi.lt p hp)
    · rw [List.mem_singleton.1 hp]; exact Nat.lt_succ_self _
  · intro p hp
    rcases List.mem_append.1 hp with hp | hp
    · exact .inl ⟨p, hp, Rho.refl⟩
    · rw [List.mem_singleton.1 hp]
      exact .inr ⟨Nat.le_refl _, ha, fun he => absurd he hs, fun _ => hq, hd⟩
  · intro p hp r hr hne hen hset
    rcases List.mem_append.1 hr with hr | hr
    · rcases List.mem_append.1 hp with hp | hp
      · exact hO p hp r hr hne hen hset
      · rw [List.mem_singleton.1 hp] at hset
        have : q.addr.isSet = true := hset
        rw [hq] at this; cases this
    · rw [List.mem_singleton.1 hr]
      exact ho o p.addr

theorem pr_peerAdd_dyn {q : Peer} (ha : E.add) (hc : q.cfg = .dynamic) (hs : q.state ≠ .established) (hq : q.addr.isSet = false)
    (ho : ∀ a, ownsAddress q a = false) : Pr E (peerAdd q) := by
  unfold peerAdd
  refine Pr.bind Pr.get fun _ => ?_
  split
  · exact pr_addNew ha hs hq (fun _ => ho) fun _ => by unfold Peer.isDynamic; simp [hc]
  · rw [if_pos (by rw [hc]; decide)]; exact Pr.fail

theorem findKey_mem {ps : List Peer} {k : Key} {p : Peer} (h : findKey ps k = some p) : p ∈ ps := List.mem_of_find?_eq_some h

theorem pr_peerAdd {q : Peer} (ha : E.add) (hD : ∀ i, E.del i) (hS : ¬ E.stat) (hO : ¬ E.own) (hs : q.state ≠ .established) (hq : q.addr.isSet = false) :
    Pr E (peerAdd q) := by
  unfold peerAdd
  refine Pr.bind' Pr.get fun c0 _ _ hi0 h0 b c' h => ?_
  cases h0
  have hnew : Pr E (addNew q) := pr_addNew ha hs hq (fun h => absurd h hO) fun h => absurd h hS
  cases hf : findKey c0.peers q.key with
  | none => simp only [hf] at h; exact hnew _ _ _ hi0 h
  | some o =>
    simp only [hf] at h
    have ho := findKey_mem hf
    split at h
    · cases h
    · have upd : ∀ (f : Peer → Peer) (c1 : Ctx) (a : Unit), modP o.id f c0 = .ok (a, c1) →
          ((f o).id = o.id ∧ (f o).key = o.key ∧ (f o).isDynamic = o.isDynamic ∧ (f o).addr = o.addr ∧ (f o).setups = o.setups ∧
            (f o).state = o.state ∧ (f o).resetTimeout = o.resetTimeout ∧ (f o).lastHsTimeout = o.lastHsTimeout ∧
            (f o).lastHsAddr = o.lastHsAddr) → Tr E c0 c1 := by
        intro f c1 a hm ⟨h1, h2, h3, h4, h5, h6, h7, h8, h9⟩
        refine Tr.modP hi0 hm (fun p hp hpi => ?_) fun h => absurd h hO
        rw [sorted_inj hi0.sorted hp ho hpi]
        exact ⟨h1, h2, h3, fun h => absurd h hS, fun _ => .inl h4, Nat.le_of_eq h5.symm, fun he => .inl (h6 ▸ he), fun _ _ => .inl h7,
          (by intros; contradiction),
          fun _ => ⟨fun _ => ⟨h8, h9⟩, fun _ => by rw [h8, h9]; rfl⟩⟩
      have dis : o.isDynamic = false → ∀ {b : Added} {c' : Ctx}, (do
          modP o.id fun p => { p with cfg := .disabled }
          pure Added.failed : M Added) c0 = .ok (b, c') → Tr E c0 c' := by
        intro hd b c' h
        obtain ⟨_, c1, h1, h2⟩ := bind_ok h
        cases h2
        exact upd _ _ _ h1 ⟨rfl, rfl, by rw [hd]; rfl, rfl, rfl, rfl, rfl, rfl, rfl⟩
      cases hc : o.cfg with
      | new =>
        simp only [hc] at h
        exact dis (by unfold Peer.isDynamic; rw [hc]; rfl) h
      | disabled =>
        simp only [hc] at h
        exact dis (by unfold Peer.isDynamic; rw [hc]; rfl) h
      | static =>
        simp only [hc] at h
        split at h
        · obtain ⟨_, c1, h1, h2⟩ := bind_ok h
          cases h2
          exact upd _ _ _ h1 ⟨rfl, rfl, by unfold Peer.isDynamic; rw [hc]; rfl, rfl, rfl, rfl, rfl, rfl, rfl⟩
        · exact (by pr [pr_peerDelete (hD _), hnew] : Pr E (do
            peerDelete o.id
            addNew q : M Added)) _ _ _ hi0 h
      | dynamic =>
        simp only [hc] at h
        exact (by pr [pr_peerDelete (hD _), hnew] : Pr E (do
            peerDelete o.id
            addNew q : M Added)) _ _ _ hi0 h

/-! ### Sending -/

theorem pr_sendRetry (b : Bool) (o : Option Nat) : Pr E (send.sendRetry b o) := by
  unfold send.sendRetry; pr [pr_scheduleHandshakeDefault _]

theorem pr_send (s : Option Sock) (l r : Addr) (o : Option Nat) (d : Bytes) : Pr E (send s l r o d) := by
  unfold send; pr [pr_sockLive _, pr_sendRetry _ _]

theorem pr_bugIfNone (o : Option α) : Pr E (bugIfNone o) := by unfold bugIfNone; pr [Pr.unit]

theorem pr_memIfNone (o : Option α) : Pr E (memIfNone o) := by unfold memIfNone; pr [Pr.unit]

theorem pr_deref (o : Option α) : Pr E (deref o) := pr_memIfNone o

theorem pr_sendHandshakePkt (s : Sock) (l r : Addr) (o : Option Nat) (d : Bytes) (f : Option UInt8) : Pr E (sendHandshakePkt s l r o d f) := by
  unfold sendHandshakePkt; pr [pr_send _ _ _ _ _]

theorem pr_sendError (s : Sock) (l r : Addr) (o : Option Nat) (t f c : UInt8) (d : Nat) : Pr E (sendError s l r o t f c d) := by
  unfold sendError; pr [pr_bugIfNone _, pr_sendHandshakePkt _ _ _ _ _ _]

theorem pr_protoMaintenance : Pr E protoMaintenance := by unfold protoMaintenance; pr [Pr.unit]

theorem pr_peerKeyOf (o : Option Nat) : Pr E (peerKeyOf o) := by unfold peerKeyOf; pr [Pr.unit]

theorem pr_handshakeInit (s : Sock) (l r : Addr) (o : Option Nat) (ho : ∀ i, o = some i → E.hs i) : Pr E (handshakeInit s l r o) := by
  unfold handshakeInit
  pr [pr_protoMaintenance, pr_peerKeyOf _, pr_bugIfNone _, pr_sendHandshakePkt _ _ _ _ _ _]
  refine Pr.emit (fun i => ?_) fun _ => .inr (by simp)
  cases o with
  | none => exact .inr rfl
  | some j =>
    by_cases hj : j = i
    · exact .inl (ho i (by rw [hj]))
    · exact .inr (by simp [inits, hj])

theorem pr_getObj (h : Nat) : Pr E (getObj h) := by unfold getObj; pr [pr_memIfNone _]

theorem pr_setObj (h : Nat) (s : Env.Sess) : Pr E (setObj h s) := by unfold setObj; pr [Pr.unit]

theorem pr_sessionValid (s : Session) : Pr E (sessionValid s) := by unfold sessionValid; pr [pr_getObj _]

theorem pr_wantRefresh (s : Session) : Pr E (wantRefresh s) := by unfold wantRefresh; pr [pr_deref _, pr_getObj _]

theorem pr_checkSessionRefresh (i : Nat) : Pr E (checkSessionRefresh i) := by
  unfold checkSessionRefresh; pr [pr_wantRefresh _, pr_scheduleHandshake _ _]

theorem pr_checkSession (i : Nat) : Pr E (checkSession i) := by unfold checkSession; pr [pr_sessionValid _, pr_peerReset _]

theorem pr_isInitiator (s : Session) : Pr E (isInitiator s) := by unfold isInitiator; pr [pr_deref _, pr_getObj _]

theorem pr_useOldSession (p : Peer) : Pr E (useOldSession p) := by unfold useOldSession; pr [pr_isInitiator _, pr_sessionValid _]

theorem pr_clearKeepalive (i : Nat) : Pr E (clearKeepalive i) := by unfold clearKeepalive; pr [Pr.unit]

theorem pr_sessionSend (i : Nat) (s : Session) (d : Bytes) : Pr E (sessionSend i s d) := by
  unfold sessionSend; pr [pr_deref _, pr_getObj _, pr_setObj _ _, pr_send _ _ _ _ _, pr_clearKeepalive _]

theorem pr_protocolSend (i : Nat) (d : Bytes) : Pr E (protocolSend i d) := by
  unfold protocolSend; pr [pr_checkSession _, pr_checkSessionRefresh _, pr_useOldSession _, pr_sessionSend _ _ _]

theorem pr_sendEmpty (i : Nat) : Pr E (sendEmpty i) := by unfold sendEmpty; pr [pr_sessionSend _ _ _]

theorem pr_sendOne (d : Bytes) (s : Option Nat) (p : Peer) : Pr E (sendOne d s p) := by unfold sendOne; pr [pr_protocolSend _ _]

theorem pr_sendAll (d : Bytes) (s : Option Nat) (n k : Nat) : Pr E (sendAll d s n k) := by
  induction n generalizing k with
  | zero => exact Pr.fail
  | succ n ih => unfold sendAll; pr [pr_sendOne _ _ _, ih _]

theorem pr_learnLocal (s : Option Nat) (d : Bytes) : Pr E (learnLocal s d) := by unfold learnLocal; pr [pr_ethAdd _ _]

theorem pr_sendTapSingle (d : Bytes) (s : Option Nat) : Pr E (sendTapSingle d s) := by
  unfold sendTapSingle; pr [pr_learnLocal _ _, pr_protocolSend _ _]

theorem pr_sendData (d : Bytes) (s t : Option Nat) : Pr E (sendData d s t) := by
  unfold sendData; pr [pr_sendTapSingle _ _, pr_protocolSend _ _, pr_sendAll _ _ _ _]

theorem pr_learnRemote (i : Nat) (d : Bytes) : Pr E (learnRemote i d) := by unfold learnRemote; pr [pr_ethAdd _ _]

theorem pr_handleReceive (i : Nat) (d : Bytes) : Pr E (handleReceive i d) := by
  unfold handleReceive; pr [pr_learnRemote _ _, pr_sendData _ _ _]

theorem pr_decryptWith (i : Nat) (s : Session) (d : Bytes) : Pr E (decryptWith i s d) := by
  unfold decryptWith; pr [pr_deref _, pr_getObj _, pr_setObj _ _]

theorem pr_tryOld (i : Nat) (d : Bytes) : Pr E (tryOld i d) := by unfold tryOld; pr [pr_sessionValid _, pr_decryptWith _ _ _]

theorem pr_dropOld (i : Nat) : Pr E (dropOld i) := by unfold dropOld; pr [pr_freeState _]

theorem pr_unscheduleHandshake (i : Nat) : Pr E (unscheduleHandshake i) := by unfold unscheduleHandshake; pr [Pr.unit]

theorem pr_cleanHandshakes (i : Nat) : Pr E (cleanHandshakes i) := by
  unfold cleanHandshakes; pr [pr_unscheduleHandshake _, pr_isInitiator _, pr_sendEmpty _]

theorem rho_reset {now t v a : Time} {p : Peer} (hE : E.reset p.id) :
    Rho E now [] p { p with resetTimeout := t, verifyTimeout := v, verifyValid := a } :=
  ⟨rfl, rfl, rfl, fun _ => rfl, fun _ => .inl rfl, Nat.le_refl _, .inl, fun _ _ => .inr (.inl hE), (by intros; contradiction), fun _ =>
    ⟨fun _ => ⟨rfl, rfl⟩, fun _ => rfl⟩⟩

theorem pr_seen {i : Nat} (hE : E.reset i) : Pr E (seen i) := by
  unfold seen
  pr [Pr.modP (fun _ p hi => rho_reset (p := p) (by rw [hi]; exact hE)) fun _ _ _ => ⟨rfl, .inl rfl⟩]

theorem pr_setVerifying {i : Nat} (hE : E.reset i) : Pr E (setVerifying i) := by
  unfold setVerifying
  pr [Pr.modP (fun _ p hi => rho_reset (p := p) (by rw [hi]; exact hE)) fun _ _ _ => ⟨rfl, .inl rfl⟩]

theorem pr_setVerified {i : Nat} {ok : Bool} (hE : E.reset i) : Pr E (setVerified i ok) := by
  unfold setVerified
  pr [Pr.modP (fun _ p hi => rho_reset (p := p) (by rw [hi]; exact hE)) fun _ _ _ => ⟨rfl, .inl rfl⟩]

theorem pr_deliver {i : Nat} (d : Bytes) (hE : E.reset i) : Pr E (deliver i d) := by
  unfold deliver; pr [pr_seen hE, pr_handleReceive _ _]

/-! ### Received payload -/

/-- Exemptions that are explained by the log. -/
theorem Tr.logged {c c' : Ctx} {A B : Nat → Prop} {l : List Eff}
    (h : Tr { E with est := fun j => E.est j ∨ A j, reset := fun j => E.reset j ∨ B j } c c') (hl : c'.log = c.log ++ l)
    (hA : ∀ j, A j → .established j ∈ l) (hB : ∀ j, B j → .established j ∈ l ∨ ∃ k d, .accept j k d ∈ l)
    (hC : ∀ p' ∈ c'.peers, A p'.id ∨ B p'.id → (∃ k d, .accept p'.id k d ∈ l) ∨ p'.resetTimeout = c.now + PEER_STALE_TIME) : Tr E c c' := by
  obtain ⟨l', hl', hb⟩ := h.back
  have : l' = l := List.append_cancel_left (hl'.symm.trans hl)
  subst this
  refine ⟨h.now, h.nextId, h.ids, ⟨l', hl, fun p' hp' => ?_⟩, h.own, h.keep⟩
  rcases hb p' hp' with ⟨p, hp, r⟩ | ⟨h1, h2⟩
  · refine .inl ⟨p, hp, r.id, r.key, r.dyn, r.stat, r.addr, r.setups, fun he => ?_, fun hd he => ?_, fun hd he hm => ?_, r.hs⟩
    · rcases r.est he with h | (h | h) | h
      · exact .inl h
      · exact .inr (.inl h)
      · exact .inr (.inr (hA _ h))
      · exact .inr (.inr h)
    · rcases r.reset hd he with h | (h | h) | (h | h) | h | h
      · exact .inl h
      · exact .inr (.inl h)
      · rcases hB _ h with h | h
        · exact .inr (.inr (.inr (.inl h)))
        · exact .inr (.inr (.inr (.inr h)))
      · exact .inr (.inr (.inl h))
      · exact .inr (.inr (.inr (.inl (hA _ h))))
      · exact .inr (.inr (.inr (.inl h)))
      · exact .inr (.inr (.inr (.inr h)))
    · have hC' := hC p' hp'
      rw [r.id] at hC'
      rcases r.late hd he hm with (h | h) | (h | h) | h
      · exact .inl h
      · exact .inr (.inr (hC' (.inr h)))
      · exact .inr (.inl h)
      · exact .inr (.inr (hC' (.inl h)))
      · exact .inr (.inr h)
  · refine .inr ⟨h1, h2.add, fun he => ?_, h2.addr, h2.dyn⟩
    rcases h2.est he with (h | h) | h
    · exact .inl h
    · exact .inr (hA _ h)
    · exact .inr h

theorem Tr.log {c c' : Ctx} (h : Tr E c c') : ∃ l, c'.log = c.log ++ l := h.back.imp fun _ h => h.1

theorem modify_ok {f : Ctx → Ctx} {c c' : Ctx} {a : Unit} (h : modify f c = .ok (a, c')) : c' = f c := by cases h; rfl

theorem decryptWith_some {i : Nat} {s : Session} {pkt d : Bytes} {c c' : Ctx} (hi : Ids c)
    (h : decryptWith i s pkt c = .ok (some d, c')) : ∃ l k, c'.log = c.log ++ l ∧ .accept i k pkt ∈ l := by
  unfold decryptWith at h
  obtain ⟨m, c1, h1, h⟩ := bind_ok h
  obtain ⟨k, c2, h2, h⟩ := bind_ok h
  obtain ⟨o, c3, h3, h⟩ := bind_ok h
  obtain ⟨_, c4, h4, h⟩ := bind_ok h
  cases h4
  obtain ⟨_, c5, h5, h⟩ := bind_ok h
  have t1 : Tr strict c c1 := pr_deref _ _ _ _ hi h1
  have t2 : Tr strict c1 c2 := pr_deref _ _ _ _ t1.ids h2
  have t3 : Tr strict c2 c3 := pr_getObj _ _ _ _ t2.ids h3
  have t5 : Tr strict c3 c5 := Pr.emit (fun _ => .inr rfl) (fun _ => .inr (by simp)) _ _ _ t3.ids h5
  have t := ((t1.trans t2).trans t3).trans t5
  cases hd : Env.decrypt m o pkt c3.now with
  | none => simp only [hd] at h; cases h
  | some x =>
    obtain ⟨data, x2, o'⟩ := x
    simp only [hd] at h
    obtain ⟨_, c6, h6, h⟩ := bind_ok h
    have t6 : Tr strict c5 c6 := pr_setObj _ _ _ _ _ t5.ids h6
    obtain ⟨l, hl⟩ := (t.trans t6).log
    obtain ⟨_, c7, h7, h⟩ := bind_ok h
    have e7 : c7 = { c6 with log := c6.log ++ [.accept i k pkt] } := modify_ok h7
    cases h
    refine ⟨l ++ [.accept i k pkt], k, ?_, by simp⟩
    rw [e7]
    simp only [hl, List.append_assoc]

theorem tryOld_some {i : Nat} {pkt d : Bytes} {c c' : Ctx} (hi : Ids c) (h : tryOld i pkt c = .ok (some d, c')) :
    ∃ l k, c'.log = c.log ++ l ∧ .accept i k pkt ∈ l := by
  unfold tryOld at h
  obtain ⟨p, c1, h1, h⟩ := bind_ok h
  have t1 : Tr strict c c1 := Pr.getP _ _ _ hi h1
  obtain ⟨v, c2, h2, h⟩ := bind_ok h
  have t2 : Tr strict c1 c2 := pr_sessionValid _ _ _ _ t1.ids h2
  obtain ⟨l1, hl1⟩ := (t1.trans t2).log
  split at h
  · obtain ⟨l, k, hl, hm⟩ := decryptWith_some t2.ids h
    exact ⟨l1 ++ l, k, by rw [hl, hl1, List.append_assoc], List.mem_append_right _ hm⟩
  · cases h

/-- A part that has accepted a packet, and what follows. -/
theorem Tr.accepted {c c1 c' : Ctx} {i k : Nat} {d : Bytes} {l : List Eff}
    (h : Tr E c c1) (hl : c1.log = c.log ++ l) (hm : .accept i k d ∈ l) (h' : Tr { E with reset := fun j => E.reset j ∨ j = i } c1 c') :
    Tr E c c' := by
  have h1 : Tr { E with est := fun j => E.est j ∨ False, reset := fun j => E.reset j ∨ j = i } c c' := by
    have wk : ∀ {a b : Ctx}, Tr { E with reset := fun j => E.reset j ∨ j = i } a b →
        Tr { E with est := fun j => E.est j ∨ False, reset := fun j => E.reset j ∨ j = i } a b := by
      intro a b t
      have : (fun j => E.est j ∨ False) = E.est := by funext j; simp
      rw [this]; exact t
    have wk' : Tr { E with reset := fun j => E.reset j ∨ j = i } c c1 := by
      obtain ⟨l, hl, hb⟩ := h.back
      refine ⟨h.now, h.nextId, h.ids, ⟨l, hl, fun p' hp' => ?_⟩, h.own, h.keep⟩
      rcases hb p' hp' with ⟨p, hp, r⟩ | ⟨h1, h2⟩
      · refine .inl ⟨p, hp, r.id, r.key, r.dyn, r.stat, r.addr, r.setups, r.est, fun hd he => ?_, fun hd he hm =>
          (r.late hd he hm).imp_left .inl, r.hs⟩
        rcases r.reset hd he with h | h | h
        · exact .inl h
        · exact .inr (.inl (.inl h))
        · exact .inr (.inr h)
      · exact .inr ⟨h1, h2.add, h2.est, h2.addr, h2.dyn⟩
    exact (wk wk').trans (wk h')
  obtain ⟨l', hl'⟩ := h'.log
  refine h1.logged (A := fun _ => False) (l := l ++ l') (by rw [hl', hl, List.append_assoc]) (fun _ h => h.elim) (fun j hj => .inr ⟨k, d, ?_⟩)
    fun p' _ hj => .inl ⟨k, d, ?_⟩
  · rw [hj]
    exact List.mem_append_left _ hm
  · rw [hj.resolve_left id]
    exact List.mem_append_left _ hm

theorem pr_handleRecv (i : Nat) (d : Bytes) : Pr E (handleRecv i d) := by
  unfold handleRecv
  refine Pr.bind (pr_checkSession i) fun ok => Pr.ite Pr.pure ?_
  intro c a c' hi h0
  obtain ⟨o, c1, h1, h⟩ := bind_ok h0
  have t1 : Tr E c c1 := pr_tryOld _ _ _ _ _ hi h1
  clear h0
  cases o with
  | some data =>
    obtain ⟨l, k, hl, hm⟩ := tryOld_some hi h1
    exact t1.accepted hl hm (pr_deliver data (Or.inr rfl) _ _ _ t1.ids h)
  | none =>
    simp only [] at h
    refine t1.trans ?_
    obtain ⟨p, c2, h2, h3⟩ := bind_ok h
    obtain ⟨rfl, _⟩ := getP_ok h2
    obtain ⟨o, c3, h4, h5⟩ := bind_ok h3
    have t3 : Tr E c2 c3 := pr_decryptWith _ _ _ _ _ _ t1.ids h4
    cases o with
    | none => cases h5; exact t3
    | some data =>
      simp only [] at h5
      obtain ⟨l, k, hl, hm⟩ := decryptWith_some t1.ids h4
      refine t3.accepted hl hm ?_
      refine (?_ : Pr { E with reset := fun j => E.reset j ∨ j = i } _) _ _ _ t3.ids h5
      pr [pr_dropOld _, pr_cleanHandshakes _, pr_checkSessionRefresh _, pr_deliver _ (Or.inr rfl)]

/-! ### The task of a peer -/

theorem pr_chooseAddress {i : Nat} {r : Option Nat} (hA : ¬ E.addr) : Pr E (chooseAddress i r) := by
  unfold chooseAddress
  pr [pr_deref _, pr_getR _ _, pr_memIfNone _, pr_claimAddress hA, pr_resetSocket _]

/-- A computation that logs nothing but sent datagrams. -/
def Sds {α : Type} (m : M α) : Prop := ∀ c a c', m c = .ok (a, c') → ∃ l, c'.log = c.log ++ l ∧ ∀ i, inits i l = []

theorem Sds.bind {m : M α} {f : α → M β} (hm : Sds m) (hf : ∀ a, Sds (f a)) : Sds (m >>= f) := by
  intro c b c' h
  obtain ⟨a, c1, h1, h2⟩ := bind_ok h
  obtain ⟨l, hl, hs⟩ := hm _ _ _ h1
  obtain ⟨l', hl', hs'⟩ := hf _ _ _ _ h2
  exact ⟨l ++ l', by rw [hl', hl, List.append_assoc], fun i => by rw [inits_append, hs, hs']; rfl⟩

theorem Sds.pure {a : α} : Sds (Pure.pure a : M α) := fun c a' c' h => by cases h; exact ⟨[], by simp, fun _ => rfl⟩
theorem Sds.fail {e : Fail} : Sds (fail e : M α) := fun c a' c' h => by cases h
theorem Sds.get : Sds get := fun c a' c' h => by cases h; exact ⟨[], by simp, fun _ => rfl⟩
theorem Sds.getP {i : Nat} : Sds (getP i) := fun c a' c' h => by obtain ⟨rfl, _⟩ := getP_ok h; exact ⟨[], by simp, fun _ => rfl⟩
theorem Sds.modP {i : Nat} {f : Peer → Peer} : Sds (modP i f) := fun c a' c' h => by
  obtain ⟨_, rfl⟩ := modP_ok h; exact ⟨[], by simp, fun _ => rfl⟩
theorem Sds.draw : Sds draw := fun c a' c' h => by cases h; exact ⟨[], by simp, fun _ => rfl⟩
theorem Sds.modify {f : Ctx → Ctx} (hf : ∀ c, (f c).log = c.log) : Sds (modify f) := fun c a' c' h => by
  cases h; exact ⟨[], by simp [hf], fun _ => rfl⟩
theorem Sds.forEach {f : α → M Unit} (hf : ∀ a, Sds (f a)) (l : List α) : Sds (forEach f l) := by
  induction l with
  | nil => exact Sds.pure
  | cons a as ih => exact Sds.bind (hf a) fun _ => ih

theorem sds_send (s : Option Sock) (l r : Addr) (o : Option Nat) (d : Bytes) : Sds (send s l r o d) := by
  unfold send
  split
  · exact Sds.fail
  · split
    · exact Sds.fail
    · refine Sds.bind ?_ fun _ => Sds.bind Sds.get fun c => Sds.bind (Sds.modify fun _ => rfl) fun _ => Sds.bind ?_ fun _ => ?_
      · unfold sockLive
        split
        · exact Sds.pure
        · refine Sds.bind Sds.get fun _ => ?_
          split
          · exact Sds.fail
          · exact Sds.pure
      · unfold send.sendRetry
        split
        · refine Sds.bind Sds.getP fun _ => ?_
          split
          · exact Sds.bind (Sds.bind Sds.draw fun _ => Sds.pure) fun _ =>
              Sds.bind (Sds.bind Sds.get fun _ => Sds.modP) fun _ => Sds.modP
          · exact Sds.pure
        · exact Sds.pure
      · exact fun c a c' h => by cases h; exact ⟨_, rfl, fun _ => rfl⟩

theorem handshakeInit_log {s : Sock} {l r : Addr} {o : Option Nat} {c c' : Ctx} {a : Unit} (h : handshakeInit s l r o c = .ok (a, c')) :
    ∃ l, c'.log = c.log ++ .hsInit o r :: l ∧ ∀ i, inits i l = [] := by
  unfold handshakeInit at h
  obtain ⟨_, c1, h1, h⟩ := bind_ok h
  obtain ⟨k, c2, h2, h⟩ := bind_ok h
  obtain ⟨_, c3, h3, h⟩ := bind_ok h
  cases h3
  obtain ⟨pkt, c4, h4, h⟩ := bind_ok h
  obtain ⟨_, c5, h5, h⟩ := bind_ok h
  have e1 : c1.log = c.log := by
    unfold protoMaintenance at h1
    obtain ⟨_, c0, h0, h1⟩ := bind_ok h1
    cases h0; cases h1; rfl
  have e2 : c2.log = c1.log := by
    unfold peerKeyOf at h2
    cases o with
    | none => cases h2; rfl
    | some i =>
      simp only [] at h2
      obtain ⟨_, c0, h0, h2'⟩ := bind_ok h2
      obtain ⟨rfl, _⟩ := getP_ok h0
      clear h2
      cases h2'; rfl
  have e4 : c4 = c2 := by
    unfold bugIfNone at h4
    cases hk : initPacket k (Env.pub c2.keys.cur.key) with
    | none => simp only [hk] at h4; cases h4
    | some x => simp only [hk] at h4; cases h4; rfl
  have e5 : c5 = { c4 with log := c4.log ++ [.hsInit o r] } := modify_ok h5
  have : Sds (sendHandshakePkt s l r o pkt none) := by
    unfold sendHandshakePkt
    exact Sds.forEach (fun d => sds_send _ _ _ _ _) _
  obtain ⟨l', hl', hi⟩ := this _ _ _ h
  refine ⟨l', ?_, hi⟩
  rw [hl', e5, e4]
  simp only [e2, e1, List.append_assoc, List.singleton_append]

theorem pr_sendHandshake {i : Nat} {r : Option Nat} (hA : ¬ E.addr) (hH : ¬ E.hs i) : Pr E (sendHandshake i r) := by
  unfold sendHandshake
  refine Pr.bind (pr_chooseAddress hA) fun ok => Pr.ite Pr.pure ?_
  intro c a c' hi h0
  obtain ⟨p, c1, h1, h⟩ := bind_ok h0
  obtain ⟨rfl, hp, hpi⟩ := getP_ok h1
  obtain ⟨_, c2, h2, h3⟩ := bind_ok h
  cases h2
  clear h0 h h1
  cases hsk : p.sock with
  | none => simp only [hsk] at h3; cases h3; exact Tr.refl hi
  | some s =>
    simp only [hsk] at h3
    split at h3
    · cases h3; exact Tr.refl hi
    · split at h3
      · cases h3; exact Tr.refl hi
      · rename_i hset hrec
        obtain ⟨_, c2, h2, h⟩ := bind_ok h3
        obtain ⟨_, e2⟩ := modP_ok h2
        have i2 : Ids c2 := by rw [e2]; exact hi.upd fun _ _ _ => rfl
        have t : Tr { E with hs := fun j => E.hs j ∨ j = i } c2 c' := pr_handshakeInit _ _ _ _ (by
          intro j hj; cases hj; exact Or.inr rfl) _ _ _ i2 h
        obtain ⟨l1, hl1, hin⟩ := handshakeInit_log h
        obtain ⟨l, hl, hb⟩ := t.back
        have : l = .hsInit (some i) p.addr :: l1 := List.append_cancel_left (hl.symm.trans hl1)
        have n2 : c2.now = c1.now := by rw [e2]
        have lg2 : c2.log = c1.log := by rw [e2]
        refine ⟨t.now.trans n2, by have := t.nextId; rw [e2] at this; exact this, t.ids, ⟨l, by rw [hl, lg2], fun p' hp' => ?_⟩, fun o hO => t.own o ?_,
          fun q hq hd => ?_⟩
        · rcases hb p' hp' with ⟨q, hq, r⟩ | ⟨h1, h2⟩
          · rw [e2] at hq
            rw [n2] at r
            rcases mem_upd_cases hq with ⟨hq, hqi⟩ | ⟨q0, hq0, hq0i, rfl⟩
            · refine .inl ⟨q, hq, r.id, r.key, r.dyn, r.stat, r.addr, r.setups, r.est, r.reset, r.late, fun hs => ?_⟩
              refine ⟨fun h => (r.hs hs).1 (.inl h), fun h => (r.hs hs).2 ?_⟩
              rintro (h' | h')
              · exact h h'
              · exact hqi h'
            · have hpq := sorted_inj hi.sorted hq0 hp (hq0i.trans hpi.symm)
              refine .inl ⟨q0, hq0, r.id, r.key, r.dyn, r.stat, r.addr, r.setups, r.est, r.reset, r.late, fun hs => ?_⟩
              refine ⟨fun h => absurd (hq0i ▸ h) hH, fun _ => ?_⟩
              obtain ⟨e1, e2⟩ := (r.hs hs).1 (Or.inr hq0i)
              have : inits q0.id l = [p.addr] := by
                rw [this]
                show List.filterMap _ _ = _
                rw [List.filterMap_cons]
                simp only [hq0i, if_true]
                exact congrArg _ (hin i)
              rw [this, e1, e2, hpq]
              refine ⟨?_, rfl⟩
              unfold recentHandshake at hrec
              simp only [Bool.and_eq_true, Bool.not_eq_true', not_and, Bool.not_eq_true] at hrec
              by_cases ht : timedOut p.lastHsTimeout c1.now = true
              · exact .inl ht
              · exact .inr (hrec (by simpa using ht))
          · rw [e2] at h1
            exact .inr ⟨h1, h2.add, h2.est, h2.addr, h2.dyn⟩
        · refine hO.calm fun q hq => ?_
          rw [e2] at hq
          rcases mem_upd_cases hq with ⟨hq, _⟩ | ⟨q0, hq0, _, rfl⟩
          · exact ⟨q, hq, rfl, .inl rfl⟩
          · exact ⟨q0, hq0, rfl, .inl rfl⟩
        · by_cases hqi : q.id = i
          · obtain ⟨q', hq', h1, h2⟩ : ∃ q' ∈ c2.peers, q'.id = q.id ∧ q'.isDynamic = q.isDynamic := by
              rw [e2]; exact ⟨_, mem_updPeers.2 ⟨q, hq, if_pos hqi⟩, rfl, rfl⟩
            rw [← h1]
            exact t.keep q' hq' (h2.trans hd)
          · exact t.keep q (by rw [e2]; exact mem_updPeers.2 ⟨q, hq, if_neg hqi⟩) hd

theorem pr_nextRemote (i : Nat) : Pr E (nextRemote i) := by
  unfold nextRemote
  pr [pr_deref _, pr_modR fun _ => ⟨rfl, rfl⟩, pr_getR _ _, pr_resolvePeer _ _]

theorem pr_advanceRemote (i : Nat) (r : Option Nat) : Pr E (advanceRemote i r) := by
  unfold advanceRemote
  pr [pr_deref _, pr_modR fun _ => ⟨rfl, rfl⟩, pr_getR _ _, pr_nextRemote _,
    Pr.calm fun _ => ⟨rfl, .inl rfl, rfl, fun h => (by simp at h), fun h => (by simp at h), rfl, rfl⟩]

theorem pr_handleTaskHandshake {i : Nat} (hA : ¬ E.addr) (hH : ¬ E.hs i) : Pr E (handleTaskHandshake i) := by
  unfold handleTaskHandshake
  pr [pr_setNextHandshakeDefault _, pr_sendHandshake hA hH, pr_advanceRemote _ _, pr_nextRemote _]

theorem pr_handleTaskKeepalive (i : Nat) : Pr E (handleTaskKeepalive i) := by
  unfold handleTaskKeepalive; pr [pr_protocolSend _ _, pr_clearKeepalive _]

theorem pr_handleTaskDueHandshake {i : Nat} (hA : ¬ E.addr) (hH : ¬ E.hs i) : Pr E (handleTaskDueHandshake i) := by
  unfold handleTaskDueHandshake; pr [pr_handleTaskHandshake hA hH]

theorem pr_peerTask {i : Nat} (hA : ¬ E.addr) (hH : ¬ E.hs i) : Pr E (peerTask i) := by
  unfold peerTask
  refine Pr.bind (by pr []) fun _ => Pr.bind' Pr.getP fun p c c1 hi h b c' h' => ?_
  obtain ⟨rfl, hp, hpi⟩ := getP_ok h
  obtain ⟨c2, c3, h2, h⟩ := bind_ok h'
  cases h2
  split at h
  · split at h
    · rename_i hd
      exact tr_peerDelete hi (fun q hq hqi => by rw [sorted_inj hi.sorted hq hp (hqi.trans hpi.symm)]; exact hd) h
    · exact pr_peerReset _ _ _ _ hi h
  · exact (by pr [pr_handleTaskKeepalive _, pr_handleTaskDueHandshake hA hH, pr_schedulePeerTask _] : Pr E (do
      handleTaskKeepalive i
      handleTaskDueHandshake i
      schedulePeerTask i : M Unit)) _ _ _ hi h

theorem pr_resetAll (n k : Nat) : Pr E (resetAll n k) := by
  induction n generalizing k with
  | zero => exact Pr.fail
  | succ n ih => 
    unfold resetAll
    intro c a c' hi h
    obtain ⟨c0, c1, h1, h2⟩ := bind_ok h
    cases h1
    cases hp : c.peers[k]? with
    | none => simp only [hp] at h2; cases h2; exact Tr.refl hi
    | some p =>
      simp only [hp] at h2
      have hm := List.mem_of_getElem? hp
      split at h2
      · rename_i hd
        obtain ⟨_, c2, h3, h4⟩ := bind_ok h2
        have t := tr_peerDelete (E := E) hi (fun q hq hqi => by rw [sorted_inj hi.sorted hq hm hqi]; exact hd) h3
        exact t.trans (ih _ _ _ _ t.ids h4)
      · exact (by pr [pr_peerReset _, ih _] : Pr E (do
          peerReset p.id
          resetAll n (k + 1) : M Unit)) _ _ _ hi h2

/-! ### Establishing sessions -/

theorem pr_newSession (i m : Nat) (b b' : Bool) (g : Agreement) : Pr E (newSession i m b b' g) := by
  have h1 : ∀ p, Pr E (supersedeKeep p) := fun p => by unfold supersedeKeep; pr [pr_sessionValid _]
  have h2 : Pr E (supersedeFirst i) := by unfold supersedeFirst; pr [h1 _, pr_freeSession _]
  have h3 : Pr E (supersedeSecond i m) := by unfold supersedeSecond; pr [pr_freeState _, pr_deref _, pr_getObj _, pr_setObj _ _]
  have h4 : Pr E (supersede i m) := by unfold supersede; pr [h2, h3]
  unfold newSession
  pr [h4]

theorem pr_openIface (i : Nat) : Pr E (openIface i) := by unfold openIface; pr [Pr.unit]

theorem modP_resetTimeout {i : Nat} {f : Peer → Peer} {c c' : Ctx} {a : Unit} {t : Time} (h : modP i f c = .ok (a, c'))
    (hf : ∀ p, (f p).id = p.id ∧ (f p).resetTimeout = p.resetTimeout) (hp : ∀ p ∈ c.peers, p.id = i → p.resetTimeout = t) :
    ∀ p ∈ c'.peers, p.id = i → p.resetTimeout = t := by
  obtain ⟨_, rfl⟩ := modP_ok h
  intro p hp' hi
  rcases mem_upd_cases hp' with ⟨hm, _⟩ | ⟨q, hq, hqi, rfl⟩
  · exact hp p hm hi
  · rw [(hf q).2]; exact hp q hq hqi

theorem pr_setEstablished (i : Nat) : Pr E (setEstablished i) := by
  unfold setEstablished
  refine Pr.bind (pr_openIface i) fun ok => Pr.ite Pr.pure (Pr.bind Pr.getP fun p => Pr.ite Pr.pure ?_)
  intro c a c' hi h
  have t : Tr { E with est := fun j => E.est j ∨ j = i, reset := fun j => E.reset j ∨ j = i } c c' := by
    refine (?_ : Pr { E with est := fun j => E.est j ∨ j = i, reset := fun j => E.reset j ∨ j = i } _) _ _ _ hi h
    refine Pr.bind Pr.get fun c0 => Pr.bind (Pr.modP (fun now p hp => ?_) fun _ p _ => ⟨rfl, .inl rfl⟩) fun _ => ?_
    · exact ⟨rfl, rfl, rfl, fun _ => rfl, fun _ => .inl rfl, Nat.le_refl _, fun _ => .inr (.inl (Or.inr hp)),
        fun _ _ => .inl rfl, (by intros; contradiction), fun _ => ⟨fun _ => ⟨rfl, rfl⟩, fun _ => rfl⟩⟩
    · exact Pr.bind (pr_seen (Or.inr rfl)) fun _ => Pr.bind (pr_clearKeepalive _) fun _ => Pr.bind (pr_schedulePeerTask _) fun _ =>
        Pr.bind (Pr.emit (fun _ => .inr rfl) fun j => if h : j = i then .inl (Or.inr h) else .inr (by simp [h])) fun _ => Pr.pure
  obtain ⟨_, c1, h1, h⟩ := bind_ok h
  obtain ⟨_, c2, h2, h⟩ := bind_ok h
  obtain ⟨_, c3, h3, h⟩ := bind_ok h
  obtain ⟨_, c4, h4, h⟩ := bind_ok h
  obtain ⟨_, c5, h5, h⟩ := bind_ok h
  obtain ⟨_, c6, h6, h⟩ := bind_ok h
  have e6 : c6 = { c5 with log := c5.log ++ [.established i] } := modify_ok h6
  cases h
  have e1 : c1 = c := by cases h1; rfl
  obtain ⟨_, e2⟩ := modP_ok h2
  have i2 : Ids c2 := by rw [e2, e1]; exact hi.upd fun _ _ _ => rfl
  have t3 : Tr { Daemon.strict with reset := fun _ => True } c2 c3 := pr_seen trivial _ _ _ i2 h3
  have t4 : Tr { Daemon.strict with reset := fun _ => True } c3 c4 := pr_clearKeepalive _ _ _ _ t3.ids h4
  have t5 : Tr { Daemon.strict with reset := fun _ => True } c4 c5 := pr_schedulePeerTask _ _ _ _ t4.ids h5
  obtain ⟨l, hl⟩ := ((t3.trans t4).trans t5).log
  refine t.logged (l := l ++ [.established i]) ?_ (fun j hj => ?_) (fun j hj => .inl ?_) fun p' hp' hj => .inr ?_
  · rw [e6]
    simp only [hl, e2, e1, List.append_assoc]
  · rw [hj]; simp
  · rw [hj]; simp
  · have k3 : ∀ p ∈ c3.peers, p.id = i → p.resetTimeout = c.now + PEER_STALE_TIME := by
      unfold seen at h3
      obtain ⟨c2', c2'', h21, h22⟩ := bind_ok h3
      cases h21
      have n2 : c2.now = c.now := by rw [e2, e1]
      obtain ⟨_, e3⟩ := modP_ok h22
      intro p hp hpi
      rw [e3] at hp
      rcases mem_upd_cases hp with ⟨_, hne⟩ | ⟨q, _, _, rfl⟩
      · exact absurd hpi hne
      · show c2.now + PEER_STALE_TIME = _
        rw [n2]
    have k4 : ∀ p ∈ c4.peers, p.id = i → p.resetTimeout = c.now + PEER_STALE_TIME := by
      unfold clearKeepalive at h4
      obtain ⟨c3', c3'', h31, h32⟩ := bind_ok h4
      cases h31
      exact modP_resetTimeout h32 (fun p => ⟨rfl, rfl⟩) k3
    have k5 : ∀ p ∈ c5.peers, p.id = i → p.resetTimeout = c.now + PEER_STALE_TIME := by
      unfold schedulePeerTask at h5
      exact modP_resetTimeout h5 (fun p => by split; exact ⟨rfl, rfl⟩; split <;> exact ⟨rfl, rfl⟩) k4
    rw [e6] at hp'
    exact k5 p' hp' (hj.elim id id)

theorem pr_establishEnd (i : Nat) (b : Bool) : Pr E (establishEnd i b) := by
  unfold establishEnd; pr [pr_scheduleHandshakeDefault _, pr_sendEmpty _]

theorem pr_establish {i m : Nat} {s : Sock} {l r : Addr} {b b' : Bool} {g : Agreement} (hA : ¬ E.addr) :
    Pr E (establish i m s l r b b' g) := by
  unfold establish
  pr [pr_claimAddress hA, pr_peerReset _, pr_newSession _ _ _ _ _, pr_setEstablished _, pr_establishEnd _ _]

/-! ### Handshakes -/

theorem pr_updateShared (i : Nat) (hk : Protocol.HKey Nat) (k : Key) : Pr E (updateShared i hk k) := by
  unfold updateShared; pr [Pr.unit]

theorem pr_clearShared (i : Nat) : Pr E (clearShared i) := by unfold clearShared; pr [Pr.unit]

theorem pr_respondHandshake (s : Sock) (l r : Addr) (i : Nat) (k : Key) (f : UInt8) : Pr E (respondHandshake s l r i k f) := by
  unfold respondHandshake; pr [pr_updateShared _ _ _, pr_bugIfNone _, pr_sendHandshakePkt _ _ _ _ _ _]

theorem pr_record (r : Rcv) (t : Nat) : Pr E (record r t) := by unfold record; pr [pr_memIfNone _]

theorem pr_field (r : Rcv) (t n : Nat) : Pr E (field r t n) := by unfold field; pr [pr_memIfNone _]

theorem pr_sendFinish (s : Sock) (l r : Addr) (i m : Nat) (hk : Protocol.HKey Nat) (k : Key) (sh : Bytes) (f : UInt8) :
    Pr E (sendFinish s l r i m hk k sh f) := by unfold sendFinish; pr [pr_bugIfNone _, pr_sendHandshakePkt _ _ _ _ _ _]

theorem pr_finishHandshake {s : Sock} {l r : Addr} {i : Nat} {hk : Protocol.HKey Nat} {k mac : Key} {x : Rcv} (hA : ¬ E.addr) :
    Pr E (finishHandshake s l r i hk k mac x) := by
  unfold finishHandshake
  pr [pr_record _ _, pr_sendError _ _ _ _ _ _ _ _, pr_establish hA, pr_sendFinish _ _ _ _ _ _ _ _ _]

theorem pr_handleFinish {s : Sock} {l r : Addr} {i : Nat} {hk : Protocol.HKey Nat} {k mac : Key} {x : Rcv} (hA : ¬ E.addr) :
    Pr E (handleFinish s l r i hk k mac x) := by
  unfold handleFinish
  pr [pr_record _ _, pr_sendError _ _ _ _ _ _ _ _, pr_establish hA, pr_updateShared _ _ _, pr_clearShared _]

theorem pr_matchSenderKey (s : Sock) (a : Addr) (o : Option Nat) (k : Key) : Pr E (matchSenderKey s a o k) := by
  unfold matchSenderKey; pr [pr_sockPeer _]

theorem pr_addDynamic {s : Sock} {k : Key} (ha : E.add) : Pr E (addDynamic s k) := by
  unfold addDynamic
  have h : Pr E (peerAdd { group := Env.verifyGroup, cfg := .dynamic, key := k }) :=
    pr_peerAdd_dyn ha rfl (by intro h; cases h) rfl fun a => rfl
  pr [pr_sockPeer _, h, pr_peerReset _]

theorem pr_verifyPeer {i : Nat} {v : Verif} (hE : E.reset i) : Pr E (verifyPeer i v) := by
  unfold verifyPeer; pr [pr_setVerifying hE, pr_setVerified hE]

theorem pr_handleDynamic {s : Sock} {l r : Addr} {i : Nat} {h : Handshake.Hs} {k : Key} (hE : E.reset i) (hD : E.del i) :
    Pr E (handleDynamic s l r i h k) := by
  unfold handleDynamic; pr [pr_verifyPeer hE, pr_peerDelete hD]

theorem pr_hsVerified (s : Sock) (l r : Addr) (i : Nat) (k : Key) (x : Rcv) : Pr E (hsVerified s l r i k x) := by
  unfold hsVerified
  refine Pr.bind' Pr.getP fun p c c1 hi h b c' h' => ?_
  obtain ⟨rfl, hp, hpi⟩ := getP_ok h
  split at h'
  · rename_i hd
    have hd' : ∀ q ∈ c1.peers, q.id = i → q.isDynamic = true := by
      intro q hq hqi
      rw [sorted_inj hi.sorted hq hp (hqi.trans hpi.symm)]
      exact hd
    exact Tr.noDel (Tr.noReset (i := i) (pr_handleDynamic (Or.inr rfl) (Or.inr rfl) _ _ _ hi h') fun q hq hqi => .inl (hd' q hq hqi)) hd'
  · cases h'; exact Tr.refl hi

theorem pr_handleVerifyReturn (v : Verif) (ok : Bool) : Pr E (handleVerifyReturn v ok) := by
  unfold handleVerifyReturn; pr [pr_respondHandshake _ _ _ _ _ _]

theorem pr_checkMtu (s : Sock) (l r : Addr) (i : Nat) (x : Rcv) : Pr E (checkMtu s l r i x) := by
  unfold checkMtu; pr [pr_memIfNone _, pr_sendError _ _ _ _ _ _ _ _]

theorem pr_hsInitial (s : Sock) (l r : Addr) (i : Nat) (k : Key) (f : UInt8) : Pr E (hsInitial s l r i k f) := by
  unfold hsInitial; pr [pr_respondHandshake _ _ _ _ _ _]

theorem pr_hsReply {s : Sock} {l r : Addr} {i : Nat} {k : Key} {x : Rcv} (hA : ¬ E.addr) : Pr E (hsReply s l r i k x) := by
  unfold hsReply; pr [pr_field _ _ _, pr_finishHandshake hA, pr_handleFinish hA]

theorem pr_hsCheck (s : Sock) (l r : Addr) (i : Nat) (x : Rcv) : Pr E (hsCheck s l r i x) := by
  unfold hsCheck; pr [pr_checkMtu _ _ _ _ _, pr_field _ _ _]

theorem pr_hsKnown {s : Sock} {l r : Addr} {i : Nat} {x : Rcv} (hA : ¬ E.addr) : Pr E (hsKnown s l r i x) := by
  unfold hsKnown; pr [pr_hsCheck _ _ _ _ _, pr_hsVerified _ _ _ _ _ _, pr_hsInitial _ _ _ _ _ _, pr_hsReply hA]

theorem pr_handshakeHandle {s : Sock} {l r : Addr} {o : Option Nat} {x : Rcv} (ha : E.add) (hA : ¬ E.addr) :
    Pr E (handshakeHandle s l r o x) := by
  unfold handshakeHandle
  pr [pr_protoMaintenance, pr_field _ _ _, pr_matchSenderKey _ _ _ _, pr_hsKnown hA, pr_addDynamic ha]

/-! ### Received packets -/

theorem pr_canReceive (o : Option Nat) (l : Addr) : Pr E (canReceive o l) := by unfold canReceive; pr [Pr.unit]

theorem pr_allowUnknown : Pr E allowUnknown := by unfold allowUnknown; pr [Pr.unit]

theorem pr_backoff (r : Addr) : Pr E (backoff r) := by unfold backoff; pr [Pr.unit]

theorem pr_hsPacket {s : Sock} {l r : Addr} {o : Option Nat} {d : Bytes} {b : Bool} (ha : E.add) (hA : ¬ E.addr) :
    Pr E (hsPacket s l r o d b) := by
  unfold hsPacket; pr [pr_sendError _ _ _ _ _ _ _ _, pr_handshakeHandle ha hA]

theorem pr_classify {s : Sock} {l r : Addr} {o : Option Nat} {d : Bytes} {b : Bool} (ha : E.add) (hA : ¬ E.addr) :
    Pr E (classify s l r o d b) := by
  unfold classify
  pr [pr_memIfNone _, pr_canReceive _ _, pr_handleRecv _ _, pr_allowUnknown, pr_hsPacket ha hA, pr_backoff _,
    pr_handshakeInit _ _ _ none (fun _ h => nomatch h)]

theorem pr_senderOf (s : Sock) (r : Addr) : Pr E (senderOf s r) := by unfold senderOf; pr [pr_sockPeer _, pr_htLookup _]

theorem pr_socketReceive {s : Sock} {l r : Addr} {d : Bytes} (ha : E.add) (hA : ¬ E.addr) : Pr E (socketReceive s l r d) := by
  unfold socketReceive; pr [pr_senderOf _ _, pr_memIfNone _, pr_classify ha hA]

/-! ### Asynchronous results -/

theorem pr_resolveReturn (i k : Nat) (l : List Addr) : Pr E (resolveReturn i k l) := by
  unfold resolveReturn; pr [pr_handleResolve _ _ _]

theorem pr_verifyReturn (v : Verif) (ok : Bool) : Pr E (verifyReturn v ok) := by
  unfold verifyReturn
  refine Pr.bind' Pr.get fun c0 _ c hi h b c' h' => ?_
  cases h
  cases hf : findById c0.peers v.peer with
  | none => simp only [hf] at h'; cases h'; exact Tr.refl hi
  | some p =>
    simp only [hf] at h'
    split at h'
    · cases h'
    · rename_i hd
      have hp := (findById_some hi.sorted hf).1
      refine Tr.noReset (i := p.id) ?_ fun q hq hqi => .inl ?_
      · refine (?_ : Pr { E with reset := fun j => E.reset j ∨ j = p.id } _) _ _ _ hi h'
        pr [pr_setVerified (Or.inr rfl), pr_handleVerifyReturn _ _]
      · rw [sorted_inj hi.sorted hq hp hqi]
        simpa using hd

/-! ### Reloading -/

theorem pr_configurePeer {d : Bool} {p : Peer} (hD : ∀ i, E.del i) (hS : ¬ E.stat) (hO : ¬ E.own) {c c' : Ctx} {a : Unit} (hi : Ids c)
    (hp : p ∈ c.peers) (h : configurePeer d p c = .ok (a, c')) : Tr E c c' := by
  have hcfg : ∀ {c c' : Ctx} {a : Unit} {x : CfgState}, Ids c → p ∈ c.peers → p.cfg = .new → x ≠ .dynamic →
      modP p.id (fun p => { p with cfg := x }) c = .ok (a, c') → Tr E c c' := by
    intro c c' a x hi hp hn hx h
    refine Tr.modP hi h (fun q hq hqi => ?_) fun o => absurd o hO
    have := sorted_inj hi.sorted hq hp hqi
    subst this
    refine ⟨rfl, rfl, ?_, fun s => absurd s hS, fun _ => .inl rfl, Nat.le_refl _, .inl, fun _ _ => .inl rfl, (by intros; contradiction),
      fun _ => ⟨fun _ => ⟨rfl, rfl⟩, fun _ => rfl⟩⟩
    unfold Peer.isDynamic
    rw [hn]
    simpa using hx
  unfold configurePeer at h
  cases hc : p.cfg with
  | static => simp only [hc] at h; exact pr_peerDelete (hD _) _ _ _ hi h
  | dynamic => simp only [hc] at h; cases h; exact Tr.refl hi
  | disabled => simp only [hc] at h; exact pr_peerReset _ _ _ _ hi h
  | new =>
    simp only [hc] at h
    split at h
    · obtain ⟨_, c1, h1, h2⟩ := bind_ok h
      have t := hcfg hi hp hc (by intro h; cases h) h1
      exact t.trans (pr_peerReset _ _ _ _ t.ids h2)
    · obtain ⟨_, c1, h1, h2⟩ := bind_ok h
      have t1 : Tr E c c1 := Pr.modify (by intros; rfl) (by intros; rfl) (by intros; rfl) (by intros; rfl) _ _ _ hi h1
      obtain ⟨_, c2, h3, h4⟩ := bind_ok h2
      have hp1 : p ∈ c1.peers := by cases h1; exact hp
      have t2 := hcfg t1.ids hp1 hc (by intro h; cases h) h3
      refine (t1.trans t2).trans ?_
      split at h4
      · exact pr_peerReset _ _ _ _ t2.ids h4
      · cases h4; exact Tr.refl t2.ids

theorem pr_configureLoop {d : Bool} (hD : ∀ i, E.del i) (hS : ¬ E.stat) (hO : ¬ E.own) (n : Nat) : Pr E (configureLoop d n) := by
  induction n with
  | zero => exact Pr.pure
  | succ n ih =>
    unfold configureLoop
    intro c a c' hi h
    obtain ⟨c0, c1, h1, h2⟩ := bind_ok h
    cases h1
    obtain ⟨p, c1, h3, h4⟩ := bind_ok h2
    have hp : p ∈ c.peers ∧ c1 = c := by
      unfold memIfNone at h3
      cases hg : c.peers[n]? with
      | none => simp only [hg] at h3; cases h3
      | some q => simp only [hg] at h3; cases h3; exact ⟨List.mem_of_getElem? hg, rfl⟩
    obtain ⟨hp, rfl⟩ := hp
    obtain ⟨_, c2, h5, h6⟩ := bind_ok h4
    have t := pr_configurePeer hD hS hO hi hp h5
    exact t.trans (ih _ _ _ t.ids h6)

theorem pr_configurePeers {d : Bool} (hD : ∀ i, E.del i) (hS : ¬ E.stat) (hO : ¬ E.own) : Pr E (configurePeers d) := by
  unfold configurePeers; pr [pr_configureLoop hD hS hO _]

theorem pr_addDef {b : Bool} {d : PeerDef} (ha : E.add) (hD : ∀ i, E.del i) (hS : ¬ E.stat) (hO : ¬ E.own) : Pr E (addDef b d) := by
  unfold addDef
  split
  · exact Pr.pure
  · exact Pr.bind (pr_peerAdd ha hD hS hO (by intro h; cases h) rfl) fun _ => Pr.pure

theorem pr_addStatic {d : PeerDef} (ha : E.add) (hD : ∀ i, E.del i) (hS : ¬ E.stat) (hO : ¬ E.own) : Pr E (addStatic d) := by
  unfold addStatic
  split
  · exact Pr.fail
  · refine Pr.bind (pr_peerAdd ha hD hS hO (by intro h; cases h) rfl) fun r => ?_
    split
    · exact Pr.pure
    · exact Pr.fail

theorem reloadMark_rho (hS : ¬ E.stat) {now : Time} (p : Peer) : Rho E now [] p (reloadMark p) := by
  have key : ∀ {x : CfgState}, p.cfg ≠ .dynamic → x ≠ .dynamic → Rho E now [] p { p with cfg := x } := by
    intro x h hx
    refine ⟨rfl, rfl, ?_, fun s => absurd s hS, fun _ => .inl rfl, Nat.le_refl _, .inl, fun _ _ => .inl rfl, (by intros; contradiction),
      fun _ => ⟨fun _ => ⟨rfl, rfl⟩, fun _ => rfl⟩⟩
    unfold Peer.isDynamic
    simp [h, hx]
  unfold reloadMark
  split
  · exact Rho.refl
  · rename_i hd
    have hd : p.cfg ≠ .dynamic := by simpa [Peer.isDynamic] using hd
    split
    · exact key hd (by intro h; cases h)
    · split
      · exact key hd (by intro h; cases h)
      · exact Rho.refl

theorem pr_loadPeerDirs {d : Bool} {defs : List PeerDef} (ha : E.add) (hD : ∀ i, E.del i) (hS : ¬ E.stat) (hO : ¬ E.own) : Pr E (loadPeerDirs d defs) := by
  unfold loadPeerDirs
  refine Pr.bind ?_ fun _ => Pr.bind (Pr.forEach (fun _ => pr_addDef ha hD hS hO) _) fun _ => pr_configurePeers hD hS hO
  intro c a c' hi h
  cases h
  refine ⟨rfl, Nat.le_refl _, ⟨?_, ?_⟩, ⟨[], by simp, ?_⟩, fun o => absurd o hO, fun p _ _ => .inl (hD _)⟩
  · have hs : Sorted c.peers := hi.sorted
    unfold Sorted at hs ⊢
    show List.Pairwise _ ((c.peers.map reloadMark).map (·.id))
    rw [List.map_map]
    have : ((·.id) ∘ reloadMark : Peer → Nat) = (·.id) := by
      funext p
      exact (reloadMark_rho (E := E) (now := c.now) hS p).id
    rw [this]
    exact hs
  · intro p' hp'
    obtain ⟨p, hp, rfl⟩ := List.mem_map.1 hp'
    rw [(reloadMark_rho (E := E) (now := c.now) hS p).id]
    exact hi.lt p hp
  · intro p' hp'
    obtain ⟨p, hp, rfl⟩ := List.mem_map.1 hp'
    exact .inl ⟨p, hp, reloadMark_rho hS p⟩

theorem pr_startup {s d : List PeerDef} (ha : E.add) (hD : ∀ i, E.del i) (hS : ¬ E.stat) (hO : ¬ E.own) : Pr E (startup s d) := by
  unfold startup
  exact Pr.bind (Pr.forEach (fun _ => pr_addStatic ha hD hS hO) _) fun _ => Pr.bind (pr_configurePeers hD hS hO) fun _ =>
    pr_loadPeerDirs ha hD hS hO

/-! ### Events and executions -/

/-- What happens in all events except reloading. -/
def Plain : Ex := ⟨nobody, nobody, nobody, nobody, True, True, True, False⟩

/-- What happens when the configuration is reloaded. -/
def Reloading : Ex := ⟨nobody, nobody, nobody, fun _ => True, True, False, False, True⟩

/-- Does an event reload the configuration? -/
def Event.isReload : Event → Bool
  | .reload _ => true
  | _ => false

/-- Time passes. -/
def Event.isTick : Event → Bool
  | .tick _ => true
  | _ => false

theorem pr_ethCleanup : Pr E ethCleanup := by unfold ethCleanup; pr [Pr.unit]

theorem pr_handle {e : Event} (hr : e.isReload = false) (ht : e.isTick = false) : Pr Plain (handle e) := by
  have hA : ¬ Plain.addr := id
  cases e with
  | tick d => cases ht
  | task i => exact pr_peerTask hA id
  | maintenance => unfold handle; pr [pr_ethCleanup]
  | recv s l r d => exact pr_socketReceive trivial hA
  | iface o d => exact pr_sendData _ _ _
  | resolved k l => unfold handle; pr [pr_memIfNone _, pr_resolveReturn _ _ _]
  | verified k ok => unfold handle; pr [pr_memIfNone _, pr_verifyReturn _ _]
  | reload d => cases hr
  | resetAll => unfold handle; pr [pr_resetAll _ _]

theorem Inv.idsOk {S : Prop} {x y z : Nat → Prop} {c : Ctx} (h : Inv S x y z c) : Ids c := ⟨h.ids, h.idlt⟩

end Fastd.Daemon
