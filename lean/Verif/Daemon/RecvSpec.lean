import Verif.Daemon.PayloadSpec

/-!
# Received payload and the invariant
-/

namespace Fastd.Daemon

set_option linter.unusedSectionVars false

variable [Env] {S : Prop} {x y z : Nat → Prop}

/-! ### Changing the sessions of a peer -/

theorem nodup_of_disjoint {ps : List Peer} (hs : Sorted ps) (h1 : ∀ p ∈ ps, p.refs.Nodup)
    (h2 : ∀ p ∈ ps, ∀ q ∈ ps, p.id ≠ q.id → ∀ k ∈ p.refs, k ∉ q.refs) : (ps.flatMap Peer.refs).Nodup := by
  induction ps with
  | nil => exact List.nodup_nil
  | cons a as ih =>
    simp only [Sorted, List.map_cons, List.pairwise_cons] at hs
    rw [List.flatMap_cons, List.nodup_append]
    refine ⟨h1 a List.mem_cons_self, ih hs.2 (fun p hp => h1 p (List.mem_cons_of_mem _ hp))
      fun p hp q hq => h2 p (List.mem_cons_of_mem _ hp) q (List.mem_cons_of_mem _ hq), ?_⟩
    rintro k hk _ hk' rfl
    obtain ⟨q, hq, hkq⟩ := List.mem_flatMap.1 hk'
    have := hs.1 q.id (List.mem_map_of_mem hq)
    exact h2 a List.mem_cons_self q (List.mem_cons_of_mem _ hq) (by omega) k hk hkq

/-- A peer drops sessions and gets new ones. -/
theorem RefsOk.change {ps : List Peer} {objs objs' : Nat → Option Env.Sess} {n n' : Nat} (h : RefsOk ps objs n)
    (hs : Sorted ps) {p q : Peer} (hp : p ∈ ps) (hid : q.id = p.id) (hn : n ≤ n') (hnd : q.refs.Nodup)
    (hnew : ∀ k ∈ q.refs, (k ∈ p.refs ∨ n ≤ k) ∧ k < n' ∧ (objs' k).isSome = true)
    (hgone : ∀ k ∈ p.refs, k ∉ q.refs → objs' k = none)
    (hsame : ∀ k, k ∉ p.refs → k ∉ q.refs → (objs' k).isSome = (objs k).isSome) :
    RefsOk (updPeers ps p.id fun _ => q) objs' n' := by
  have hs' : Sorted (updPeers ps p.id fun _ => q) := by
    refine sorted_updPeers hs ?_; intro r _ hr; rw [hr]; exact hid
  have hdis : ∀ r ∈ ps, r.id ≠ p.id → ∀ k ∈ q.refs, k ∉ r.refs := by
    intro r hr hne k hk hkr
    rcases (hnew k hk).1 with h1 | h1
    · exact refs_disjoint hs h.nodup hp hr (Ne.symm hne) h1 hkr
    · have := h.lt k (mem_refs_of_mem hr hkr); omega
  refine ⟨nodup_of_disjoint hs' ?_ ?_, fun k => ?_, fun k hk => ?_⟩
  · intro r hr
    rcases mem_upd hr with rfl | ⟨hr, _⟩
    · exact hnd
    · exact nodup_refs h.nodup hr
  · intro r hr s hss hne k hk hks
    rcases mem_upd hr with hr1 | ⟨hr1, hrn⟩ <;> rcases mem_upd hss with hs1 | ⟨hs1, hsn⟩
    · exact hne (by rw [hr1, hs1])
    · rw [hr1] at hk; exact hdis s hs1 hsn k hk hks
    · rw [hs1] at hks; exact hdis r hr1 hrn k hks hk
    · exact refs_disjoint hs h.nodup hr1 hs1 hne hk hks
  · rw [List.mem_flatMap]
    by_cases hkq : k ∈ q.refs
    · exact ⟨fun _ => ⟨q, mem_upd_self hp, hkq⟩, fun _ => (hnew k hkq).2.2⟩
    · by_cases hkp : k ∈ p.refs
      · rw [hgone k hkp hkq]
        constructor
        · intro h; cases h
        · rintro ⟨r, hr, hk⟩
          rcases mem_upd hr with rfl | ⟨hr, hne⟩
          · exact absurd hk hkq
          · exact absurd hk (refs_disjoint hs h.nodup hp hr (Ne.symm hne) hkp)
      · rw [hsame k hkp hkq, h.live k, List.mem_flatMap]
        constructor
        · rintro ⟨r, hr, hk⟩
          refine ⟨r, mem_updPeers_other hr ?_, hk⟩
          intro he
          rw [sorted_inj hs hr hp he] at hk
          exact hkp hk
        · rintro ⟨r, hr, hk⟩
          rcases mem_upd hr with rfl | ⟨hr, hne⟩
          · exact absurd hk hkq
          · exact ⟨r, hr, hk⟩
  · obtain ⟨r, hr, hkr⟩ := List.mem_flatMap.1 hk
    rcases mem_upd hr with rfl | ⟨hr, _⟩
    · exact (hnew k hkr).2.1
    · exact Nat.lt_of_lt_of_le (h.lt k (mem_refs_of_mem hr hkr)) hn

/-! ### `fastd_handle_receive` -/

/-- The MAC table after learning the source address of a packet from a peer. -/
def learnedFrom (c : Ctx) (i : Nat) (data : Bytes) (a : Bytes) : Option (Option Nat) :=
  if Env.mode = .tap ∧ isUnicast (sourceMac data) = true ∧ a = sourceMac data then some (some i)
  else (ethEntry c.eth a).map (·.peer)

/-- Whether a packet from a peer is handed to the interface. -/
def deliverable (p : Peer) (data : Bytes) : Bool := p.iface.isSome && !(decide (Env.mode = .tap) && decide (data.length < 14))

/-- What handling a packet from a peer appends to the log. -/
inductive Handed (p : Peer) (data : Bytes) (c : Ctx) (l : List Eff) : Prop
  | drop (h : deliverable p data = false) (hl : l = [])
  | write (h : deliverable p data = true) (es : List Eth) (l' : List Eff) (hes : EthSorted es)
      (hle : ∀ a, (ethEntry es a).map (·.peer) = learnedFrom c p.id data a) (hl : l = .write p.id data :: l')
      (hf : Env.mode = .tap → Env.forward = true →
        Sends c data (targets { c with eth := es } (some p.id) data) l')
      (hn : ¬ (Env.mode = .tap ∧ Env.forward = true) → l' = [])

/-- Effects of handling payload from a peer. -/
structure RecvE (E : Eff → Prop) (c : Ctx) (i : Nat) : Prop where
  plain : ∀ e, e.plain = true → E e
  write : ∀ d, E (.write i d)
  enc : ∀ p ∈ c.peers, p.state = .established → ∀ k d, E (.encrypt p.id k d)

theorem wp_learnRemote {c : Ctx} (h : Inv S x y z c) {p : Peer} (hp : p ∈ c.peers) {i : Nat} (hi : p.id = i)
    (he : p.state = .established) {data : Bytes} {Q : Bool → Ctx → Prop}
    (hQf : Env.mode = .tap → data.length < 14 → Q false c)
    (hQt : ¬ (Env.mode = .tap ∧ data.length < 14) → ∀ es, Inv S x y z { c with eth := es } → EthSorted es →
      (∀ a, (ethEntry es a).map (·.peer) = learnedFrom c i data a) → Q true { c with eth := es }) :
    wp S (learnRemote i data) Q c := by
  unfold learnRemote
  have same : ¬ (Env.mode = .tap ∧ isUnicast (sourceMac data) = true) →
      ∀ a, (ethEntry c.eth a).map (·.peer) = learnedFrom c i data a := by
    intro hn a
    unfold learnedFrom
    rw [if_neg fun hc => hn ⟨hc.1, hc.2.1⟩]
  refine wp_ite (fun hm => ?_) (fun hm => ?_)
  · rw [wp_pure]
    exact hQt (fun h => hm h.1) c.eth h h.eth.sorted (same fun h => hm h.1)
  simp only [ne_eq, Decidable.not_not] at hm
  refine wp_ite (fun hl => ?_) (fun hl => ?_)
  · rw [wp_pure]; exact hQf hm hl
  rw [wp_bind]
  refine wp_when (fun hu => ?_) (fun hu => ?_)
  · refine wp_ethAdd h (peer := some i) (fun j hj => ?_) fun es h' hle => ?_
    · cases hj; exact ⟨p, hp, hi, he⟩
    · rw [wp_pure]
      refine hQt (fun h => hl h.2) es h' hle.1 fun a => ?_
      rw [hle.2]
      unfold learnedFrom
      by_cases ha : a = sourceMac data
      · rw [if_pos ha, if_pos ⟨hm, hu, ha⟩]; rfl
      · rw [if_neg ha, if_neg fun hc => ha hc.2.2]
  · rw [wp_pure]
    exact hQt (fun h => hl h.2) c.eth h h.eth.sorted (same fun h => by rw [hu] at h; exact absurd h.2 (by simp))

/-- `Sends` does not depend on the log either. -/
theorem Sends.congr {c c' : Ctx} (h1 : c'.peers = c.peers) (h2 : c'.objs = c.objs) (h3 : c'.now = c.now) {data : Bytes}
    {is : List Nat} {l : List Eff} (h : Sends c' data is l) : Sends c data is l := by
  have hv : ∀ s, validNow c' s = validNow c s := fun s => validNow_congr (fun _ _ => by rw [h2]) h3
  have hc : ∀ p, chosen c' p = chosen c p := by
    intro p
    unfold chosen useOldNow
    rw [hv, initiatorNow_congr (c := c) (c' := c') (fun _ _ => by rw [h2])]
  induction h with
  | nil => exact .nil
  | snoc _ hb ih =>
    refine ih.snoc ?_
    cases hb with
    | dead hp hi he hv' => rw [h1] at hp; rw [hv] at hv'; exact .dead hp hi he hv'
    | failed hp hi he hv' hm hk ho hf =>
      rw [h1] at hp; rw [hv] at hv'; rw [hc] at hm hk; rw [h2] at ho
      exact .failed hp hi he hv' hm hk ho hf
    | sent hp hi he hv' hm hk ho hf hs =>
      rw [h1] at hp; rw [hv] at hv'; rw [hc] at hm hk; rw [h2] at ho
      exact Block.sent (c := c) hp hi he hv' hm hk ho hf hs

theorem targets_congr {c c' : Ctx} (h1 : c'.peers = c.peers) (h2 : c'.eth = c.eth) (source : Option Nat) (data : Bytes) :
    targets c' source data = targets c source data := by
  unfold targets learned
  rw [h1, h2]

theorem wp_handleReceive {c : Ctx} (h : Inv S nobody y z c) (hS : S → EnvOk) {p : Peer} (hp : p ∈ c.peers) {i : Nat}
    (hi : p.id = i) (he : p.state = .established) {data : Bytes} {Q : Unit → Ctx → Prop}
    (hQ : ∀ c' l, Inv S nobody y z c' → c'.log = c.log ++ l → Handed p data c l →
      (∀ E, RecvE E c i → Fr (fun j => j ≠ i) nobody E c c') → Q () c') : wp S (handleReceive i data) Q c := by
  subst hi
  unfold handleReceive
  rw [wp_bind, wp_getP h.ids hp]
  refine wp_ite (fun hif => ?_) (fun hif => ?_)
  · rw [wp_pure]
    exact hQ c [] h (List.append_nil _).symm (.drop (by simp [deliverable, hif]) rfl) fun E _ => Fr.refl
  have hsome : p.iface.isSome = true := Option.isSome_iff_ne_none.2 hif
  rw [wp_bind]
  refine wp_learnRemote h hp rfl he (fun hm hl => ?_) (fun hn es h1 hes hle => ?_)
  · rw [if_pos (by rfl), wp_pure]
    exact hQ c [] h (List.append_nil _).symm (.drop (by simp [deliverable, hm, hl]) rfl) fun E _ => Fr.refl
  · rw [if_neg (by simp), wp_bind, wp_emit]
    have hdel : deliverable p data = true := by
      unfold deliverable
      rw [hsome, Bool.true_and, Bool.not_eq_true', Bool.and_eq_false_iff, decide_eq_false_iff_not,
        decide_eq_false_iff_not]
      by_cases hm : Env.mode = .tap
      · exact .inr fun hl => hn ⟨hm, hl⟩
      · exact .inl hm
    refine wp_opaque fun c1 e1 => ?_
    have hh1 : Inv S nobody y z c1 := by rw [e1]; exact h1.emit rfl
    have f1 : ∀ E, RecvE E c p.id → Fr (fun j => j ≠ p.id) nobody E c c1 := by
      intro E hE
      rw [e1]
      exact Fr.eths.trans (Fr.emit (hE.write data))
    have l1 : c1.log = c.log ++ [.write p.id data] := by rw [e1]
    refine wp_ite (fun hf => ?_) (fun hf => ?_)
    · rw [Bool.and_eq_true, decide_eq_true_eq] at hf
      refine wp_sendData (dest := none) hh1 hS (fun d hd => (nomatch hd)) fun c' l h' hl hsn _ hfr => ?_
      refine hQ c' (.write p.id data :: l) h' ?_ ?_ fun E hE => ?_
      · rw [hl, l1, List.append_assoc]; rfl
      · refine .write hdel es l hes hle rfl (fun _ _ => ?_) fun hn => absurd hf hn
        have hs := hsn rfl
        rw [targets_congr (c := { c with eth := es }) (c' := c1) (by rw [e1]) (by rw [e1])] at hs
        exact hs.congr (by rw [e1]) (by rw [e1]) (by rw [e1])
      · refine (f1 E hE).trans ((hfr E ⟨hE.plain, ?_⟩).mono (fun j hj => ?_) (fun _ h => h) fun _ h => h)
        · intro q hq hqe _ k
          rw [e1] at hq
          exact hE.enc q hq hqe k data
        · rintro rfl; exact hj rfl
    · rw [wp_pure]
      refine hQ c1 [.write p.id data] hh1 l1 (.write hdel es [] hes hle rfl (fun h1 h2 => ?_) fun _ => rfl) f1
      rw [Bool.and_eq_true, decide_eq_true_eq] at hf
      exact absurd ⟨h1, h2⟩ hf

/-! ### `protocol_handle_recv` -/

/-- The result of decrypting with a session. -/
def decryptNow (c : Ctx) (s : Session) (pkt : Bytes) : Option (Bytes × Bool × Env.Sess) :=
  match s.method, s.mstate with
  | some m, some h =>
    match c.objs h with
    | some o => Env.decrypt m o pkt c.now
    | none => none
  | _, _ => none

theorem wp_decryptWith {c : Ctx} (h : Inv S x y z c) {p : Peer} (hp : p ∈ c.peers) {i : Nat} (hi : p.id = i)
    {s : Session} {m k : Nat} {o : Env.Sess} (hm : s.method = some m)
    (hk : s.mstate = some k) (ho : c.objs k = some o) (hr : k ∈ p.refs) {pkt : Bytes} {Q : Option Bytes → Ctx → Prop}
    (hQn : ∀ c', decryptNow c s pkt = none → c' = { c with log := c.log ++ [.tryDecrypt i k pkt] } →
      Inv S x y z c' → Q none c')
    (hQs : ∀ c' data b o', decryptNow c s pkt = some (data, b, o') →
      c' = { setCtx c k o' with log := c.log ++ [.tryDecrypt i k pkt, .accept i k pkt] } → Inv S x y z c' →
      (∀ E : Eff → Prop, E (.tryDecrypt i k pkt) → E (.accept i k pkt) → Fr (· = i) nobody E c c') → Q (some data) c') :
    wp S (decryptWith i s pkt) Q c := by
  subst hi
  unfold decryptWith
  have hd : decryptNow c s pkt = Env.decrypt m o pkt c.now := by
    unfold decryptNow; rw [hm, hk]; simp only [ho]
  rw [hd] at hQn
  simp only [hd] at hQs
  rw [hm, hk]
  show wp S (getObj k >>= _) Q c
  rw [wp_bind, wp_getObj ho, wp_bind, wp_get, wp_bind, wp_emit]
  have h1 : Inv S x y z { c with log := c.log ++ [.tryDecrypt p.id k pkt] } := h.emit rfl
  cases hde : Env.decrypt m o pkt c.now with
  | none =>
    simp only []
    rw [wp_pure]
    exact hQn _ hde rfl h1
  | some r =>
    obtain ⟨data, b, o'⟩ := r
    simp only []
    rw [wp_bind]
    show wp S (modify fun c => setCtx c k o') _ _
    rw [wp_modify, wp_bind, wp_emit, wp_pure]
    refine hQs _ data b o' hde ?_ ((h1.setObj ho).emit rfl) fun E hE1 hE2 => ?_
    · apply Ctx.ext <;> first | rfl | exact List.append_assoc _ _ _
    · exact (Fr.emit hE1).trans ((Fr.setObj (t := fun j => j = p.id) h1 hp rfl hr).trans (Fr.emit hE2))

theorem wp_dropOld {c : Ctx} (h : Inv S nobody y z c) {p : Peer} (hp : p ∈ c.peers) {i : Nat} (hi : p.id = i)
    (he : p.state = .established) {Q : Unit → Ctx → Prop}
    (hQ : ∀ c' o, o.method = none → o.mstate = none → c' = { c with
        peers := updPeers c.peers i fun _ => { p with old := o }
        objs := without c.objs p.old.mstate.toList } → Inv S nobody y z c' → { p with old := o } ∈ c'.peers →
      (∀ E, Fr (· = i) nobody E c c') → Q () c') : wp S (dropOld i) Q c := by
  subst hi
  unfold dropOld
  have hk := h.peer p hp
  rw [wp_bind, wp_getP h.ids hp]
  have hnd := nodup_refs h.refs.nodup hp
  cases hm : p.old.method with
  | none =>
    simp only []
    rw [wp_pure]
    have hms : p.old.mstate = none := by
      have := hk.oldM
      rw [hm] at this
      cases hms : p.old.mstate with
      | none => rfl
      | some k => rw [hms] at this; cases this
    refine hQ c p.old hm hms ?_ h hp fun E => Fr.refl
    rw [hms, Option.toList_none, without_nil]
    have : ({ p with old := p.old } : Peer) = p := rfl
    rw [this, updPeers_self h.ids hp]
  | some m =>
    simp only []
    rw [wp_bind]
    refine wp_freeState (fun k hkm => h.refs.obj hp (by unfold Peer.refs; rw [hkm]; simp)) ?_
    refine (wp_modP (p := p) (by exact h.ids) (by exact hp) rfl).2 ?_
    simp only [updPeers_const h.ids hp]
    refine hQ _ {} rfl rfl rfl ?_ (mem_upd_self hp) fun E => ?_
    · refine h.upd hp rfl rfl rfl rfl rfl (Nat.le_refl _) rfl rfl rfl rfl rfl rfl (fun _ _ => id) (fun _ _ => id)
        (fun _ _ => id) (h.ht.upd h.ids hp rfl rfl) (h.uniq.upd hp rfl (.inl rfl)) (h.socks.upd hp rfl rfl) ?_
        (h.eth.upd h.ids hp rfl id) (h.limits.upd h.ids hp rfl id) ?_ (h.act p hp) (h.timers p hp) fun hz =>
        h.sched p hp hz
      · have hrefs : ({ p with old := {} } : Peer).refs = p.sess.mstate.toList := rfl
        refine h.refs.change h.ids hp rfl (Nat.le_refl _) ?_ ?_ ?_ ?_
        · rw [hrefs]; exact (List.nodup_append.1 hnd).2.1
        · intro k hkr
          rw [hrefs] at hkr
          have hkp : k ∈ p.refs := List.mem_append_right _ hkr
          refine ⟨.inl hkp, h.refs.lt k (mem_refs_of_mem hp hkp), ?_⟩
          show (without c.objs _ k).isSome = true
          unfold without
          rw [if_neg fun hko => (List.nodup_append.1 hnd).2.2 k hko k hkr rfl]
          exact h.refs.obj hp hkp
        · intro k hkp hkn
          rw [hrefs] at hkn
          have : k ∈ p.old.mstate.toList := (List.mem_append.1 hkp).resolve_right hkn
          show without c.objs _ k = none
          unfold without; rw [if_pos this]
        · intro k hkp _
          show (without c.objs _ k).isSome = _
          unfold without
          rw [if_neg fun hko => hkp (List.mem_append_left _ hko)]
      · exact { hk with idle := fun _ hn => absurd he hn, oldM := rfl }
    · refine ⟨rfl, rfl, Nat.le_refl _, forall₂_updPeers (fun r hr hi => ?_) fun _ _ _ => PFr.refl, ?_, [],
        (List.append_nil _).symm, by simp⟩
      · rw [sorted_inj h.ids hr hp hi]
        exact ⟨rfl, fun hn => absurd rfl hn, .inl, .inl rfl⟩
      · intro q hq hn k hkq
        show without c.objs _ k = _
        unfold without
        rw [if_neg]
        intro hko
        exact refs_disjoint h.ids h.refs.nodup hp hq (fun he => hn he.symm) (List.mem_append_left _ hko) hkq

/-- `fastd_peer_unschedule_handshake` for an established peer. -/
theorem wp_unscheduleHandshake {c : Ctx} (h : Inv S x y z c) {p : Peer} (hp : p ∈ c.peers) {i : Nat} (hi : p.id = i)
    (he : p.state = .established) {Q : Unit → Ctx → Prop}
    (hQ : ∀ c', c' = { c with peers := updPeers c.peers i fun _ => { p with nextHs := timeoutInv } } →
      Inv S x y z c' → { p with nextHs := timeoutInv } ∈ c'.peers →
      (∀ E, Fr (· = i) nobody E c c') → Q () c') : wp S (unscheduleHandshake i) Q c := by
  unfold unscheduleHandshake
  have ht := h.timers p hp he
  refine wp_modP_core h hp hi ⟨rfl, rfl, rfl, rfl, Iff.rfl, rfl, rfl⟩ (fun _ _ => id) (fun _ _ => id) (fun _ _ => id) ?_ ?_
    (h.timers p hp) (fun hz hst hd => ?_) hQ
  · subst hi; exact { h.peer p hp with hs := fun _ _ hn => absurd he hn }
  · subst hi; exact h.act p hp
  · subst hi
    have h1 := deadline_le (p := p)
    have hle : p.deadline ≤ ({ p with nextHs := timeoutInv } : Peer).deadline := by
      rcases deadline_eq { p with nextHs := timeoutInv } with h2 | h2 | h2 <;> rw [h2] at hd ⊢ <;>
        simp only [] at hd ⊢ <;> omega
    obtain ⟨t, htk, hle'⟩ := h.sched p hp hz hst (Int.lt_of_le_of_lt hle hd)
    exact ⟨t, htk, Int.le_trans hle' hle⟩

/-- The peer after the first packet of a session. -/
theorem wp_cleanHandshakes {c : Ctx} (h : Inv S nobody y z c) (hS : S → EnvOk) {p : Peer} (hp : p ∈ c.peers) {i : Nat}
    (hi : p.id = i) (he : p.state = .established) {Q : Unit → Ctx → Prop}
    (hQ : ∀ c' q l, Inv S nobody y z c' → q ∈ c'.peers → Soft p q → Kept c c' → c'.log = c.log ++ l →
      (∀ e ∈ l, e.plain = true ∨ ∃ k, e = .encrypt i k []) →
      (∀ E : Eff → Prop, (∀ e, e.plain = true → E e) → (∀ k, E (.encrypt i k [])) → Fr (· = i) nobody E c c') →
      Q () c') : wp S (cleanHandshakes i) Q c := by
  subst hi
  unfold cleanHandshakes
  rw [wp_bind, wp_getP h.ids hp]
  refine wp_ite (fun _ => ?_) (fun _ => ?_)
  · rw [wp_pure]
    exact hQ c p [] h hp (Soft.refl p) (Kept.refl c) (List.append_nil _).symm (by simp) fun E _ _ => Fr.refl
  rw [wp_bind]
  refine wp_unscheduleHandshake h hp rfl he fun c1 e1 h1 hp1 f1 => ?_
  rw [wp_bind]
  refine wp_modP_same h1 hp1 rfl rfl rfl rfl rfl ⟨rfl, rfl, fun hn => absurd he hn⟩ rfl rfl rfl rfl rfl
    (fun h => h) (fun h => h) (fun _ _ _ => Int.le_refl _) fun c2 e2 h2 hp2 f2 => ?_
  rw [wp_bind]
  refine (wp_getP' h2.ids hp2 rfl).2 ?_
  rw [wp_bind]
  obtain ⟨m, k, o, hm, hk, ho⟩ := h.estSess hp (fun h => h) he
  have o2 : c2.objs = c.objs := by rw [e2, e1]
  have l2 : c2.log = c.log := by rw [e2, e1]
  have k2 : Kept c c2 := by rw [e2, e1]; exact ⟨rfl, rfl, rfl, rfl, rfl, rfl, rfl, rfl, rfl, rfl⟩
  refine wp_isInitiator hm hk (by rw [o2]; exact ho) ?_
  refine wp_when (fun _ => ?_) (fun _ => ?_)
  · refine wp_sendEmpty h2 hp2 rfl he hS fun c3 q h3 hq hs k3 hsent f3 => ?_
    have hl : ∃ l, c3.log = c2.log ++ l ∧ ∀ e ∈ l, e.plain = true ∨ ∃ k, e = .encrypt p.id k [] := by
      obtain ⟨m', k', o', _, _, _, hor⟩ := hsent
      rcases hor with ⟨_, hl⟩ | ⟨pkt, o'', sk, _, _, _, hl⟩
      · exact ⟨[], by rw [hl, List.append_nil], by simp⟩
      · refine ⟨_, hl, fun e he => ?_⟩
        rw [List.mem_cons, List.mem_singleton] at he
        rcases he with rfl | rfl
        · exact .inr ⟨_, rfl⟩
        · exact .inl rfl
    obtain ⟨l, hl, hle⟩ := hl
    refine hQ c3 q l h3 hq (Soft.trans ?_ hs) (k2.trans k3) (by rw [hl, l2]) hle fun E hE hE' =>
      ((f1 E).trans (f2 E)).trans (f3 E hE hE')
    rfl
  · exact hQ c2 _ [] h2 hp2 rfl k2 (by rw [l2, List.append_nil]) (by simp) fun E _ _ => (f1 E).trans (f2 E)

/-- The outcomes of `protocol_handle_recv`. -/
inductive RecvRes (p : Peer) (pkt : Bytes) (c c' : Ctx) : Prop
  | dead (q : Peer) (hv : validNow c p.sess = false) (hq : q ∈ c'.peers) (hc : Cleared c.now p q) (hr : ResetTo p q c c')
  | reject (hv : validNow c p.sess = true) (ho : validNow c p.old = true → decryptNow c p.old pkt = none)
      (hs : decryptNow c p.sess pkt = none) (l : List Eff)
      (hc : c' = { c with log := c.log ++ l }) (hl : ∀ e ∈ l, ∃ k ∈ p.refs, e = .tryDecrypt p.id k pkt)
  | accept (hv : validNow c p.sess = true) (useOld : Bool)
      (ho : if useOld then validNow c p.old = true else (validNow c p.old = true → decryptNow c p.old pkt = none))
      (data : Bytes) (b : Bool) (o' : Env.Sess) (k : Nat)
      (hd : decryptNow c (if useOld then p.old else p.sess) pkt = some (data, b, o'))
      (hk : (if useOld then p.old else p.sess).mstate = some k)
      (q : Peer) (hq : q ∈ c'.peers) (hsoft : Soft { p with old := q.old, resetTimeout := c.now + PEER_STALE_TIME } q)
      (hold : if useOld then q.old = p.old else q.old.method = none ∧ q.old.mstate = none)
      (c1 : Ctx) (l1 l2 : List Eff) (hf : Fr (· = p.id) nobody (fun _ => True) c c1) (hq1 : q ∈ c1.peers)
      (heth : c1.eth = c.eth)
      (hl : c'.log = c.log ++ (l1 ++ l2))
      (hl1 : ∀ e ∈ l1, e.plain = true ∨ (∃ k, e = .encrypt p.id k []) ∨ (∃ k ∈ p.refs, e = .tryDecrypt p.id k pkt) ∨
        e = .accept p.id k pkt)
      (hacc : .accept p.id k pkt ∈ l1)
      (hl2 : if data = [] then l2 = [] else Handed q data c1 l2)

theorem wp_deliver {c : Ctx} (h : Inv S nobody y z c) (hS : S → EnvOk) {p : Peer} (hp : p ∈ c.peers) {i : Nat}
    (hi : p.id = i) (he : p.state = .established) {data : Bytes} {Q : Unit → Ctx → Prop}
    (hQ : ∀ c1 c' l, Inv S nobody y z c' →
      c1 = { c with peers := updPeers c.peers i fun _ => { p with resetTimeout := c.now + PEER_STALE_TIME } } →
      { p with resetTimeout := c.now + PEER_STALE_TIME } ∈ c1.peers →
      { p with resetTimeout := c.now + PEER_STALE_TIME } ∈ c'.peers → c'.log = c.log ++ l →
      (if data = [] then l = [] else Handed { p with resetTimeout := c.now + PEER_STALE_TIME } data c1 l) →
      (∀ E, Fr (· = i) nobody E c c1) →
      (∀ E, RecvE E c i → Fr (fun _ => True) nobody E c c') → Q () c') : wp S (deliver i data) Q c := by
  unfold deliver
  rw [wp_bind]
  refine wp_seen h hp hi he fun c1 e1 h1 hp1 f1 => ?_
  have l1 : c1.log = c.log := by rw [e1]
  refine wp_ite (fun hd => ?_) (fun hd => ?_)
  · have hne : data ≠ [] := fun hn => hd (by rw [hn]; rfl)
    refine wp_handleReceive h1 hS hp1 hi he fun c2 l h2 hl hh f2 => ?_
    refine hQ c1 c2 l h2 e1 hp1 ?_ (by rw [hl, l1]) (by rw [if_neg hne]; exact hh) f1 fun E hE => ?_
    · obtain ⟨q, hq, hqi, hpf⟩ := (f2 (fun _ => True) ⟨fun _ _ => trivial, fun _ => trivial,
        fun _ _ _ _ _ => trivial⟩).mem hp1
      rw [← hpf.same (by simpa using hi)]
      exact hq
    · refine ((f1 E).mono (fun _ _ => trivial) (fun _ h => h) fun _ h => h).trans
        ((f2 E ⟨hE.plain, hE.write, ?_⟩).mono (fun _ _ => trivial) (fun _ h => h) fun _ h => h)
      intro q hq hqe k d
      obtain ⟨r, hr, hri, hrf⟩ := (f1 E).mem' hq
      rw [hri]
      exact hE.enc r hr ((hrf.est hqe).resolve_right fun h => h) k d
  · rw [wp_pure]
    have hn : data = [] := by
      simp only [ne_eq, Decidable.not_not] at hd
      exact List.eq_nil_of_length_eq_zero hd
    exact hQ c1 c1 [] h1 e1 hp1 hp1 (by rw [l1, List.append_nil]) (by rw [if_pos hn]) f1 fun E _ =>
      (f1 E).mono (fun _ _ => trivial) (fun _ h => h) fun _ h => h

/-- The session whose state is alive can be used. -/
theorem valid_session {c : Ctx} {s : Session} (h : validNow c s = true) :
    ∃ m k o, s.method = some m ∧ s.mstate = some k ∧ c.objs k = some o := by
  unfold validNow at h
  cases hm : s.method with
  | none => rw [hm] at h; cases h
  | some m =>
    cases hk : s.mstate with
    | none => rw [hm, hk] at h; cases h
    | some k =>
      rw [hm, hk] at h
      cases ho : c.objs k with
      | none => simp only [ho] at h; cases h
      | some o => exact ⟨m, k, o, rfl, rfl, ho⟩

theorem decryptNow_congr {c c' : Ctx} {s : Session} (ho : c'.objs = c.objs) (hn : c'.now = c.now) {pkt : Bytes} :
    decryptNow c' s pkt = decryptNow c s pkt := by
  unfold decryptNow
  rw [ho, hn]

theorem Soft.seen {p q : Peer} {o : Session} (h : Soft { p with old := o } q) (t : Time) :
    Soft { p with old := q.old, resetTimeout := t } { q with resetTimeout := t } := by
  unfold Soft at *
  conv_lhs => rw [h]
  have := (congrArg Peer.old h :)
  simp only [] at this
  rw [this]

/-- Effects of handling a data packet from a peer. -/
structure PktE (E : Eff → Prop) (c : Ctx) (p : Peer) (pkt : Bytes) : Prop extends RecvE E c p.id where
  tryD : ∀ k ∈ p.refs, E (.tryDecrypt p.id k pkt)
  acc : ∀ k ∈ p.refs, E (.accept p.id k pkt)

theorem RecvE.back {E : Eff → Prop} {c c' : Ctx} {i : Nat} (h : RecvE E c i) {t : Nat → Prop} {E' : Eff → Prop}
    (hf : Fr t nobody E' c c') : RecvE E c' i := by
  refine ⟨h.plain, h.write, fun q hq hqe k d => ?_⟩
  obtain ⟨r, hr, hri, hrf⟩ := hf.mem' hq
  rw [hri]
  exact h.enc r hr ((hrf.est hqe).resolve_right fun h => h) k d

theorem wp_handleRecv {c : Ctx} (h : Inv S nobody y z c) (hS : S → EnvOk) {p : Peer} (hp : p ∈ c.peers) {i : Nat}
    (hi : p.id = i) (he : p.state = .established) {pkt : Bytes} {Q : Unit → Ctx → Prop}
    (hQ : ∀ c', Inv S nobody y z c' → RecvRes p pkt c c' →
      (∀ E, PktE E c p pkt → Fr (fun _ => True) nobody E c c') → Q () c') : wp S (handleRecv i pkt) Q c := by
  subst hi
  unfold handleRecv
  rw [wp_bind]
  refine wp_checkSession h hp rfl (fun hv => ?_) (fun c1 q hv h1 hq hcl hrt hf => ?_)
  swap
  · rw [if_pos (by rfl), wp_pure]
    exact hQ c1 h1 (.dead q hv hq hcl hrt) fun E hE =>
      (hf E (hE.plain _ rfl)).mono (fun _ _ => trivial) (fun _ h => h) fun _ h => h
  rw [if_neg (by simp), wp_bind]
  unfold tryOld
  rw [wp_bind, wp_getP h.ids hp, wp_bind]
  refine wp_sessionValid (h.aliveO hp) ?_
  -- the current session, after the old one has failed
  have cur : ∀ c0 l0, Inv S nobody y z c0 → c0 = { c with log := c.log ++ l0 } →
      (validNow c p.old = true → decryptNow c p.old pkt = none) →
      (∀ e ∈ l0, ∃ k ∈ p.refs, e = .tryDecrypt p.id k pkt) →
      wp S (do
        let p' ← getP p.id
        match (← decryptWith p.id p'.sess pkt) with
        | none => pure ()
        | some data =>
          dropOld p.id
          cleanHandshakes p.id
          checkSessionRefresh p.id
          deliver p.id data) Q c0 := by
    intro c0 l0 h0 e0 ho hl0
    have hp0 : p ∈ c0.peers := by rw [e0]; exact hp
    have f0 : ∀ E, PktE E c p pkt → Fr (fun _ => True) nobody E c c0 := by
      intro E hE
      rw [e0]
      refine ⟨rfl, rfl, Nat.le_refl _, forall₂_refl' fun _ _ => PFr.refl, fun _ _ _ _ _ => rfl, l0, rfl, fun e he => ?_⟩
      obtain ⟨k, hk, rfl⟩ := hl0 e he
      exact hE.tryD k hk
    have f0' : Fr (· = p.id) nobody (fun _ => True) c c0 := by
      rw [e0]
      exact ⟨rfl, rfl, Nat.le_refl _, forall₂_refl' fun _ _ => PFr.refl, fun _ _ _ _ _ => rfl, l0, rfl, fun _ _ => trivial⟩
    rw [wp_bind, wp_getP h0.ids hp0, wp_bind]
    obtain ⟨m, k, o, hm, hk, hob⟩ := h.estSess hp (fun h => h) he
    have hkr : k ∈ p.refs := by unfold Peer.refs; rw [hk]; simp
    have hdn : decryptNow c0 p.sess pkt = decryptNow c p.sess pkt := decryptNow_congr (by rw [e0]) (by rw [e0])
    refine wp_decryptWith h0 hp0 rfl hm hk (by rw [e0]; exact hob) hkr (fun c1 hd e1 h1 => ?_)
      (fun c1 data b o' hd e1 h1 f1 => ?_)
    · simp only []
      rw [wp_pure]
      refine hQ c1 h1 (.reject hv ho (hdn.symm.trans hd) (l0 ++ [.tryDecrypt p.id k pkt]) ?_ ?_) fun E hE => ?_
      · rw [e1, e0]
        simp only [List.append_assoc]
      · intro e he
        rcases List.mem_append.1 he with he | he
        · exact hl0 e he
        · exact ⟨k, hkr, List.mem_singleton.1 he⟩
      · rw [e1]
        exact (f0 E hE).trans (Fr.emit (hE.tryD k hkr))
    · simp only []
      have hp1 : p ∈ c1.peers := by rw [e1]; exact hp0
      rw [wp_bind]
      refine wp_dropOld h1 hp1 rfl he fun c2 old hom hos e2 h2 hp2 f2 => ?_
      rw [wp_bind]
      refine wp_cleanHandshakes h2 hS hp2 rfl he fun c3 q3 l3 h3 hq3 hs3 k3 hl3 hle3 f3 => ?_
      rw [wp_bind]
      have he3 : q3.state = .established := by rw [hs3.state]; exact he
      refine wp_checkSessionRefresh h3 hq3 hs3.id (fun h => h) he3 fun c4 q4 h4 e4 hs4 hq4 _ f4 => ?_
      have he4 : q4.state = .established := by rw [hs4.state]; exact he3
      have hid4 : q4.id = p.id := hs4.id.trans hs3.id
      refine wp_deliver h4 hS hq4 hid4 he4 fun c5 c6 l6 h6 e5 hq5 hq6 hl6 hh6 f5 f6 => ?_
      -- frames
      have fr1 : ∀ E, (∀ e, e.plain = true → E e) → (∀ k, E (.encrypt p.id k [])) → E (.tryDecrypt p.id k pkt) →
          E (.accept p.id k pkt) → Fr (· = p.id) nobody E c0 c4 := fun E a1 a2 a3 a4 =>
        (f1 E a3 a4).trans ((f2 E).trans ((f3 E a1 a2).trans (f4 E)))
      have n4 : c4.now = c.now := by
        rw [(fr1 (fun _ => True) (fun _ _ => trivial) (fun _ => trivial) trivial trivial).now, e0]
      have l4 : c4.log = c.log ++ (l0 ++ [.tryDecrypt p.id k pkt, .accept p.id k pkt] ++ l3) := by
        rw [e4]
        simp only []
        rw [hl3, e2]
        simp only []
        rw [e1, e0]
        simp only [List.append_assoc]
      have hE4 : c4.eth = c.eth := by
        rw [e4]
        simp only []
        rw [k3.eth, e2]
        simp only []
        rw [e1, e0]
        rfl
      have hsoft : Soft { p with old := old } q4 := hs3.trans hs4
      refine hQ c6 h6 (.accept hv false ho data b o' k (hdn.symm.trans hd) hk _ hq6 ?_ ?_ c5
        (l0 ++ [.tryDecrypt p.id k pkt, .accept p.id k pkt] ++ l3) l6
        (f0'.trans ((fr1 _ (fun _ _ => trivial) (fun _ => trivial) trivial trivial).trans (f5 _))) hq5 ?_
        (by rw [hl6, l4, List.append_assoc]) ?_ ?_ hh6) fun E hE => ?_
      · rw [n4]; exact hsoft.seen _
      · rw [if_neg (by simp)]
        have : q4.old = old := hsoft.old
        exact ⟨by rw [← hom, ← this], by rw [← hos, ← this]⟩
      · rw [e5]; exact hE4
      · intro e he
        rcases List.mem_append.1 he with he | he
        · rcases List.mem_append.1 he with he | he
          · exact .inr (.inr (.inl (hl0 e he)))
          · rw [List.mem_cons, List.mem_singleton] at he
            rcases he with he | he
            · exact .inr (.inr (.inl ⟨k, hkr, he⟩))
            · exact .inr (.inr (.inr he))
        · rcases hle3 e he with he | he
          · exact .inl he
          · exact .inr (.inl he)
      · simp
      · have hr0 : RecvE E c0 p.id := hE.toRecvE.back (f0 E hE)
        have fr4 := fr1 E hE.plain (fun k => hE.enc p hp he k []) (hE.tryD k hkr) (hE.acc k hkr)
        refine (f0 E hE).trans ((fr4.mono (fun _ _ => trivial) (fun _ h => h) fun _ h => h).trans ?_)
        exact f6 E (hr0.back fr4)
  refine wp_ite (fun hvo => ?_) (fun hvo => ?_)
  · obtain ⟨m, k, o, hm, hk, hob⟩ := valid_session hvo
    have hkr : k ∈ p.refs := by unfold Peer.refs; rw [hk]; simp
    refine wp_decryptWith h hp rfl hm hk hob hkr (fun c1 hd e1 h1 => ?_) (fun c1 data b o' hd e1 h1 f1 => ?_)
    · simp only []
      refine cur c1 [.tryDecrypt p.id k pkt] h1 e1 (fun _ => hd) ?_
      intro e he
      exact ⟨k, hkr, List.mem_singleton.1 he⟩
    · simp only []
      have hp1 : p ∈ c1.peers := by rw [e1]; exact hp
      have n1 : c1.now = c.now := by rw [e1]; rfl
      refine wp_deliver h1 hS hp1 rfl he fun c2 c3 l h3 e2 hp2 hp3 hl hh f2 f3 => ?_
      rw [n1] at hp2 hp3 hh
      refine hQ c3 h3 (.accept hv true (by rw [if_pos rfl]; exact hvo) data b o' k (by rw [if_pos rfl]; exact hd)
        (by rw [if_pos rfl]; exact hk) _ hp3 rfl (by rw [if_pos rfl])
        c2 [.tryDecrypt p.id k pkt, .accept p.id k pkt] l ?_ hp2 ?_ (by rw [hl, e1, List.append_assoc]) ?_ (by simp) hh)
        fun E hE => ?_
      · exact (f1 _ trivial trivial).trans (f2 _)
      · rw [e2, e1]; rfl
      · intro e he
        rw [List.mem_cons, List.mem_singleton] at he
        rcases he with he | he
        · exact .inr (.inr (.inl ⟨k, hkr, he⟩))
        · exact .inr (.inr (.inr he))
      · have f1' := f1 E (hE.tryD k hkr) (hE.acc k hkr)
        exact (f1'.mono (fun _ _ => trivial) (fun _ h => h) fun _ h => h).trans (f3 E (hE.toRecvE.back f1'))
  · rw [wp_pure]
    refine cur c [] h (by rw [List.append_nil]) (fun h => absurd h hvo) (by simp)

end Fastd.Daemon
