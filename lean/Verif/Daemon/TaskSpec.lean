import Verif.Daemon.RecvSpec

/-!
# The task of a peer and the invariant
-/

namespace Fastd.Daemon

set_option linter.unusedSectionVars false

variable [Env] {S : Prop} {x y z : Nat → Prop}

/-! ### Moving on to the next address -/

/-- The index of the remote to use next. -/
def wrap (n : Nat) : Option Nat → Nat
  | none => 0
  | some k => if k ≥ n then 0 else k

theorem wrap_lt {n : Nat} (h : 0 < n) (o : Option Nat) : wrap n o < n := by
  unfold wrap
  split
  · exact h
  · split <;> omega

/-- A remote that is tried from its first address on. -/
def Restart (f : Remote → Remote) : Prop :=
  ∀ r, (f r).hostname = r.hostname ∧ (f r).address = r.address ∧ (f r).addrs = r.addrs ∧ (f r).cur = 0

theorem modify_modify {α : Type} (l : List α) (k : Nat) (f g : α → α) :
    (l.modify k f).modify k g = l.modify k (fun a => g (f a)) := by
  apply List.ext_getElem?
  intro j
  rw [List.getElem?_modify, List.getElem?_modify, List.getElem?_modify]
  split
  · cases l[j]? <;> rfl
  · cases l[j]? <;> rfl

theorem wp_nextRemote {p q : Peer} {c c' : Ctx} {r : List (Nat × Nat)} (h : One p c c' q r)
    (hne : S → q.remotes ≠ []) (hd : q.remotes ≠ [] → q.isDynamic = false) {Q : Unit → Ctx → Prop}
    (hQ : ∀ c'' f r', Restart f → q.remotes ≠ [] → (r' = [] ∨ r' = [(p.id, wrap q.remotes.length q.nextRemote)]) →
      One p c c'' { q with
        nextRemote := some (wrap q.remotes.length q.nextRemote)
        remotes := q.remotes.modify (wrap q.remotes.length q.nextRemote) f } (r ++ r') → Q () c'') :
    wp S (nextRemote p.id) Q c' := by
  unfold nextRemote
  rw [wp_bind]
  refine h.wp_modP rfl rfl fun c1 h1 => ?_
  have e : (match q.nextRemote with
    | none => some 0
    | some k => if k ≥ q.remotes.length then some 0 else some k) = some (wrap q.remotes.length q.nextRemote) := by
    unfold wrap
    cases q.nextRemote with
    | none => rfl
    | some k => simp only []; split <;> rfl
  replace h1 : One p c c1 { q with nextRemote := some (wrap q.remotes.length q.nextRemote) } r := by
    rw [← e]; exact h1
  rw [wp_bind, h1.wp_getP rfl]
  show wp S (do modR p.id (wrap q.remotes.length q.nextRemote) _; _) Q c1
  by_cases hr : q.remotes = []
  · have hw : wrap q.remotes.length q.nextRemote = 0 := by
      rw [hr]; unfold wrap
      cases q.nextRemote with
      | none => rfl
      | some k => simp
    rw [wp_bind]
    unfold modR getR
    rw [wp_bind, wp_bind, h1.wp_getP rfl]
    simp only [hr, List.getElem?_nil]
    exact wp_mem.2 fun hs => hne hs hr
  have hlt := wrap_lt (List.length_pos_iff.2 hr) q.nextRemote
  generalize hw : wrap q.remotes.length q.nextRemote = w at *
  rw [wp_bind]
  refine wp_modR h1 (s := q.remotes[w]) (List.getElem?_eq_getElem hlt) fun c2 h2 => ?_
  have h2r : (q.remotes.modify w fun r => { r with cur := 0 })[w]? = some { q.remotes[w] with cur := 0 } := by
    rw [List.getElem?_modify, List.getElem?_eq_getElem hlt]
    simp
  rw [wp_bind, wp_getR h2 h2r]
  refine wp_ite (fun _ => ?_) (fun _ => ?_)
  · refine wp_resolvePeer h2 h2r (hd hr) fun c3 r' t hr' h3 => ?_
    simp only [modify_modify] at h3
    refine hQ c3 _ r' ?_ hr hr' h3
    exact fun r => ⟨rfl, rfl, rfl, rfl⟩
  · rw [wp_pure]
    rw [← List.append_nil r] at h2
    refine hQ c2 _ [] ?_ hr (.inl rfl) h2
    exact fun r => ⟨rfl, rfl, rfl, rfl⟩

/-- The next address of a remote, or the next remote. -/
def Next (k : Nat) (p q : Peer) : Prop :=
  ∃ r, p.remotes[k]? = some r ∧
    ((r.cur + 1 < r.addrs.length ∧ q.nextRemote = p.nextRemote ∧
        q.remotes = p.remotes.modify k fun r => { r with cur := r.cur + 1 }) ∨
      (r.addrs.length ≤ r.cur + 1 ∧ q.nextRemote = some (wrap p.remotes.length (p.nextRemote.map (· + 1))) ∧
        ∃ f, Restart f ∧ q.remotes = (p.remotes.modify k fun r => { r with cur := r.cur + 1 }).modify
          (wrap p.remotes.length (p.nextRemote.map (· + 1))) f))

structure Advance (k : Nat) (p q : Peer) : Prop where
  peer : q = { p with state := .handshake, nextRemote := q.nextRemote, remotes := q.remotes }
  next : Next k p q

theorem wp_advanceRemote {p : Peer} {c : Ctx} (hs : Sorted c.peers) (hp : p ∈ c.peers) {i : Nat} (hi : p.id = i)
    (he : p.state ≠ .established) {k : Nat} (hk : k < p.remotes.length) (hd : p.isDynamic = false)
    {Q : Unit → Ctx → Prop}
    (hQ : ∀ c' q r, ReqOk p r → Advance k p q → One p c c' q r → Q () c') :
    wp S (advanceRemote i (some k)) Q c := by
  subst hi
  have h := One.refl hs hp
  unfold advanceRemote
  rw [wp_bind, h.wp_getP rfl, if_neg (by simpa [Peer.isEstablished] using he)]
  show wp S (do modP p.id _; _) Q c
  rw [wp_bind]
  refine h.wp_modP rfl rfl fun c1 h1 => ?_
  have hr : p.remotes[k]? = some p.remotes[k] := List.getElem?_eq_getElem hk
  rw [wp_bind]
  refine wp_modR h1 (s := p.remotes[k]) hr fun c2 h2 => ?_
  have h2r : (p.remotes.modify k fun r => { r with cur := r.cur + 1 })[k]? =
      some { p.remotes[k] with cur := p.remotes[k].cur + 1 } := by
    rw [List.getElem?_modify, hr]; simp
  rw [wp_bind, wp_getR h2 h2r]
  refine wp_ite (fun hlt => ?_) (fun hlt => ?_)
  · rw [wp_pure]
    refine hQ c2 _ [] (fun v hv => (nomatch hv)) ?_ h2
    exact ⟨rfl, _, hr, .inl ⟨hlt, rfl, rfl⟩⟩
  · rw [wp_bind]
    refine h2.wp_modP rfl rfl fun c3 h3 => ?_
    have hlen : ∀ f : Remote → Remote, (p.remotes.modify k f).length = p.remotes.length := fun f => List.length_modify ..
    refine wp_nextRemote h3 ?_ (fun _ => hd) fun c4 f r' hf _ hr' h4 => ?_
    · intro _ hn
      have := congrArg List.length hn
      rw [hlen] at this
      simp only [List.length_nil] at this
      omega
    · simp only [hlen] at h4 hr'
      refine hQ c4 _ _ ?_ ⟨rfl, _, hr, .inr ⟨Nat.le_of_not_lt hlt, rfl, f, hf, rfl⟩⟩ h4
      intro v hv
      rw [List.nil_append] at hv
      rcases hr' with rfl | rfl
      · cases hv
      · rw [List.mem_singleton] at hv
        subst hv
        exact ⟨rfl, hd, wrap_lt (by omega) _⟩

theorem Advance.core {k : Nat} {p q : Peer} (h : Advance k p q) (he : p.state ≠ .established) : Core p q := by
  have hq := h.peer
  have hr : q.remotes.map (fun r => (r.hostname, r.address)) = p.remotes.map fun r => (r.hostname, r.address) := by
    obtain ⟨r, _, h1 | ⟨_, _, f, hf, h1⟩⟩ := h.next
    · rw [h1.2.2, map_modify]; intro; rfl
    · rw [h1, map_modify, map_modify]
      · intro; rfl
      · intro r; simp only [(hf r).1, (hf r).2.1]
  constructor
  · have : q.stat = { p.stat with rem := q.remotes.map fun r => (r.hostname, r.address) } := by rw [hq]; rfl
    rw [this, hr]; rfl
  · rw [hq]
  · rw [hq]
  · rw [hq]; rfl
  · rw [hq]; simp [he]
  · rw [hq]
  · rw [hq]

theorem getElem?_modify_len {k : Nat} {l : List Remote} {f : Remote → Remote} {j : Nat} :
    (l.modify k f)[j]? = none ↔ l[j]? = none := by
  rw [List.getElem?_eq_none_iff, List.getElem?_eq_none_iff, List.length_modify]

theorem modify_ne_nil {l : List Remote} {k : Nat} {f : Remote → Remote} (h : l ≠ []) : l.modify k f ≠ [] := by
  intro hn
  exact h (modify_eq_nil' hn)

/-- Going on with the first address of a remote keeps what the invariant says about a peer. -/
theorem PeerOk.restart {p : Peer} {u : Prop} (hk : PeerOk S u p) (hin : p.state ≠ .inactive)
    (hne : p.remotes ≠ []) {w : Nat} (hw : w < p.remotes.length) {f : Remote → Remote} (hf : Restart f) :
    PeerOk S u { p with nextRemote := some w, remotes := p.remotes.modify w f } := by
  constructor
  · exact fun h => absurd h hin
  · exact hk.idle
  · exact hk.est
  · exact hk.sock
  · exact hk.oldM
  · exact hk.sessM
  · rintro _ j hj
    cases hj
    refine ⟨f p.remotes[w], ?_, ?_⟩
    · simp only [List.getElem?_modify, List.getElem?_eq_getElem hw]; simp
    · obtain ⟨_, _, ha, hc⟩ := hf p.remotes[w]
      rw [ha, hc]
      cases p.remotes[w].addrs with
      | nil => exact .inr rfl
      | cons a as => exact .inl (by simp)
  · intro s hs
    obtain ⟨r, hr, rfl | rfl⟩ := mem_modify hs
    · exact hk.addrs s hr
    · obtain ⟨a1, a2, a3, _⟩ := hf r
      rw [a1, a2, a3]; exact hk.addrs r hr
  · exact fun _ hr => absurd hr (modify_ne_nil hne)
  · intro hd
    exact absurd (hk.dynr hd).1 hne
  · exact hk.key
  · exact hk.ifc

/-- Moving on keeps what the invariant says about a peer. -/
theorem Advance.ok {k : Nat} {p q : Peer} (h : Advance k p q) {u : Prop} (hk : PeerOk S u p) (he : p.state ≠ .established)
    (hin : p.state ≠ .inactive) (hn : p.nextRemote = some k) : PeerOk S u q := by
  have hq := h.peer
  obtain ⟨r, hr, hor⟩ := h.next
  have hlen : 0 < p.remotes.length := by
    have := (List.getElem?_eq_some_iff.1 hr).1; omega
  have hne : p.remotes ≠ [] := List.length_pos_iff.1 hlen
  have h1 : ∀ m, (∀ j, m = some j → ∃ r, (p.remotes.modify k fun r => { r with cur := r.cur + 1 })[j]? = some r ∧
      (r.cur < r.addrs.length ∨ r.addrs = [])) → PeerOk S u { p with
      state := .handshake
      nextRemote := m
      remotes := p.remotes.modify k fun r => { r with cur := r.cur + 1 } } := by
    intro m hm
    constructor
    · exact fun h => (nomatch h)
    · exact fun hu _ => hk.idle hu he
    · exact fun _ h => (nomatch h)
    · exact fun _ _ h => (nomatch h)
    · exact hk.oldM
    · exact hk.sessM
    · exact fun _ => hm
    · intro s hs
      obtain ⟨r, hr, rfl | rfl⟩ := mem_modify hs
      · exact hk.addrs s hr
      · exact hk.addrs r hr
    · exact fun _ hr => absurd hr (modify_ne_nil hne)
    · exact fun hd => absurd (hk.dynr hd).1 hne
    · exact hk.key
    · exact fun hs _ => hk.ifc hs hin
  rcases hor with ⟨a1, a2, a3⟩ | ⟨a1, a2, f, hf, a3⟩
  · rw [hq, a2, a3]
    refine h1 _ fun j hj => ?_
    rw [hn] at hj
    cases hj
    refine ⟨{ r with cur := r.cur + 1 }, ?_, .inl a1⟩
    rw [List.getElem?_modify, hr]; simp
  · rw [hq, a2, a3]
    refine (h1 none (fun _ h => (nomatch h))).restart (by simp) (modify_ne_nil hne) ?_ hf
    rw [List.length_modify]
    exact wrap_lt hlen _

/-! ### Choosing an address and sending -/

theorem wp_chooseAddress {c : Ctx} (h : Inv S nobody nobody z c) {p : Peer} (hp : p ∈ c.peers) {i : Nat}
    (hi : p.id = i) (hst : p.state ≠ .inactive) (hn : p.nextRemote ≠ none ∨ p.state = .established)
    {Q : Bool → Ctx → Prop}
    (hQ : ∀ b c' q, Inv S nobody nobody z c' → q ∈ c'.peers → q = { p with addr := q.addr, sock := q.sock } →
      (p.state = .established → b = true ∧ c' = c) →
      (b = true → p.state ≠ .established → ∃ k r, p.nextRemote = some k ∧ p.remotes[k]? = some r ∧
        (q.addr.isSet = true → r.addrs[r.cur]? = some q.addr)) →
      (∀ E : Eff → Prop, (∀ j, E (.disestablished j)) → Fr (fun _ => True) nobody E c c') → Q b c') :
    wp S (chooseAddress i p.nextRemote) Q c := by
  unfold chooseAddress
  rw [wp_bind, wp_getP' h.ids hp hi]
  refine wp_ite (fun he => ?_) (fun he => ?_)
  · rw [wp_pure]
    have he' : p.state = .established := by simpa [Peer.isEstablished] using he
    exact hQ true c p h hp rfl (fun _ => ⟨rfl, rfl⟩) (fun _ hn => absurd he' hn) fun E _ => Fr.refl
  have he' : p.state ≠ .established := by simpa [Peer.isEstablished] using he
  have hk := h.peer p hp
  cases hnr : p.nextRemote with
  | none =>
    rcases hn with h1 | h1
    · exact absurd hnr h1
    · exact absurd h1 he'
  | some k =>
    obtain ⟨r, hr, hcur⟩ := hk.rem hst k hnr
    have hd : p.isDynamic = false := by
      cases hd : p.isDynamic with
      | false => rfl
      | true => rw [(hk.dynr hd).1] at hr; cases hr
    show wp S (do let r ← getR i k; _) Q c
    rw [wp_bind]
    unfold getR
    rw [wp_bind, wp_getP' h.ids hp hi]
    simp only [hr]
    rw [wp_pure]
    refine wp_ite (fun _ => ?_) (fun hne => ?_)
    · rw [wp_pure]
      exact hQ false c p h hp rfl (fun h => absurd h he') (fun h => (nomatch h)) fun E _ => Fr.refl
    have hlt : r.cur < r.addrs.length := by
      rcases hcur with h1 | h1
      · exact h1
      · rw [h1] at hne; simp at hne
    rw [List.getElem?_eq_getElem hlt, wp_bind]
    show wp S (do let _ ← claimAddress i none none r.addrs[r.cur] false; _) Q c
    have hset := (hk.addrs r (List.mem_of_getElem? hr)).1 _ (List.getElem_mem hlt)
    have lift : ∀ {E : Eff → Prop} {t : Nat → Prop} {a b : Ctx}, Fr t nobody E a b → Fr (fun _ => True) nobody E a b :=
      fun hf => hf.mono (fun _ _ => trivial) (fun _ h => h) fun _ h => h
    rw [wp_bind]
    refine wp_claimAddress h hp hi (sock := none) hset hst (fun _ _ h => (nomatch h)) (fun c1 h1 hp1 _ f1 => ?_)
      fun c1 q h1 hq _ _ _ _ hqe f1 => ?_
    · rw [wp_bind]
      refine wp_resetSocket h1 hp1 hi he' hst hd fun c2 s h2 hp2 f2 => ?_
      rw [wp_pure]
      refine hQ true c2 _ h2 hp2 rfl (fun h => absurd h he') (fun _ _ => ⟨k, r, hnr, hr, fun _ => ?_⟩) fun E hE =>
        (lift (f1 E hE)).trans (lift (f2 E))
      exact List.getElem?_eq_getElem hlt
    · have e := hqe he'
      rw [wp_bind]
      subst e
      refine wp_resetSocket h1 hq hi he' hst hd fun c2 s h2 hp2 f2 => ?_
      rw [wp_pure]
      exact hQ true c2 _ h2 hp2 rfl (fun h => absurd h he') (fun _ _ => ⟨k, r, hnr, hr, fun hs => (nomatch hs)⟩)
        fun E hE => (lift (f1 E hE)).trans (lift (f2 E))

/-- What sending a handshake changes about a peer. -/
def Tried (p q : Peer) : Prop :=
  q = { p with
    addr := q.addr
    sock := q.sock
    lastHsTimeout := q.lastHsTimeout
    lastHsAddr := q.lastHsAddr
    nextHs := q.nextHs
    task := q.task }

theorem wp_sendHandshake {c : Ctx} (h : Inv S nobody nobody z c) {p : Peer} (hp : p ∈ c.peers) {i : Nat}
    (hi : p.id = i) (hst : p.state ≠ .inactive) (hn : p.nextRemote ≠ none ∨ p.state = .established) (hS : S → EnvOk)
    {Q : Unit → Ctx → Prop}
    (hQ : ∀ c' q l, Inv S nobody nobody z c' → q ∈ c'.peers → Tried p q → c'.log = c.log ++ l →
      (∀ j a, .hsInit j a ∈ l → j = some i ∧ (p.state ≠ .established → ∃ k r, p.nextRemote = some k ∧
        p.remotes[k]? = some r ∧ r.addrs[r.cur]? = some a)) →
      (∀ E : Eff → Prop, (∀ e, e.plain = true → E e) → (∀ a, E (.hsInit (some i) a)) → Fr (fun _ => True) nobody E c c') → Q () c') :
    wp S (sendHandshake i p.nextRemote) Q c := by
  unfold sendHandshake
  rw [wp_bind]
  refine wp_chooseAddress h hp hi hst hn fun b c1 q h1 hq hqe hest haddr f1 => ?_
  have hqi : q.id = i := by rw [hqe]; exact hi
  have hqs : q.state = p.state := by rw [hqe]
  have stop : Q () c1 := by
    obtain ⟨l, hl, hE⟩ := (f1 (fun e => ∀ j a, e ≠ .hsInit j a) (fun _ _ _ => by simp)).log
    exact hQ c1 q l h1 hq (by unfold Tried; rw [hqe]) hl (fun j a hm => absurd rfl (hE _ hm j a)) fun E hE _ =>
      f1 E fun _ => hE _ rfl
  cases b with
  | false => exact wp_pure.2 stop
  | true =>
    rw [if_neg (by simp), wp_bind, wp_getP' h1.ids hq hqi, wp_bind, wp_get]
    cases hs : q.sock with
    | none => exact wp_pure.2 stop
    | some s =>
      simp only []
      refine wp_ite (fun _ => wp_pure.2 stop) (fun hset => wp_ite (fun _ => wp_pure.2 stop) (fun _ => ?_))
      have hset' : q.addr.isSet = true := by simpa using hset
      rw [wp_bind]
      refine wp_modP_same h1 hq hqi rfl rfl rfl rfl ⟨rfl, rfl, fun _ => rfl⟩ rfl rfl rfl rfl rfl (fun h => h)
        (fun h => h) (fun _ _ _ => Int.le_refl _) fun c2 e2 h2 hq2 f2 => ?_
      refine wp_handshakeInit h2 (fun hs' => ⟨hS hs', hset', h2.sockLive hq2 hs⟩) ?_ fun c3 h3 m3 l3 f3 => ?_
      · rintro j hj
        cases hj
        exact ⟨_, hq2, hqi, by show q.state ≠ _; rw [hqs]; exact hst⟩
      · obtain ⟨r, hr, hre⟩ := m3.mem hq2
        obtain ⟨l, hl, hE⟩ := (f1 (fun e => ∀ j a, e ≠ .hsInit j a) (fun _ _ _ => by simp)).log
        obtain ⟨pkt, hl3⟩ := l3
        refine hQ c3 r (l ++ .hsInit (some i) q.addr ::
          (Handshake.sendFree pkt none).map (.send s q.localAddr q.addr (some i))) h3 hr ?_ ?_ ?_ fun E hE hE' => ?_
        · unfold Tried
          rw [hre, hqe]
        · rw [hl3, e2]
          show c1.log ++ _ = _
          rw [hl, List.append_assoc]
        · intro j a hm
          rcases List.mem_append.1 hm with hm | hm
          · exact absurd rfl (hE _ hm j a)
          · rcases List.mem_cons.1 hm with hm | hm
            · cases hm
              refine ⟨rfl, fun he => ?_⟩
              obtain ⟨k, r, a1, a2, a3⟩ := haddr rfl he
              exact ⟨k, r, a1, a2, a3 hset'⟩
            · obtain ⟨_, _, hm⟩ := List.mem_map.1 hm
              cases hm
        · refine (f1 E fun _ => hE _ rfl).trans (Fr.trans ?_ ((f3 E hE (hE' _)).mono (fun _ _ => trivial) (fun _ h => h) fun _ h => h))
          exact (f2 E).mono (fun _ _ => trivial) (fun _ h => h) fun _ h => h

/-! ### `handle_task_handshake` -/

theorem Tried.id {p q : Peer} (h : Tried p q) : q.id = p.id := (congrArg Peer.id h :)
theorem Tried.state {p q : Peer} (h : Tried p q) : q.state = p.state := (congrArg Peer.state h :)
theorem Tried.remotes {p q : Peer} (h : Tried p q) : q.remotes = p.remotes := (congrArg Peer.remotes h :)
theorem Tried.nextRemote {p q : Peer} (h : Tried p q) : q.nextRemote = p.nextRemote := (congrArg Peer.nextRemote h :)
theorem Tried.cfg {p q : Peer} (h : Tried p q) : q.cfg = p.cfg := (congrArg Peer.cfg h :)

/-- What the handshake task of a peer changes about its remotes. -/
inductive Turn (c : Ctx) (p q : Peer) : Prop
  | est (he : p.state = .established) (hr : q.remotes = p.remotes) (hn : q.nextRemote = p.nextRemote)
  | full (hm : mayConnect c.peers p = false) (hr : q.remotes = p.remotes) (hn : q.nextRemote = none)
  | next (k : Nat) (he : p.state ≠ .established) (hm : mayConnect c.peers p = true) (hk : p.nextRemote = some k)
      (hn : Next k p q)
  | first (f : Remote → Remote) (he : p.state ≠ .established) (hm : mayConnect c.peers p = true)
      (hk : p.nextRemote = none) (hne : p.remotes ≠ []) (hf : Restart f) (hr : q.remotes = p.remotes.modify 0 f)
      (hn : q.nextRemote = some 0)

theorem countEst_upd {ps : List Peer} (hs : Sorted ps) {p q : Peer} (hp : p ∈ ps) (hg : q.group = p.group)
    (hst : q.state = p.state) (g : Nat) : countEstablished (updPeers ps p.id fun _ => q) g = countEstablished ps g := by
  refine Nat.le_antisymm ?_ ?_
  · refine countEstablished_le (forall₂_updPeers (fun r hr hi => ?_) fun _ _ _ => ⟨rfl, id⟩) g
    rw [sorted_inj hs hr hp hi]
    exact ⟨hg, fun h => by rw [← hst]; exact h⟩
  · have : List.Forall₂ (fun p p' : Peer => p.group = p'.group ∧ (p.state = .established → p'.state = .established)) ps
        (updPeers ps p.id fun _ => q) := by
      refine forall₂_updPeers (fun r hr hi => ?_) fun _ _ _ => ⟨rfl, id⟩
      rw [sorted_inj hs hr hp hi]
      exact ⟨hg.symm, fun h => by rw [hst]; exact h⟩
    exact countEstablished_le this.flip g

theorem mayConnect_upd {ps : List Peer} (hs : Sorted ps) {p q : Peer} (hp : p ∈ ps) (hg : q.group = p.group)
    (hst : q.state = p.state) : mayConnect (updPeers ps p.id fun _ => q) q = mayConnect ps p := by
  have e : countEstablished (updPeers ps p.id fun _ => q) = countEstablished ps := funext (countEst_upd hs hp hg hst)
  unfold mayConnect Peer.isEstablished
  rw [e, hst, hg]

theorem wp_handleTaskHandshake {c : Ctx} (h : Inv S nobody nobody z c) {p : Peer} (hp : p ∈ c.peers) {i : Nat}
    (hi : p.id = i) (hz : z i) (hst : p.state ≠ .inactive) (hS : S → EnvOk ∧ (p.remotes = [] → p.state = .established))
    {Q : Unit → Ctx → Prop}
    (hQ : ∀ c' q l, Inv S nobody nobody z c' → q ∈ c'.peers → Turn c p q → (q.state = .established ↔ p.state = .established) →
      q.state ≠ .inactive → q.id = i → c'.log = c.log ++ l →
      (∀ j a, .hsInit j a ∈ l → j = some i ∧ (p.state ≠ .established → ∃ k r, p.nextRemote = some k ∧
        p.remotes[k]? = some r ∧ r.addrs[r.cur]? = some a)) →
      (∀ E : Eff → Prop, (∀ e, e.plain = true → E e) → (∀ a, E (.hsInit (some i) a)) → Fr (fun _ => True) nobody E c c') → Q () c') :
    wp S (handleTaskHandshake i) Q c := by
  have lift : ∀ {E : Eff → Prop} {t : Nat → Prop} {a b : Ctx}, Fr t nobody E a b → Fr (fun _ => True) nobody E a b :=
    fun hf => hf.mono (fun _ _ => trivial) (fun _ h => h) fun _ h => h
  have hk := h.peer p hp
  unfold handleTaskHandshake setNextHandshakeDefault setNextHandshake
  rw [wp_bind, wp_bind]
  refine wp_handshakeDefaultRand fun d _ _ => ?_
  have h0 := h.pos (c.pos + 1)
  rw [wp_bind, wp_get]
  refine wp_modP_core (x' := nobody) (y' := nobody) (z' := z) h0 (p := p) hp hi ⟨rfl, rfl, rfl, rfl, Iff.rfl, rfl, rfl⟩
    (fun _ _ => id) (fun _ _ => id) (fun _ _ => id) ?_ ?_ ?_ (fun hn => absurd hz hn) fun c1 e1 h1 hp1 f1 => ?_
  · exact { hk with hs := fun hs hr hne _ => absurd ((hS hs).2 hr) hne }
  · exact h.act p hp
  · exact h.timers p hp
  have f1' : ∀ E, Fr (fun _ => True) nobody E c c1 := fun E => (Fr.pos _).trans (lift (f1 E))
  have l1 : c1.log = c.log := by rw [e1]
  have hm1 : mayConnect c1.peers { p with nextHs := c.now + d } = mayConnect c.peers p := by
    subst hi
    rw [e1]; exact mayConnect_upd h.ids hp rfl rfl
  clear e1 f1
  rw [wp_bind, wp_getP' h1.ids hp1 hi, wp_bind, wp_get]
  rw [hm1]
  have hk1 := h1.peer _ hp1
  generalize hp' : ({ p with nextHs := c.now + d } : Peer) = p1 at *
  have ht : Tried p p1 := by rw [← hp']; rfl
  have hst1 : p1.state ≠ .inactive := by rw [ht.state]; exact hst
  refine wp_ite (fun hmay => ?_) (fun hmay => ?_)
  · refine wp_modP_core (x' := nobody) (y' := nobody) (z' := z) h1 hp1 (ht.id.trans hi) ⟨rfl, rfl, rfl, rfl, Iff.rfl, rfl, rfl⟩
      (fun _ _ => id) (fun _ _ => id) (fun _ _ => id) ?_ ?_ ?_ (fun hn => absurd hz hn) fun c2 e2 h2 hp2 f2 => ?_
    · exact { hk1 with rem := fun _ _ h => (nomatch h) }
    · have := h1.act p1 hp1
      rw [ht.id, hi] at this
      exact this
    · exact h1.timers p1 hp1
    · refine hQ c2 _ [] h2 hp2 (.full (by simpa using hmay) ht.remotes rfl) ?_ hst1 (ht.id.trans hi) ?_ ?_ fun E _ _ => (f1' E).trans (lift (f2 E))
      · show p1.state = _ ↔ _
        rw [ht.state]
      · rw [e2, List.append_nil]; exact l1
      · exact fun _ _ h => (nomatch h)
  have hmay' : mayConnect c.peers p = true := by simpa using hmay
  refine wp_ite (fun hn => ?_) (fun hn => ?_)
  · rw [wp_bind]
    have hn' : p1.nextRemote ≠ none ∨ p1.state = .established := by
      simpa [Peer.isEstablished] using hn
    refine wp_sendHandshake h1 hp1 (ht.id.trans hi) hst1 hn' (fun hs => (hS hs).1) fun c2 q l h2 hq ht2 hl hE f2 => ?_
    rw [l1] at hl
    have hE' : ∀ j a, .hsInit j a ∈ l → j = some i ∧ (p.state ≠ .established → ∃ k r, p.nextRemote = some k ∧
        p.remotes[k]? = some r ∧ r.addrs[r.cur]? = some a) := by
      rw [ht.state, ht.nextRemote, ht.remotes] at hE
      exact hE
    by_cases he : p.state = .established
    · unfold advanceRemote
      rw [wp_bind]
      refine (wp_getP' h2.ids hq (ht2.id.trans (ht.id.trans hi))).2 ?_
      rw [if_pos (by simp [Peer.isEstablished, ht2.state, ht.state, he]), wp_pure]
      refine hQ c2 q l h2 hq (.est he (ht2.remotes.trans ht.remotes) (ht2.nextRemote.trans ht.nextRemote)) ?_ ?_
        (ht2.id.trans (ht.id.trans hi)) hl hE' fun E hE hE' => (f1' E).trans (f2 E hE hE')
      · rw [ht2.state, ht.state]
      · rw [ht2.state, ht.state]; exact hst
    · have hqe : q.state ≠ .established := by rw [ht2.state, ht.state]; exact he
      cases hnr : p1.nextRemote with
      | none =>
        rcases hn' with h' | h'
        · exact absurd hnr h'
        · rw [ht.state] at h'; exact absurd h' he
      | some k =>
        have hk2 := h2.peer q hq
        have hnq : q.nextRemote = some k := ht2.nextRemote.trans hnr
        obtain ⟨r, hr, _⟩ := hk2.rem (by rw [ht2.state, ht.state]; exact hst) k hnq
        have hd : q.isDynamic = false := by
          cases hd : q.isDynamic with
          | false => rfl
          | true => rw [(hk2.dynr hd).1] at hr; cases hr
        refine wp_advanceRemote h2.ids hq (ht2.id.trans (ht.id.trans hi)) hqe (List.getElem?_eq_some_iff.1 hr).1 hd
          fun c3 q3 r3 hr3 hadv h3 => ?_
        have hqi : q.id = i := ht2.id.trans (ht.id.trans hi)
        have hs3 : q3.state = .handshake := by rw [hadv.peer]
        refine hQ c3 q3 l ?_ h3.mem' (.next k he hmay' ?_ ?_) ?_ ?_ (h3.id.trans hqi) ?_ hE' fun E hE hE2 => ?_
        · refine h2.one h3 (hadv.core hqe) hr3 (fun _ _ => id) (fun _ _ => id) (fun _ _ => id) (hadv.ok hk2 hqe (by rw [ht2.state, ht.state]; exact hst) hnq) ?_ ?_ ?_
          · intro _
            have := h2.act q hq id
            rw [stat_enabled (hadv.core hqe).stat, ← this, hs3, ht2.state, ht.state]
            simp [hst]
          · intro he3; rw [hs3] at he3; cases he3
          · intro hn; rw [hqi] at hn; exact absurd hz hn
        · rw [← ht.nextRemote]; exact hnr
        · have := hadv.next
          unfold Next at this ⊢
          rw [ht2.remotes, ht.remotes, ht2.nextRemote, ht.nextRemote] at this
          exact this
        · rw [hs3]; simp [he]
        · rw [hs3]; simp
        · obtain ⟨n, e⟩ := h3.eq
          rw [e]; exact hl
        · exact (f1' E).trans ((f2 E hE hE2).trans (h3.fr (PFr.core (hadv.core hqe) trivial)))
  · have hn' : p1.nextRemote = none ∧ p1.state ≠ .established := by
      simpa [Peer.isEstablished] using hn
    have hpi : p1.id = i := ht.id.trans hi
    subst hpi
    have hd : p1.remotes ≠ [] → p1.isDynamic = false := by
      intro hne
      cases hd : p1.isDynamic with
      | false => rfl
      | true => exact absurd (hk1.dynr hd).1 hne
    refine wp_nextRemote (One.refl h1.ids hp1) ?_ hd fun c2 f r hf hne hr h2 => ?_
    · intro hs hr
      rw [ht.remotes] at hr
      exact hn'.2 (ht.state.trans ((hS hs).2 hr))
    · have hw : wrap p1.remotes.length p1.nextRemote = 0 := by rw [hn'.1]; rfl
      rw [hw] at h2 hr
      have hl : 0 < p1.remotes.length := List.length_pos_iff.2 hne
      have hcore : Core p1 { p1 with nextRemote := some 0, remotes := p1.remotes.modify 0 f } := by
        refine ⟨?_, rfl, rfl, rfl, Iff.rfl, rfl, rfl⟩
        exact stat_modify fun r => ⟨(hf r).1, (hf r).2.1⟩
      refine hQ c2 _ [] ?_ h2.mem' (.first f ?_ hmay' ?_ ?_ hf ?_ rfl) ?_ hst1 rfl ?_ ?_ fun E hE _ => ?_
      · refine h1.one h2 hcore ?_ (fun _ _ => id) (fun _ _ => id) (fun _ _ => id) (hk1.restart hst1 hne hl hf) ?_
          (h1.timers p1 hp1) (fun hn => absurd hz hn)
        · intro v hv
          rw [List.nil_append] at hv
          rcases hr with rfl | rfl
          · cases hv
          · rw [List.mem_singleton] at hv
            subst hv
            exact ⟨rfl, hd hne, hl⟩
        · exact h1.act p1 hp1
      · rw [← ht.state]; exact hn'.2
      · rw [← ht.nextRemote]; exact hn'.1
      · rw [← ht.remotes]; exact hne
      · rw [← ht.remotes]
      · show p1.state = _ ↔ _
        rw [ht.state]
      · obtain ⟨n, e⟩ := h2.eq
        rw [e, List.append_nil]; exact l1
      · exact fun _ _ h => (nomatch h)
      · exact (f1' E).trans (h2.fr (PFr.core hcore trivial))

/-! ### The task -/

/-- `fastd_peer_clear_keepalive` for a peer whose task is about to be scheduled. -/
theorem wp_clearKeepalive_z {c : Ctx} (h : Inv S x y z c) {p : Peer} (hp : p ∈ c.peers) {i : Nat} (hi : p.id = i)
    (hz : z i) {Q : Unit → Ctx → Prop}
    (hQ : ∀ c', c' = { c with peers := updPeers c.peers i fun _ => { p with keepalive := c.now + KEEPALIVE_TIMEOUT } } →
      Inv S x y z c' → { p with keepalive := c.now + KEEPALIVE_TIMEOUT } ∈ c'.peers →
      (∀ E, Fr (· = i) nobody E c c') → Q () c') : wp S (clearKeepalive i) Q c := by
  unfold clearKeepalive
  rw [wp_bind, wp_get]
  refine wp_modP_core h hp hi ⟨rfl, rfl, rfl, rfl, Iff.rfl, rfl, rfl⟩ (fun _ _ => id) (fun _ _ => id) (fun _ _ => id) ?_ ?_ ?_
    (fun hn => absurd hz hn) hQ
  · subst hi; exact { h.peer p hp with }
  · subst hi; exact h.act p hp
  · exact fun he => ⟨(h.timers p hp he).1, Int.le_refl _⟩

/-- What sending a keepalive changes about a peer. -/
inductive Kpl (c : Ctx) (p q : Peer) : Prop
  | soft (h : Soft p q) (hv : p.keepalive ≤ c.now → p.state = .established → validNow c p.sess = true)
      (hi : p.state ≠ .established → q = { p with keepalive := q.keepalive })
  | dead (he : p.state = .established) (hd : p.keepalive ≤ c.now) (hv : validNow c p.sess = false)
      (hn : q.state ≠ .established)

theorem wp_handleTaskKeepalive {c : Ctx} (h : Inv S nobody nobody z c) {p : Peer} (hp : p ∈ c.peers) {i : Nat}
    (hi : p.id = i) (hz : z i) (hst : p.state ≠ .inactive) (hS : S → EnvOk) {Q : Unit → Ctx → Prop}
    (hQ : ∀ c' q, Inv S nobody nobody z c' → q ∈ c'.peers → q.id = i → q.state ≠ .inactive → Kpl c p q →
      (∀ E : Eff → Prop, (∀ e, e.plain = true → E e) → (p.state = .established → ∀ k, E (.encrypt i k [])) →
        Fr (· = i) nobody E c c') → Q () c') : wp S (handleTaskKeepalive i) Q c := by
  unfold handleTaskKeepalive
  rw [wp_bind, wp_getP' h.ids hp hi, wp_bind, wp_get]
  refine wp_ite (fun hd => ?_) (fun hd => ?_)
  · have hd' : p.keepalive ≤ c.now := by simpa [timedOut] using hd
    rw [wp_bind]
    refine wp_protocolSend h hp hi hS fun c1 h1 hres f1 => ?_
    cases hres with
    | idle hne hc =>
      subst hc
      refine wp_clearKeepalive_z h1 hp hi hz fun c2 e2 h2 hp2 f2 => ?_
      refine hQ c2 _ h2 hp2 hi hst (.soft ?_ (fun _ he => absurd he hne) fun _ => rfl) fun E hE hE' => (f1 E hE hE').trans (f2 E)
      unfold Soft; rfl
    | dead q he hv hq hcl hrt =>
      have hqi : q.id = i := (stat_id hcl.stat).trans hi
      refine wp_clearKeepalive_z h1 hq hqi hz fun c2 e2 h2 hp2 f2 => ?_
      refine hQ c2 _ h2 hp2 hqi ?_ (.dead he hd' hv hcl.est) fun E hE hE' => (f1 E hE hE').trans (f2 E)
      intro hin
      have h3 := (h1.act q hq id).1 hin
      rw [stat_enabled hcl.stat] at h3
      exact hst ((h.act p hp id).2 h3)
    | sent q he hv hq hs hk hd =>
      have hqi : q.id = i := hs.id.trans hi
      refine wp_clearKeepalive_z h1 hq hqi hz fun c2 e2 h2 hp2 f2 => ?_
      refine hQ c2 _ h2 hp2 hqi ?_ (.soft ?_ (fun _ _ => hv) fun h => absurd he h) fun E hE hE' => (f1 E hE hE').trans (f2 E)
      · show q.state ≠ _
        rw [hs.state]; exact hst
      · exact hs.trans (by unfold Soft; rfl)
  · rw [wp_pure]
    refine hQ c p h hp hi hst (.soft (Soft.refl p) (fun hk => ?_) fun _ => rfl) fun E _ _ => Fr.refl
    exact absurd hk (by simpa [timedOut] using hd)

/-- How the log and a few counters change with an event. -/
structure Lg (E : Eff → Prop) (c c' : Ctx) : Prop where
  now : c'.now = c.now
  nextId : c.nextId ≤ c'.nextId
  cur : c.keys.cur.serial ≤ c'.keys.cur.serial
  log : ∃ l, c'.log = c.log ++ l ∧ ∀ e ∈ l, E e

theorem Fr.lg {t a : Nat → Prop} {E : Eff → Prop} {c c' : Ctx} (h : Fr t a E c c') : Lg E c c' :=
  ⟨h.now, Nat.le_of_eq h.nextId.symm, h.cur, h.log⟩

theorem Lg.refl {E : Eff → Prop} {c : Ctx} : Lg E c c := ⟨rfl, Nat.le_refl _, Nat.le_refl _, [], by simp, by simp⟩

theorem Lg.trans {E : Eff → Prop} {c c' c'' : Ctx} (h : Lg E c c') (h' : Lg E c' c'') : Lg E c c'' := by
  refine ⟨h'.now.trans h.now, Nat.le_trans h.nextId h'.nextId, Nat.le_trans h.cur h'.cur, ?_⟩
  obtain ⟨l, hl, he⟩ := h.log
  obtain ⟨l', hl', he'⟩ := h'.log
  refine ⟨l ++ l', by rw [hl', hl, List.append_assoc], fun e hm => ?_⟩
  rcases List.mem_append.1 hm with h1 | h1
  · exact he e h1
  · exact he' e h1

theorem Lg.mono {E E' : Eff → Prop} {c c' : Ctx} (h : Lg E c c') (hE : ∀ e, E e → E' e) : Lg E' c c' := by
  obtain ⟨l, hl, he⟩ := h.log
  exact ⟨h.now, h.nextId, h.cur, l, hl, fun e hm => hE e (he e hm)⟩

/-- The task as it is handled. -/
inductive TaskRes (p : Peer) (c c' : Ctx) : Prop
  | deleted (hr : p.resetTimeout ≤ c.now) (hd : p.isDynamic = true) (hp : c'.peers = without' c.peers p.id)
      (he : c'.eth = c.eth.filter fun e => !decide (e.peer = some p.id))
  | reset (q : Peer) (hr : p.resetTimeout ≤ c.now) (hd : p.isDynamic = false) (hq : q ∈ c'.peers) (hid : q.id = p.id)
      (hn : q.state ≠ .established) (hps : c'.peers = updPeers c.peers p.id fun _ => q)
  | handled (c1 : Ctx) (q1 q : Peer) (hr : c.now < p.resetTimeout) (hq1 : q1 ∈ c1.peers) (hq : q ∈ c'.peers)
      (hid : q.id = p.id) (hk : Kpl c { p with task := none } q1) (hnow : c1.now = c.now)
      (hf : Fr (· = p.id) nobody (fun e => e.isHsInit = false) c c1)
      (hh : (c.now < q1.nextHs ∧ q.remotes = q1.remotes ∧ q.nextRemote = q1.nextRemote) ∨
        (q1.nextHs ≤ c.now ∧ Turn c1 q1 q))
      (hl : ∃ l, c'.log = c1.log ++ l ∧ ∀ j a, .hsInit j a ∈ l → j = some p.id ∧ q1.nextHs ≤ c.now ∧
        (q1.state ≠ .established → ∃ k r, q1.nextRemote = some k ∧ q1.remotes[k]? = some r ∧
          r.addrs[r.cur]? = some a))
      (he : q.state = .established ↔ q1.state = .established)

theorem wp_peerTask {c : Ctx} (h : Inv S nobody nobody nobody c) {p : Peer} (hp : p ∈ c.peers) {i : Nat}
    (hi : p.id = i) (hst : p.state ≠ .inactive) (hS : S → EnvOk ∧ c.now < timeoutInv) {Q : Unit → Ctx → Prop}
    (hQ : ∀ c', Inv S nobody nobody nobody c' → TaskRes p c c' →
      (∀ E : Eff → Prop, (∀ e, e.plain = true → E e) → (∀ a, E (.hsInit (some i) a)) →
        (p.state = .established → ∀ k, E (.encrypt i k [])) → Lg E c c') → Q () c') : wp S (peerTask i) Q c := by
  have hk := h.peer p hp
  unfold peerTask
  rw [wp_bind]
  refine wp_modP_core (x' := nobody) (y' := nobody) (z' := (· = i)) h hp hi ⟨rfl, rfl, rfl, rfl, Iff.rfl, rfl, rfl⟩
    (fun _ _ => id) (fun _ _ => id) (fun _ _ h => h.elim) ?_ ?_ ?_ (fun hn => absurd rfl hn) fun c1 e1 h1 hp1 f1 => ?_
  · subst hi; exact { hk with inact := fun h => ⟨(hk.inact h).1, (hk.inact h).2.1, rfl⟩ }
  · subst hi; exact h.act p hp
  · exact h.timers p hp
  have n1 : c1.now = c.now := by rw [e1]
  have l1 : c1.log = c.log := by rw [e1]
  rw [wp_bind, wp_getP' h1.ids hp1 hi, wp_bind, wp_get, n1]
  show wp S (if timedOut p.resetTimeout c.now then if p.isDynamic then _ else _ else _) Q c1
  refine wp_ite (fun hr => wp_ite (fun hd => ?_) (fun hd => ?_)) (fun hr => ?_)
  · have hr' : p.resetTimeout ≤ c.now := by simpa [timedOut] using hr
    refine wp_peerDelete (x' := nobody) (y' := nobody) (z' := nobody) h1 hp1 hi (fun _ _ => id) (fun _ _ => id)
      (fun _ hj h => absurd h hj) fun c2 ht h2 e2 => ?_
    refine hQ c2 h2 (.deleted hr' hd ?_ ?_) fun E hE _ _ => (f1 E).lg.trans ?_
    · rw [e2, e1]
      show without' (updPeers c.peers i _) i = _
      rw [without'_upd, hi]
      intro _ _ _; exact hi
    · rw [e2, e1, hi]
    · rw [e2]
      refine ⟨rfl, Nat.le_refl _, Nat.le_refl _, _, rfl, fun e he => ?_⟩
      split at he
      · rw [List.mem_singleton] at he; subst he; exact hE _ rfl
      · cases he
  · have hr' : p.resetTimeout ≤ c.now := by simpa [timedOut] using hr
    refine wp_peerReset (x' := nobody) (y' := nobody) (z' := nobody) h1 hp1 hi (fun _ => id) (fun _ _ => id) (fun _ _ => id)
      (fun _ hj h => absurd h hj) fun c2 q h2 hq hcl hrt f2 => ?_
    refine hQ c2 h2 (.reset q hr' (by simpa using hd) hq (stat_id hcl.stat) hcl.est ?_) fun E hE _ _ =>
      (f1 E).lg.trans (f2 E (hE _ rfl)).lg
    obtain ⟨ht, r, n, e2⟩ := hrt
    rw [e2, e1]
    show updPeers (updPeers c.peers i _) p.id _ = _
    rw [hi, updPeers_updPeers]
    · rfl
    · intro _ _ h; exact h.symm
  · have hr' : c.now < p.resetTimeout := by simpa [timedOut] using hr
    rw [wp_bind]
    refine wp_handleTaskKeepalive h1 hp1 hi rfl hst (fun hs => (hS hs).1) fun c2 q1 h2 hq1 hq1i hq1s hkpl f2 => ?_
    have f12 : ∀ E : Eff → Prop, (∀ e, e.plain = true → E e) → (p.state = .established → ∀ k, E (.encrypt i k [])) →
        Fr (· = i) nobody E c c2 := fun E hE hE' => (f1 E).trans (f2 E hE hE')
    have n2 : c2.now = c.now := (f12 (fun _ => True) (fun _ _ => trivial) fun _ _ => trivial).now
    have hkpl' : Kpl c { p with task := none } q1 := by
      have hv : validNow c1 p.sess = validNow c p.sess := validNow_congr (by rw [e1]; exact fun _ _ => rfl) n1
      cases hkpl with
      | soft a b hi =>
        rw [n1] at b
        exact .soft a (fun hk he => hv ▸ b hk he) hi
      | dead a b c d =>
        rw [n1] at b
        exact .dead a b (hv ▸ c) d
    have last : ∀ c3 q, Inv S nobody nobody (· = i) c3 → q ∈ c3.peers → q.id = i → q.state ≠ .inactive →
        ((c.now < q1.nextHs ∧ q.remotes = q1.remotes ∧ q.nextRemote = q1.nextRemote) ∨
          (q1.nextHs ≤ c.now ∧ Turn c2 q1 q)) →
        (∃ l, c3.log = c2.log ++ l ∧ ∀ j a, .hsInit j a ∈ l → j = some p.id ∧ q1.nextHs ≤ c.now ∧
          (q1.state ≠ .established → ∃ k r, q1.nextRemote = some k ∧ q1.remotes[k]? = some r ∧
            r.addrs[r.cur]? = some a)) → (q.state = .established ↔ q1.state = .established) →
        (∀ E : Eff → Prop, (∀ e, e.plain = true → E e) → (∀ a, E (.hsInit (some i) a)) →
          Fr (fun _ => True) nobody E c2 c3) → wp S (schedulePeerTask i) Q c3 := by
      intro c3 q h3 hq hqi hqs hh hl he f3
      refine wp_schedulePeerTask (z' := nobody) h3 hq hqi hqs (fun _ hj h => absurd h hj) fun c4 e4 h4 hq4 f4 => ?_
      have hsc := scheduled_eq q
      refine hQ c4 h4 (.handled c2 q1 (scheduled q) hr' hq1 hq4 ?_ hkpl' n2 ?_ ?_ ?_ ?_) fun E hE hE1 hE2 => ?_
      · rw [hsc]; exact hqi.trans hi.symm
      · rw [hi]
        refine f12 _ ?_ (fun _ _ => rfl)
        intro e he
        cases e <;> first | rfl | cases he
      · rw [hsc]
        rcases hh with h | ⟨h, ht⟩
        · exact .inl h
        · refine .inr ⟨h, ?_⟩
          cases ht with
          | est a b c => exact .est a b c
          | full a b c => exact .full a b c
          | next k a b c d => exact .next k a b c d
          | first f a b c d e g h => exact .first f a b c d e g h
      · rw [e4]; exact hl
      · rw [hsc]; exact he
      · exact (f12 E hE hE2).lg.trans ((f3 E hE hE1).lg.trans (f4 E).lg)
    rw [wp_bind]
    unfold handleTaskDueHandshake
    rw [wp_bind, wp_getP' h2.ids hq1 hq1i, wp_bind, wp_get, n2]
    refine wp_ite (fun hd => ?_) (fun hd => ?_)
    · have hd' : q1.nextHs ≤ c.now := by simpa [timedOut] using hd
      refine wp_handleTaskHandshake h2 hq1 hq1i rfl hq1s (fun hs => ⟨(hS hs).1, fun hr => ?_⟩)
        fun c3 q l h3 hq ht he hqs hqi hl hE f3 => ?_
      · by_contra hne
        have := (h2.peer q1 hq1).hs hs hr hne hq1s
        have := (hS hs).2
        omega
      · refine last c3 q h3 hq hqi hqs (.inr ⟨hd', ht⟩) ⟨l, hl, fun j a hm => ?_⟩ he f3
        obtain ⟨a1, a2⟩ := hE j a hm
        exact ⟨by rw [hi]; exact a1, hd', a2⟩
    · rw [wp_pure]
      refine last c2 q1 h2 hq1 hq1i hq1s (.inl ⟨by simpa [timedOut] using hd, rfl, rfl⟩)
        ⟨[], (List.append_nil _).symm, fun _ _ h => (nomatch h)⟩ Iff.rfl fun E _ _ => Fr.refl

/-! ### `fastd_peer_reset_all` -/

theorem wp_resetAll {c : Ctx} (h : Inv S nobody nobody nobody c) {fuel k : Nat} (hf : c.peers.length < fuel + k)
    (hk : k ≤ c.peers.length) (hd : ∀ j p, j < k → c.peers[j]? = some p → p.state ≠ .established ∧ p.isDynamic = false)
    {Q : Unit → Ctx → Prop}
    (hQ : ∀ c', Inv S nobody nobody nobody c' →
      (∀ p ∈ c'.peers, p.state ≠ .established ∧ p.isDynamic = false) →
      (∀ E : Eff → Prop, (∀ e, e.plain = true → E e) → Lg E c c') → Q () c') : wp S (resetAll fuel k) Q c := by
  induction fuel generalizing c k with
  | zero => omega
  | succ fuel ih =>
    unfold resetAll
    rw [wp_bind, wp_get]
    rcases hp : c.peers[k]? with _ | p
    · show wp S (pure ()) Q c
      rw [wp_pure]
      refine hQ c h (fun p hp' => ?_) fun _ _ => Lg.refl
      obtain ⟨j, hj⟩ := List.mem_iff_getElem?.1 hp'
      have := (List.getElem?_eq_some_iff.1 hj).1
      have := List.getElem?_eq_none_iff.1 hp
      exact hd j p (by omega) hj
    · have hm := List.mem_of_getElem? hp
      have hkl := (List.getElem?_eq_some_iff.1 hp).1
      show wp S (if p.isDynamic then _ else _) Q c
      refine wp_ite (fun hdy => ?_) (fun hdy => ?_)
      · rw [wp_bind]
        refine wp_peerDelete (x' := nobody) (y' := nobody) (z' := nobody) h hm rfl (fun _ _ => id) (fun _ _ => id)
          (fun _ _ => id) fun c1 ht h1 e1 => ?_
        have p1 : c1.peers = c.peers.eraseIdx k := by rw [e1, eraseIdx_without' h.ids hp]
        have len : c1.peers.length = c.peers.length - 1 := by rw [p1, List.length_eraseIdx, if_pos hkl]
        refine ih h1 (by omega) (by omega) (fun j q hj hq => ?_) fun c2 h2 hn l2 => hQ c2 h2 hn fun E hE => Lg.trans ?_ (l2 E hE)
        · rw [p1, List.getElem?_eraseIdx, if_pos hj] at hq
          exact hd j q hj hq
        · rw [e1]
          refine ⟨rfl, Nat.le_refl _, Nat.le_refl _, _, rfl, fun e he => ?_⟩
          split at he
          · rw [List.mem_singleton] at he; subst he; exact hE _ rfl
          · cases he
      · rw [wp_bind]
        refine wp_peerReset (x' := nobody) (y' := nobody) (z' := nobody) h hm rfl (fun _ => id) (fun _ _ => id)
          (fun _ _ => id) (fun _ _ => id) fun c1 q h1 hq hcl hrt f1 => ?_
        obtain ⟨ht, r, n, e1⟩ := hrt
        have p1 : c1.peers = updPeers c.peers p.id fun _ => q := by rw [e1]
        have len : c1.peers.length = c.peers.length := by rw [p1]; unfold updPeers; rw [List.length_map]
        refine ih h1 (by omega) (by omega) (fun j q' hj hq' => ?_)
          fun c2 h2 hn l2 => hQ c2 h2 hn fun E hE => Lg.trans (f1 E (hE _ rfl)).lg (l2 E hE)
        rw [p1] at hq'
        unfold updPeers at hq'
        rw [List.getElem?_map] at hq'
        rcases hj' : c.peers[j]? with _ | o
        · rw [hj'] at hq'; cases hq'
        · rw [hj'] at hq'
          cases hq'
          dsimp only
          by_cases ho : o.id = p.id
          · rw [if_pos ho]
            exact ⟨hcl.est, by rw [stat_dynamic hcl.stat]; simpa using hdy⟩
          · rw [if_neg ho]
            refine hd j o ?_ hj'
            rcases Nat.lt_succ_iff_lt_or_eq.1 hj with h | h
            · exact h
            · subst h
              rw [hp] at hj'; cases hj'; exact absurd rfl ho

end Fastd.Daemon
