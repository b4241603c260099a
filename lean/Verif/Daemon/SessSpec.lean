import Verif.Daemon.SendSpec

/-!
# Sessions and the invariant: sending payload
-/

namespace Fastd.Daemon

set_option linter.unusedSectionVars false

variable [Env] {S : Prop} {x y z : Nat → Prop}

/-! ### What the session callbacks return -/

def validNow (c : Ctx) (s : Session) : Bool :=
  match s.method, s.mstate with
  | some m, some h =>
    match c.objs h with
    | some o => Env.sessValid m o c.now
    | none => false
  | _, _ => false

def initiatorNow (c : Ctx) (s : Session) : Bool :=
  match s.method, s.mstate with
  | some m, some h =>
    match c.objs h with
    | some o => Env.sessInitiator m o
    | none => false
  | _, _ => false

def refreshNow (c : Ctx) (s : Session) : Bool :=
  match s.method, s.mstate with
  | some m, some h =>
    match c.objs h with
    | some o => !s.refreshing && Env.sessWantRefresh m o c.now
    | none => false
  | _, _ => false

/-- Sessions that differ only in flags. -/
def Session.like (s s' : Session) : Prop := s'.method = s.method ∧ s'.mstate = s.mstate

theorem validNow_like {c : Ctx} {s s' : Session} (h : s.like s') : validNow c s' = validNow c s := by
  unfold validNow; rw [h.1, h.2]

theorem initiatorNow_like {c : Ctx} {s s' : Session} (h : s.like s') : initiatorNow c s' = initiatorNow c s := by
  unfold initiatorNow; rw [h.1, h.2]

theorem validNow_congr {c c' : Ctx} {s : Session} (ho : ∀ h, s.mstate = some h → c'.objs h = c.objs h)
    (hn : c'.now = c.now) : validNow c' s = validNow c s := by
  unfold validNow
  cases s.method with
  | none => rfl
  | some m =>
    cases hh : s.mstate with
    | none => rfl
    | some h => simp only []; rw [ho h hh, hn]

theorem initiatorNow_congr {c c' : Ctx} {s : Session} (ho : ∀ h, s.mstate = some h → c'.objs h = c.objs h) :
    initiatorNow c' s = initiatorNow c s := by
  unfold initiatorNow
  cases s.method with
  | none => rfl
  | some m =>
    cases hh : s.mstate with
    | none => rfl
    | some h => simp only []; rw [ho h hh]

theorem wp_getObj {c : Ctx} {h : Nat} {o : Env.Sess} (ho : c.objs h = some o) {Q : Env.Sess → Ctx → Prop} :
    wp S (getObj h) Q c ↔ Q o c := by
  unfold getObj
  rw [wp_bind, wp_get, ho]
  exact Iff.rfl

/-- The states a session refers to exist. -/
def Alive (c : Ctx) (s : Session) : Prop := ∀ h, s.mstate = some h → ∃ o, c.objs h = some o

theorem wp_sessionValid {c : Ctx} {s : Session} (ha : Alive c s) {Q : Bool → Ctx → Prop} (hQ : Q (validNow c s) c) :
    wp S (sessionValid s) Q c := by
  unfold sessionValid
  unfold validNow at hQ
  cases hm : s.method with
  | none => rw [hm] at hQ; exact hQ
  | some m =>
    cases hh : s.mstate with
    | none => rw [hm, hh] at hQ; exact hQ
    | some h =>
      obtain ⟨o, ho⟩ := ha h hh
      rw [hm, hh] at hQ
      simp only [ho] at hQ ⊢
      rw [wp_bind, wp_getObj ho, wp_bind, wp_get, wp_pure]
      exact hQ

theorem Inv.alive {c : Ctx} (h : Inv S x y z c) {p : Peer} (hp : p ∈ c.peers) {k : Nat} (hk : k ∈ p.refs) :
    ∃ o, c.objs k = some o := Option.isSome_iff_exists.1 (h.refs.obj hp hk)

theorem Inv.aliveS {c : Ctx} (h : Inv S x y z c) {p : Peer} (hp : p ∈ c.peers) : Alive c p.sess := by
  intro k hk
  exact h.alive hp (by unfold Peer.refs; rw [hk]; simp)

theorem Inv.aliveO {c : Ctx} (h : Inv S x y z c) {p : Peer} (hp : p ∈ c.peers) : Alive c p.old := by
  intro k hk
  exact h.alive hp (by unfold Peer.refs; rw [hk]; simp)

/-- The current session of an established peer. -/
theorem Inv.estSess {c : Ctx} (h : Inv S x y z c) {p : Peer} (hp : p ∈ c.peers) (hx : ¬ x p.id)
    (he : p.state = .established) : ∃ m k o, p.sess.method = some m ∧ p.sess.mstate = some k ∧ c.objs k = some o := by
  have hk := h.peer p hp
  have h1 := (hk.est hx he).2
  obtain ⟨k, hk1⟩ := Option.isSome_iff_exists.1 h1
  obtain ⟨m, hm⟩ := Option.isSome_iff_exists.1 (hk.sessM h1)
  obtain ⟨o, ho⟩ := h.aliveS hp k hk1
  exact ⟨m, k, o, hm, hk1, ho⟩

/-! ### Changing a session state -/

def setCtx (c : Ctx) (h : Nat) (o : Env.Sess) : Ctx := { c with objs := fun k => if k = h then some o else c.objs k }

theorem Inv.setObj {c : Ctx} (h : Inv S x y z c) {k : Nat} {o o' : Env.Sess} (ho : c.objs k = some o) :
    Inv S x y z (setCtx c k o') :=
  { h with
    refs := ⟨h.refs.nodup, fun j => by
      show (if j = k then some o' else c.objs j).isSome = true ↔ _
      by_cases hj : j = k
      · rw [if_pos hj, hj]
        have := (h.refs.live k).1 (by rw [ho]; rfl)
        exact ⟨fun _ => this, fun _ => rfl⟩
      · rw [if_neg hj]; exact h.refs.live j, h.refs.lt⟩ }

theorem Fr.setObj {t a : Nat → Prop} {E : Eff → Prop} {c : Ctx} (h : Inv S x y z c) {p : Peer} (hp : p ∈ c.peers)
    (ht : t p.id) {k : Nat} (hk : k ∈ p.refs) {o : Env.Sess} : Fr t a E c (setCtx c k o) := by
  refine ⟨rfl, rfl, Nat.le_refl _, forall₂_refl' fun _ _ => PFr.refl, fun q hq hn j hj => ?_, [],
    (List.append_nil _).symm, by simp⟩
  show (if j = k then some o else c.objs j) = _
  rw [if_neg]
  rintro rfl
  exact refs_disjoint h.ids h.refs.nodup hp hq (fun he => hn (by rw [← he]; exact ht)) hk hj

/-! ### What is kept -/

/-- Parts of the state that sending payload does not change. -/
structure Kept (c c' : Ctx) : Prop where
  socks : c'.socks = c.socks
  nextObj : c'.nextObj = c.nextObj
  eth : c'.eth = c.eth
  ht : c'.ht = c.ht
  now : c'.now = c.now
  resolves : c'.resolves = c.resolves
  verifs : c'.verifs = c.verifs
  unknown : c'.unknown = c.unknown
  keys : c'.keys = c.keys
  hasFloating : c'.hasFloating = c.hasFloating

theorem Kept.refl (c : Ctx) : Kept c c := ⟨rfl, rfl, rfl, rfl, rfl, rfl, rfl, rfl, rfl, rfl⟩

theorem Kept.trans {c c' c'' : Ctx} (h : Kept c c') (h' : Kept c' c'') : Kept c c'' :=
  ⟨h'.socks.trans h.socks, h'.nextObj.trans h.nextObj, h'.eth.trans h.eth, h'.ht.trans h.ht, h'.now.trans h.now,
    h'.resolves.trans h.resolves, h'.verifs.trans h.verifs, h'.unknown.trans h.unknown, h'.keys.trans h.keys,
    h'.hasFloating.trans h.hasFloating⟩

theorem Mild.kept {c c' : Ctx} (h : Mild c c') (hk : c'.keys = c.keys) : Kept c c' :=
  ⟨h.socks, h.nextObj, h.eth, h.ht, h.now, h.resolves, h.verifs, h.unknown, hk, h.hasFloating⟩

/-- A peer up to what sending payload changes. -/
def Soft (p q : Peer) : Prop :=
  q = { p with
    sess := ⟨q.sess.cleaned, q.sess.refreshing, p.sess.method, p.sess.mstate⟩
    nextHs := q.nextHs
    task := q.task
    keepalive := q.keepalive }

theorem Soft.refl (p : Peer) : Soft p p := rfl

theorem Soft.trans {p q r : Peer} (h : Soft p q) (h' : Soft q r) : Soft p r := by
  unfold Soft at *
  rw [h', h]

theorem Resched.soft {p q : Peer} (h : Resched p q) : Soft p q := by
  unfold Soft Resched at *
  rw [h]

theorem Soft.id {p q : Peer} (h : Soft p q) : q.id = p.id := (congrArg Peer.id h :)
theorem Soft.state {p q : Peer} (h : Soft p q) : q.state = p.state := (congrArg Peer.state h :)
theorem Soft.old {p q : Peer} (h : Soft p q) : q.old = p.old := (congrArg Peer.old h :)
theorem Soft.sess {p q : Peer} (h : Soft p q) : p.sess.like q.sess :=
  ⟨(congrArg (fun r : Peer => r.sess.method) h :), (congrArg (fun r : Peer => r.sess.mstate) h :)⟩
theorem Soft.sock {p q : Peer} (h : Soft p q) : q.sock = p.sock := (congrArg Peer.sock h :)
theorem Soft.addr {p q : Peer} (h : Soft p q) : q.addr = p.addr := (congrArg Peer.addr h :)
theorem Soft.localAddr {p q : Peer} (h : Soft p q) : q.localAddr = p.localAddr := (congrArg Peer.localAddr h :)
theorem Soft.iface {p q : Peer} (h : Soft p q) : q.iface = p.iface := (congrArg Peer.iface h :)
theorem Soft.stat {p q : Peer} (h : Soft p q) : q.stat = p.stat := (congrArg Peer.stat h :)

/-! ### `check_session_refresh`, `check_session` -/

theorem wp_checkSessionRefresh {c : Ctx} (h : Inv S x y z c) {p : Peer} (hp : p ∈ c.peers) {i : Nat} (hi : p.id = i)
    (hx : ¬ x i) (he : p.state = .established) {Q : Unit → Ctx → Prop}
    (hQ : ∀ c' q, Inv S x y z c' → c' = { c with peers := updPeers c.peers i fun _ => q } → Soft p q → q ∈ c'.peers →
      q.keepalive = p.keepalive →
      (∀ E, Fr (· = i) nobody E c c') → Q () c') :
    wp S (checkSessionRefresh i) Q c := by
  subst hi
  unfold checkSessionRefresh
  rw [wp_bind, wp_getP h.ids hp, wp_bind]
  have skip : Q () c := by
    refine hQ c p h ?_ (Soft.refl p) hp rfl fun E => Fr.refl
    rw [updPeers_self h.ids hp]
  obtain ⟨m, k, o, hm, hk, ho⟩ := h.estSess hp hx he
  have w : ∀ {Q : Bool → Ctx → Prop}, (∀ b, Q b c) → wp S (wantRefresh p.sess) Q c := by
    intro Q hQ
    unfold wantRefresh
    refine wp_ite (fun _ => hQ _) (fun _ => ?_)
    rw [hm, hk]
    show wp S (getObj k >>= _) Q c
    rw [wp_bind, wp_getObj ho, wp_bind, wp_get, wp_pure]
    exact hQ _
  refine w fun b => ?_
  refine wp_ite (fun _ => ?_) (fun _ => skip)
  rw [wp_bind]
  refine wp_modP_same h hp rfl rfl rfl rfl rfl ⟨rfl, rfl, fun hn => absurd he hn⟩ rfl rfl rfl rfl rfl
    (fun h => h) (fun h => h) (fun _ _ _ => Int.le_refl _) fun c1 e1 h1 hp1 f1 => ?_
  refine wp_scheduleHandshake (z' := z) h1 hp1 rfl (by simp [he]) (fun _ _ h => h) (fun _ _ => he)
    fun c2 e2 h2 hp2 f2 => ?_
  refine hQ c2 _ h2 ?_ ?_ hp2 ?_ fun E => (f1 E).trans (f2 E)
  · rw [e2, e1]
    simp only []
    rw [updPeers_updPeers (by intro q _ hq; exact hq.symm)]
    rfl
  · unfold Soft
    rw [scheduled_eq]
  · rw [scheduled_eq]

theorem wp_checkSession {c : Ctx} (h : Inv S nobody y z c) {p : Peer} (hp : p ∈ c.peers) {i : Nat} (hi : p.id = i)
    {Q : Bool → Ctx → Prop} (hQt : validNow c p.sess = true → Q true c)
    (hQf : ∀ c' q, validNow c p.sess = false → Inv S nobody y z c' → q ∈ c'.peers → Cleared c.now p q →
      ResetTo p q c c' → (∀ E : Eff → Prop, E (.disestablished i) → Fr (· = i) nobody E c c') → Q false c') :
    wp S (checkSession i) Q c := by
  subst hi
  unfold checkSession
  rw [wp_bind, wp_getP h.ids hp, wp_bind]
  refine wp_sessionValid (h.aliveS hp) ?_
  refine wp_ite (fun hv => ?_) (fun hv => ?_)
  · rw [wp_pure]; exact hQt hv
  · rw [wp_bind]
    refine wp_peerReset h hp rfl (fun _ h => h) (fun _ _ h => h) (fun _ _ h => h) (fun _ _ h => h)
      fun c' q h' hq hc hr hf => ?_
    rw [wp_pure]
    exact hQf c' q (by simpa using hv) h' hq hc hr hf

theorem wp_isInitiator {c : Ctx} {s : Session} {m k : Nat} {o : Env.Sess} (hm : s.method = some m)
    (hk : s.mstate = some k) (ho : c.objs k = some o) {Q : Bool → Ctx → Prop} (hQ : Q (initiatorNow c s) c) :
    wp S (isInitiator s) Q c := by
  unfold isInitiator
  unfold initiatorNow at hQ
  rw [hm, hk] at hQ ⊢
  simp only [ho] at hQ
  show wp S (getObj k >>= _) Q c
  rw [wp_bind, wp_getObj ho, wp_pure]
  exact hQ

/-- Whether payload is sent with the old session. -/
def useOldNow (c : Ctx) (p : Peer) : Bool := initiatorNow c p.sess && validNow c p.old

theorem wp_useOldSession {c : Ctx} (h : Inv S x y z c) {p : Peer} (hp : p ∈ c.peers) (hx : ¬ x p.id)
    (he : p.state = .established) {Q : Bool → Ctx → Prop} (hQ : Q (useOldNow c p) c) : wp S (useOldSession p) Q c := by
  obtain ⟨m, k, o, hm, hk, ho⟩ := h.estSess hp hx he
  unfold useOldSession
  rw [wp_bind]
  refine wp_isInitiator hm hk ho ?_
  unfold useOldNow at hQ
  refine wp_ite (fun hi => ?_) (fun hi => ?_)
  · rw [hi, Bool.true_and] at hQ
    exact wp_sessionValid (h.aliveO hp) hQ
  · rw [Bool.not_eq_true] at hi
    rw [hi, Bool.false_and] at hQ
    exact hQ

/-! ### Deadlines of an established peer that move on -/

theorem wp_clearKeepalive {c : Ctx} (h : Inv S x y z c) {p : Peer} (hp : p ∈ c.peers) {i : Nat} (hi : p.id = i)
    (he : p.state = .established) {Q : Unit → Ctx → Prop}
    (hQ : ∀ c', c' = { c with peers := updPeers c.peers i fun _ => { p with keepalive := c.now + KEEPALIVE_TIMEOUT } } →
      Inv S x y z c' → { p with keepalive := c.now + KEEPALIVE_TIMEOUT } ∈ c'.peers →
      (∀ E, Fr (· = i) nobody E c c') → Q () c') : wp S (clearKeepalive i) Q c := by
  unfold clearKeepalive
  rw [wp_bind, wp_get]
  have ht := h.timers p hp he
  refine wp_modP_same h hp hi rfl rfl rfl rfl ⟨rfl, rfl, fun _ => rfl⟩ rfl rfl rfl rfl rfl (fun h => h)
    (fun ht he => ⟨(ht he).1, Int.le_refl _⟩) ?_ hQ
  intro _ _ _
  exact deadline_mono (by simp) (by simpa [KEEPALIVE_TIMEOUT] using ht.2) (by simp)

theorem wp_seen {c : Ctx} (h : Inv S x y z c) {p : Peer} (hp : p ∈ c.peers) {i : Nat} (hi : p.id = i)
    (he : p.state = .established) {Q : Unit → Ctx → Prop}
    (hQ : ∀ c', c' = { c with peers := updPeers c.peers i fun _ => { p with resetTimeout := c.now + PEER_STALE_TIME } } →
      Inv S x y z c' → { p with resetTimeout := c.now + PEER_STALE_TIME } ∈ c'.peers →
      (∀ E, Fr (· = i) nobody E c c') → Q () c') : wp S (seen i) Q c := by
  unfold seen
  rw [wp_bind, wp_get]
  have ht := h.timers p hp he
  refine wp_modP_same h hp hi rfl rfl rfl rfl ⟨rfl, rfl, fun _ => rfl⟩ rfl rfl rfl rfl rfl (fun h => h)
    (fun ht he => ⟨Int.le_refl _, (ht he).2⟩) ?_ hQ
  intro _ _ _
  exact deadline_mono (by simpa [PEER_STALE_TIME] using ht.1) (by simp) (by simp)

/-! ### `session_send`, `protocol_send` -/

/-- What sending with a session appends to the log. -/
def Sent (i : Nat) (p : Peer) (s : Session) (data : Bytes) (c c' : Ctx) : Prop :=
  ∃ m k o, s.method = some m ∧ s.mstate = some k ∧ c.objs k = some o ∧
    ((Env.encrypt m o data = none ∧ c'.log = c.log) ∨
      ∃ pkt o' sk, Env.encrypt m o data = some (pkt, o') ∧ p.sock = some sk ∧ c'.objs k = some o' ∧
        c'.log = c.log ++ [.encrypt i k data, .send sk p.localAddr p.addr (some i) pkt])

theorem wp_sessionSend {c : Ctx} (h : Inv S nobody y z c) {p : Peer} (hp : p ∈ c.peers) {i : Nat} (hi : p.id = i)
    (he : p.state = .established) (hS : S → EnvOk) {s : Session} {m k : Nat} {o : Env.Sess} (hm : s.method = some m)
    (hk : s.mstate = some k) (ho : c.objs k = some o) (hr : k ∈ p.refs) {data : Bytes} {Q : Unit → Ctx → Prop}
    (hQ : ∀ c' q, Inv S nobody y z c' → q ∈ c'.peers → Soft p q → Kept c c' → Sent i p s data c c' →
      (∀ E : Eff → Prop, (∀ e, e.plain = true → E e) → E (.encrypt i k data) → Fr (· = i) nobody E c c') → Q () c') :
    wp S (sessionSend i s data) Q c := by
  subst hi
  unfold sessionSend
  rw [hm, hk]
  show wp S (getObj k >>= _) Q c
  rw [wp_bind, wp_getObj ho]
  cases hen : Env.encrypt m o data with
  | none =>
    simp only []
    rw [wp_pure]
    exact hQ c p h hp (Soft.refl p) (Kept.refl c) ⟨m, k, o, hm, hk, ho, .inl ⟨hen, rfl⟩⟩ fun E _ _ => Fr.refl
  | some r =>
    obtain ⟨pkt, o'⟩ := r
    simp only []
    rw [wp_bind]
    show wp S (modify fun c => setCtx c k o') _ c
    rw [wp_modify, wp_bind, wp_emit]
    refine wp_opaque fun c1 e1 => ?_
    have h1 : Inv S nobody y z c1 := by rw [e1]; exact (h.setObj ho).emit rfl
    have hp1 : p ∈ c1.peers := by rw [e1]; exact hp
    have f1 : ∀ E : Eff → Prop, E (.encrypt p.id k data) → Fr (· = p.id) nobody E c c1 := by
      intro E hE
      rw [e1]
      exact (Fr.setObj (t := fun j => j = p.id) h hp rfl hr).trans (Fr.emit hE)
    have k1 : Kept c c1 := by rw [e1]; exact ⟨rfl, rfl, rfl, rfl, rfl, rfl, rfl, rfl, rfl, rfl⟩
    have hest := (h.peer p hp).est (fun h => h) he
    rw [wp_bind, wp_getP h1.ids hp1, wp_bind]
    refine wp_send h1 (fun hs => ?_) (fun j hj => ?_) fun c2 sk h2 m2 hsk l2 hk2 f2 => ?_
    · obtain ⟨sk, hsk⟩ := Option.isSome_iff_exists.1 ((h.peer p hp).sock hs (fun h => h) he)
      exact ⟨hS hs, hest.1, sk, hsk, h1.sockLive hp1 hsk⟩
    · cases hj
      exact ⟨p, hp1, rfl, by rw [he]; simp⟩
    · obtain ⟨q, hq, hrs⟩ := m2.mem hp1
      have hq0 := hrs.soft
      have f12 : ∀ E : Eff → Prop, (∀ e, e.plain = true → E e) → E (.encrypt p.id k data) →
          Fr (· = p.id) nobody E c c2 := by
        intro E hE hE'
        refine (f1 E hE').trans ((f2 E hE).mono (fun j hj => ?_) (fun _ h => h) fun _ h => h)
        cases hj; rfl
      have hl : c2.log = c.log ++ [.encrypt p.id k data, .send sk p.localAddr p.addr (some p.id) pkt] := by
        rw [l2, e1]
        simp only [setCtx, List.append_assoc]
        rfl
      have ho2 : c2.objs k = some o' := by
        rw [m2.objs, e1]
        simp [setCtx]
      have hsent : ∀ c3 : Ctx, c3.log = c2.log → c3.objs = c2.objs → Sent p.id p s data c c3 := fun c3 h3 h4 =>
        ⟨m, k, o, hm, hk, ho, .inr ⟨pkt, o', sk, hen, hsk, by rw [h4]; exact ho2, h3.trans hl⟩⟩
      refine wp_when (fun _ => ?_) (fun _ => ?_)
      · refine wp_clearKeepalive h2 hq hq0.id (by rw [hq0.state]; exact he) fun c3 e3 h3 hq3 f3 => ?_
        refine hQ c3 _ h3 hq3 ?_ ?_ (hsent c3 (by rw [e3]) (by rw [e3])) fun E hE hE' => (f12 E hE hE').trans (f3 E)
        · exact hq0.trans (by unfold Soft; rfl)
        · refine (k1.trans (m2.kept hk2)).trans ?_
          rw [e3]; exact ⟨rfl, rfl, rfl, rfl, rfl, rfl, rfl, rfl, rfl, rfl⟩
      · exact hQ c2 q h2 hq hq0 (k1.trans (m2.kept hk2)) (hsent c2 rfl rfl) f12

/-- The outcomes of `protocol_send`. -/
inductive SendRes (p : Peer) (data : Bytes) (c c' : Ctx) : Prop
  | idle (h : p.state ≠ .established) (hc : c' = c)
  | dead (q : Peer) (h : p.state = .established) (hv : validNow c p.sess = false) (hq : q ∈ c'.peers)
      (hc : Cleared c.now p q) (hr : ResetTo p q c c')
  | sent (q : Peer) (h : p.state = .established) (hv : validNow c p.sess = true) (hq : q ∈ c'.peers) (hs : Soft p q)
      (hk : Kept c c') (hd : Sent p.id p (if useOldNow c p then p.old else p.sess) data c c')

theorem useOld_session {c : Ctx} (h : Inv S x y z c) {p : Peer} (hp : p ∈ c.peers) (hx : ¬ x p.id)
    (he : p.state = .established) :
    ∃ m k o, (if useOldNow c p then p.old else p.sess).method = some m ∧
      (if useOldNow c p then p.old else p.sess).mstate = some k ∧ c.objs k = some o ∧ k ∈ p.refs := by
  cases hu : useOldNow c p with
  | true =>
    simp only [if_true]
    unfold useOldNow validNow at hu
    rw [Bool.and_eq_true] at hu
    have hu2 := hu.2
    cases hm : p.old.method with
    | none => rw [hm] at hu2; cases hu2
    | some m =>
      cases hk : p.old.mstate with
      | none => rw [hm, hk] at hu2; cases hu2
      | some k =>
        obtain ⟨o, ho⟩ := h.aliveO hp k hk
        exact ⟨m, k, o, rfl, rfl, ho, by unfold Peer.refs; rw [hk]; simp⟩
  | false =>
    simp only [Bool.false_eq_true, if_false]
    obtain ⟨m, k, o, hm, hk, ho⟩ := h.estSess hp hx he
    exact ⟨m, k, o, hm, hk, ho, by unfold Peer.refs; rw [hk]; simp⟩

theorem wp_protocolSend {c : Ctx} (h : Inv S nobody y z c) {p : Peer} (hp : p ∈ c.peers) {i : Nat} (hi : p.id = i)
    (hS : S → EnvOk) {data : Bytes} {Q : Unit → Ctx → Prop}
    (hQ : ∀ c', Inv S nobody y z c' → SendRes p data c c' →
      (∀ E : Eff → Prop, (∀ e, e.plain = true → E e) → (p.state = .established → ∀ k, E (.encrypt i k data)) →
        Fr (· = i) nobody E c c') → Q () c') : wp S (protocolSend i data) Q c := by
  subst hi
  unfold protocolSend
  rw [wp_bind, wp_getP h.ids hp]
  refine wp_ite (fun hne => ?_) (fun hne => ?_)
  · rw [wp_pure]
    refine hQ c h (.idle ?_ rfl) fun E _ _ => Fr.refl
    simpa [Peer.isEstablished] using hne
  have he : p.state = .established := by simpa [Peer.isEstablished] using hne
  rw [wp_bind]
  refine wp_checkSession h hp rfl (fun hv => ?_) (fun c1 q hv h1 hq hcl hrt hf => ?_)
  · refine wp_ite (fun h => by simp at h) (fun _ => ?_)
    rw [wp_bind]
    refine wp_checkSessionRefresh h hp rfl (fun h => h) he fun c1 q h1 e1 hs hq hka f1 => ?_
    have heq : q.state = .established := by rw [hs.state]; exact he
    have o1 : c1.objs = c.objs := by rw [e1]
    have n1 : c1.now = c.now := by rw [e1]
    have l1 : c1.log = c.log := by rw [e1]
    have k1 : Kept c c1 := by rw [e1]; exact ⟨rfl, rfl, rfl, rfl, rfl, rfl, rfl, rfl, rfl, rfl⟩
    have hu : useOldNow c1 q = useOldNow c p := by
      unfold useOldNow
      rw [initiatorNow_like hs.sess, hs.old, initiatorNow_congr (c := c) (c' := c1) (fun _ _ => by rw [o1]),
        validNow_congr (c := c) (c' := c1) (fun _ _ => by rw [o1]) n1]
    rw [wp_bind]
    refine (wp_getP' h1.ids hq hs.id).2 ?_
    rw [wp_bind]
    refine wp_useOldSession h1 hq (fun h => h) heq ?_
    rw [hu]
    obtain ⟨m, k, o, hm, hk, ho, hr⟩ := useOld_session h hp (fun h => h) he
    have hlike : (if useOldNow c p then p.old else p.sess).like (if useOldNow c p then q.old else q.sess) := by
      split
      · rw [hs.old]; exact ⟨rfl, rfl⟩
      · exact hs.sess
    have hrq : k ∈ q.refs := by
      have : q.refs = p.refs := by unfold Peer.refs; rw [hs.old, hs.sess.2]
      rw [this]; exact hr
    refine wp_sessionSend h1 hq hs.id heq hS (hlike.1.trans hm) (hlike.2.trans hk) (by rw [o1]; exact ho) hrq
      fun c2 r h2 hr2 hs2 k2 hsent f2 => ?_
    refine hQ c2 h2 (.sent r he hv hr2 (hs.trans hs2) (k1.trans k2) ?_) fun E hE hEe =>
      (f1 E).trans (f2 E hE (hEe he k))
    obtain ⟨m', k', o'', hm', hk', ho', hor⟩ := hsent
    refine ⟨m', k', o'', hlike.1.symm.trans hm', hlike.2.symm.trans hk', by rw [← o1]; exact ho', ?_⟩
    rw [l1] at hor
    rw [hs.sock, hs.localAddr, hs.addr] at hor
    exact hor
  · refine wp_ite (fun _ => ?_) (fun h => by simp at h)
    rw [wp_pure]
    exact hQ c1 h1 (.dead q he hv hq hcl hrt) fun E hE _ => hf E (hE _ rfl)

theorem wp_sendEmpty {c : Ctx} (h : Inv S nobody y z c) {p : Peer} (hp : p ∈ c.peers) {i : Nat} (hi : p.id = i)
    (he : p.state = .established) (hS : S → EnvOk) {Q : Unit → Ctx → Prop}
    (hQ : ∀ c' q, Inv S nobody y z c' → q ∈ c'.peers → Soft p q → Kept c c' → Sent i p p.sess [] c c' →
      (∀ E : Eff → Prop, (∀ e, e.plain = true → E e) → (∀ k, E (.encrypt i k [])) → Fr (· = i) nobody E c c') →
      Q () c') : wp S (sendEmpty i) Q c := by
  unfold sendEmpty
  rw [wp_bind, wp_getP' h.ids hp hi]
  obtain ⟨m, k, o, hm, hk, ho⟩ := h.estSess hp (fun h => h) he
  refine wp_sessionSend h hp hi he hS hm hk ho (by unfold Peer.refs; rw [hk]; simp) fun c' q h' hq hs hk' hsent hf => ?_
  exact hQ c' q h' hq hs hk' hsent fun E hE hE' => hf E hE (hE' k)

end Fastd.Daemon
