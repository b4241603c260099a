import Verif.Daemon.HandleSpec

/-!
# Handling handshakes keeps the invariant

Dynamic peers and the handler of handshake packets (src/protocols/ec25519_fhmqvc/handshake.c:446-773).
-/

namespace Fastd.Daemon

set_option linter.unusedSectionVars false

variable [Env] {S : Prop} {x y z : Nat → Prop}

theorem timeoutMin_le {a b : Time} : timeoutMin a b ≤ a ∧ timeoutMin a b ≤ b := by
  unfold timeoutMin; split <;> omega

theorem timeoutMin_mono {a b a' b' : Time} (h : a ≤ a') (h' : b ≤ b') : timeoutMin a b ≤ timeoutMin a' b' := by
  unfold timeoutMin; split <;> split <;> omega

theorem timeoutAdvance_le (a v : Time) : a ≤ timeoutAdvance a v := by
  unfold timeoutAdvance; split <;> omega

theorem timeoutAdvance_bound {a v b : Time} (h : a ≤ b) (h' : v ≤ b) : timeoutAdvance a v ≤ b := by
  unfold timeoutAdvance; split <;> omega

/-! ### Verification -/

/-- What verification changes about a peer. -/
def Verifs (p q : Peer) : Prop :=
  ∃ a b d, q = { p with verifyTimeout := a, verifyValid := b, resetTimeout := d }

theorem Verifs.refl {p : Peer} : Verifs p p := ⟨p.verifyTimeout, p.verifyValid, p.resetTimeout, rfl⟩

theorem Verifs.trans {p q r : Peer} (h : Verifs p q) (h' : Verifs q r) : Verifs p r := by
  obtain ⟨a, b, d, rfl⟩ := h
  obtain ⟨a', b', d', rfl⟩ := h'
  exact ⟨a', b', d', rfl⟩

theorem Verifs.stat {p q : Peer} (h : Verifs p q) : q.stat = p.stat := by
  obtain ⟨a, b, d, rfl⟩ := h; rfl

/-- Moving the reset of a peer further away. -/
theorem wp_modP_verif {c : Ctx} (h : Inv S x y z c) {p : Peer} (hp : p ∈ c.peers) {i : Nat} (hi : p.id = i)
    {f : Peer → Peer} {a b v : Time} (hv : v ≤ c.now + PEER_STALE_TIME)
    (hf : f p = { p with verifyTimeout := a, verifyValid := b, resetTimeout := timeoutAdvance p.resetTimeout v })
    {Q : Unit → Ctx → Prop} (hQ : ∀ c', c' = { c with peers := updPeers c.peers i fun _ => f p } → Inv S x y z c' →
      f p ∈ c'.peers → (∀ E, Fr (· = i) nobody E c c') → Verifs p (f p) → Q () c') : wp S (modP i f) Q c := by
  refine wp_modP_same h hp hi (by rw [hf]; rfl) (by rw [hf]) (by rw [hf]) (by rw [hf])
    (by rw [hf]; exact ⟨rfl, rfl, fun _ => rfl⟩) (by rw [hf]) (by rw [hf]) (by rw [hf]) (by rw [hf]) (by rw [hf]) (by rw [hf]; exact id) ?_ ?_
    (fun c' e1 h1 h2 h3 => hQ c' e1 h1 h2 h3 ⟨_, _, _, hf⟩) (by rw [hf]) (by rw [hf]; exact id)
  · rw [hf]
    intro ht hs
    have := ht hs
    exact ⟨timeoutAdvance_bound this.1 hv, this.2⟩
  · rw [hf]
    intro _ _ _
    exact timeoutMin_mono (timeoutAdvance_le _ _) (Int.le_refl _)

theorem Inv.verif {c : Ctx} (h : Inv S x y z c) {v : Verif} (hlt : v.peer < c.nextId) (hrem : v.rem.isSet = true)
    (hk : v.hsKey.length = 32) (hb : S → ∃ k, v.sock = .bound k)
    (hd : ∀ p ∈ c.peers, p.id = v.peer → p.isDynamic = true) :
    Inv S x y z { c with verifs := c.verifs ++ [v] } :=
  { h with
    verifs := fun w hw => by
      rcases List.mem_append.1 hw with hw | hw
      · exact h.verifs w hw
      · cases List.mem_singleton.1 hw
        exact ⟨hlt, hrem, hk, hb, hd⟩ }

theorem wp_verifyPeer {c : Ctx} (h : Inv S x y z c) {p : Peer} (hp : p ∈ c.peers) {v : Verif} (hi : p.id = v.peer)
    (hdy : p.isDynamic = true) (hrem : v.rem.isSet = true) (hk : v.hsKey.length = 32) (hb : S → ∃ k, v.sock = .bound k)
    {Q : Tri → Ctx → Prop}
    (hQ : ∀ c' q t, Inv S x y z c' → q ∈ c'.peers → Verifs p q → c'.keys = c.keys → c'.socks = c.socks →
      (∀ E, Fr (· = p.id) nobody E c c') → (t = .yes → Env.onVerify = some true) → Q t c') :
    wp S (verifyPeer v.peer v) Q c := by
  unfold verifyPeer
  cases ho : Env.onVerify with
  | none => exact wp_bug.2 fun _ => h.dynv p hp hdy ho
  | some sync =>
    simp only []
    rw [wp_bind]
    unfold setVerifying
    rw [wp_bind, wp_get]
    refine wp_modP_verif h hp hi (v := c.now + MIN_VERIFY_INTERVAL)
      (by unfold MIN_VERIFY_INTERVAL PEER_STALE_TIME; omega) rfl fun c1 e1 h1 hm1 f1 v1 => ?_
    have hi1 : ({ p with
        verifyTimeout := c.now + MIN_VERIFY_INTERVAL
        resetTimeout := timeoutAdvance p.resetTimeout (c.now + MIN_VERIFY_INTERVAL) } : Peer).id = v.peer := hi
    revert hm1 v1 e1 hi1
    generalize ({ p with
        verifyTimeout := c.now + MIN_VERIFY_INTERVAL
        resetTimeout := timeoutAdvance p.resetTimeout (c.now + MIN_VERIFY_INTERVAL) } : Peer) = p1
    intro e1 hm1 v1 hi1
    rw [wp_bind, wp_drawBool]
    generalize decide (Env.tape c1.pos % 2 = 1) = ok
    refine wp_opaque fun c2 e2 => ?_
    have h2 : Inv S x y z c2 := by rw [e2]; exact h1.pos _
    have hm2 : p1 ∈ c2.peers := by rw [e2]; exact hm1
    have f2 : ∀ E, Fr (· = p.id) nobody E c c2 := fun E => by
      rw [e2, hi]; exact (f1 E).trans (Fr.pos _)
    have k2 : c2.keys = c.keys := by rw [e2, e1]
    have s2 : c2.socks = c.socks := by rw [e2, e1]
    refine wp_ite (fun hsync => ?_) (fun _ => wp_ite (fun _ => ?_) (fun _ => ?_))
    · rw [wp_bind]
      unfold setVerified
      rw [wp_bind, wp_get]
      refine wp_modP_verif h2 hm2 hi1 (v := c2.now + (if ok then VERIFY_VALID_TIME else 0))
        (by unfold VERIFY_VALID_TIME PEER_STALE_TIME; split <;> omega) rfl fun c3 e3 h3 hm3 f3 v3 => ?_
      rw [wp_pure]
      refine hQ c3 _ _ h3 hm3 (v1.trans v3) (by rw [e3, k2]) (by rw [e3, s2]) (fun E => (f2 E).trans ?_)
        fun _ => by rw [ho, hsync]
      rw [hi]; exact f3 E
    · rw [wp_pure]
      exact hQ c2 p1 _ h2 hm2 v1 k2 s2 f2 nofun
    · rw [wp_bind, wp_modify, wp_pure]
      have hlt := h2.idlt p1 hm2
      have hd : ∀ q ∈ c2.peers, q.id = v.peer → q.isDynamic = true := by
        intro q hq hqi
        rw [sorted_inj h2.ids hq hm2 (hqi.trans hi1.symm)]
        unfold Peer.isDynamic
        rw [stat_cfg v1.stat]; exact hdy
      refine hQ _ p1 _ (h2.verif (by rw [← hi1]; exact hlt) hrem hk hb hd) hm2 v1 k2 s2 (fun E => ?_) nofun
      exact ⟨(f2 E).now, (f2 E).nextId, (f2 E).cur, (f2 E).peers, (f2 E).objs, (f2 E).log⟩

theorem wp_handleDynamic {c : Ctx} (h : Inv S nobody nobody z c) {p : Peer} (hp : p ∈ c.peers)
    (hdy : p.isDynamic = true) {sock : Sock} {loc rem : Addr} {hs : Handshake.Hs} {k : Key} (hrem : rem.isSet = true)
    (hk : k.length = 32) (hb : S → ∃ n, sock = .bound n) {Q : Bool → Ctx → Prop}
    (hQt : ∀ c' q, Inv S nobody nobody z c' → q ∈ c'.peers → Verifs p q → c'.keys = c.keys → c'.socks = c.socks →
      (∀ E, Fr (· = p.id) nobody E c c') → Trusted c p → Q true c')
    (hQf : ∀ c', Inv S nobody nobody z c' →
      (∀ E : Eff → Prop, (∀ e, e.plain = true → E e) → Lg E c c') → Q false c') :
    wp S (handleDynamic sock loc rem p.id hs k) Q c := by
  unfold handleDynamic
  rw [wp_bind, wp_getP h.ids hp, wp_bind, wp_get]
  refine wp_ite (fun _ => ?_) (fun _ => ?_)
  · rw [wp_pure]
    cases ht : !timedOut p.verifyValid c.now
    · exact hQf c h fun E _ => Lg.refl
    · exact hQt c p h hp Verifs.refl rfl rfl (fun E => Fr.refl) fun _ => .inl (by simpa [timedOut] using ht)
  · rw [wp_bind]
    refine wp_verifyPeer (v := ⟨p.id, sock, loc, rem, k, hs.flags⟩) h hp rfl hdy hrem hk hb
      fun c1 q t h1 hq v1 k1 s1 f1 y1 => ?_
    cases t with
    | undef => exact hQf c1 h1 fun E _ => (f1 E).lg
    | yes => exact hQt c1 q h1 hq v1 k1 s1 f1 fun _ => .inr (y1 rfl)
    | no =>
      simp only []
      rw [wp_bind]
      refine wp_peerDelete h1 hq (stat_id v1.stat) (fun _ _ h => h) (fun _ _ h => h) (fun _ _ h => h)
        fun c2 ht h2 e2 => ?_
      rw [wp_pure]
      refine hQf c2 h2 fun E hE => (f1 E).lg.trans ?_
      rw [e2]
      refine ⟨rfl, Nat.le_refl _, Nat.le_refl _, _, rfl, fun e he => ?_⟩
      split at he
      · cases List.mem_singleton.1 he; exact hE _ rfl
      · cases he

theorem wp_hsVerified {c : Ctx} (h : Inv S nobody nobody z c) {p : Peer} (hp : p ∈ c.peers) {sock : Sock}
    {loc rem : Addr} {r : Rcv} {k : Key} (hrem : rem.isSet = true) (hk : k.length = 32)
    (hdyn : S → ∀ n, sock = .dyn n → p.sock = some (.dyn n)) {Q : Bool → Ctx → Prop}
    (hQt : ∀ c' q, Inv S nobody nobody z c' → q ∈ c'.peers → Verifs p q → c'.keys = c.keys → c'.socks = c.socks →
      (∀ E, Fr (· = p.id) nobody E c c') → Trusted c p → Q true c')
    (hQf : ∀ c', Inv S nobody nobody z c' →
      (∀ E : Eff → Prop, (∀ e, e.plain = true → E e) → Lg E c c') → Q false c') :
    wp S (hsVerified sock loc rem p.id k r) Q c := by
  unfold hsVerified
  rw [wp_bind, wp_getP h.ids hp]
  refine wp_ite (fun hdy => ?_) (fun hdy => ?_)
  · refine wp_handleDynamic h hp hdy hrem hk (fun hs => ?_) hQt hQf
    cases sock with
    | bound n => exact ⟨n, rfl⟩
    | dyn n => exact absurd (hdyn hs n rfl) (((h.peer p hp).dynr hdy).2 n)
  · rw [wp_pure]
    exact hQt c p h hp Verifs.refl rfl rfl (fun E => Fr.refl) fun hd => absurd hd hdy

theorem wp_hsInitial {c : Ctx} (h : Inv S x y z c) {p : Peer} (hp : p ∈ c.peers) {i : Nat} (hi : p.id = i)
    (hst : p.state ≠ .inactive) {sock : Sock} {loc rem : Addr} {k : Key} (hk : k.length = 32) {flags : UInt8}
    (hS : S → EnvOk ∧ rem.isSet = true ∧ Live c sock) {Q : Unit → Ctx → Prop}
    (hQ : ∀ c', Inv S x y z c' →
      (∀ E : Eff → Prop, (∀ e, e.plain = true → E e) → Fr (· = i) nobody E c c') → Q () c') :
    wp S (hsInitial sock loc rem i k flags) Q c := by
  subst hi
  unfold hsInitial
  rw [wp_bind, wp_getP h.ids hp, wp_bind, wp_get]
  refine wp_ite (fun _ => ?_) (fun _ => ?_)
  · rw [wp_pure]; exact hQ c h fun E _ => Fr.refl
  · rw [wp_bind]
    refine wp_modP_same h hp rfl rfl rfl rfl rfl ⟨rfl, rfl, fun _ => rfl⟩ rfl rfl rfl rfl rfl id id
      (fun _ _ _ => Int.le_refl _) fun c1 e1 h1 hm1 f1 => ?_
    refine wp_respondHandshake h1 hm1 rfl hst hk (fun hs => ?_) fun c2 h2 f2 => ?_
    · obtain ⟨h1, h2, h3⟩ := hS hs
      exact ⟨h1, h2, h3.of (by rw [e1])⟩
    · exact hQ c2 h2 fun E hE => (f1 E).trans (f2 E hE)

/-- Handling a verification that has finished (src/protocols/ec25519_fhmqvc/handshake.c:601-613) -/
theorem wp_handleVerifyReturn {c : Ctx} (h : Inv S x y z c) {p : Peer} (hp : p ∈ c.peers) {v : Verif} {ok : Bool}
    (hi : p.id = v.peer) (hst : p.state ≠ .inactive) (hk : v.hsKey.length = 32)
    (hS : S → EnvOk ∧ v.rem.isSet = true ∧ Live c v.sock) {Q : Unit → Ctx → Prop}
    (hQ : ∀ c', Inv S x y z c' →
      (∀ E : Eff → Prop, (∀ e, e.plain = true → E e) → Fr (· = v.peer) nobody E c c') → Q () c') :
    wp S (handleVerifyReturn v ok) Q c := by
  unfold handleVerifyReturn
  refine wp_ite (fun _ => ?_) (fun _ => ?_)
  · rw [wp_pure]; exact hQ c h fun E _ => Fr.refl
  · rw [wp_bind, wp_get, wp_bind]
    refine wp_modP_same h hp hi rfl rfl rfl rfl ⟨rfl, rfl, fun _ => rfl⟩ rfl rfl rfl rfl rfl id id
      (fun _ _ _ => Int.le_refl _) fun c1 e1 h1 hm1 f1 => ?_
    refine wp_respondHandshake h1 hm1 hi hst hk (fun hs => ?_) fun c2 h2 f2 => ?_
    · obtain ⟨h1, h2, h3⟩ := hS hs
      exact ⟨h1, h2, h3.of (by rw [e1])⟩
    · exact hQ c2 h2 fun E hE => (f1 E).trans (f2 E hE)

theorem wp_hsKnown {c : Ctx} {p : Peer} (h : Inv S nobody nobody z c) (hp : p ∈ c.peers) {i : Nat} (hi : p.id = i)
    {sock : Sock} {loc rem : Addr} {r : Rcv} (hrem : rem.isSet = true)
    (hst : p.state ≠ .inactive) (hS : S → EnvOk ∧ RcvOk r ∧ Live c sock)
    (hdyn : S → ∀ n, sock = .dyn n → p.sock = some (.dyn n)) {Q : Unit → Ctx → Prop}
    (hQ : ∀ c', Inv S nobody nobody z c' → (∀ E : Eff → Prop, KnownE r c p E → Lg E c c') → Q () c') :
    wp S (hsKnown sock loc rem i r) Q c := by
  subst hi
  unfold hsKnown
  rw [wp_bind]
  refine wp_hsCheck h hp hst (fun hs => ⟨(hS hs).1, hrem, (hS hs).2.2⟩) (fun hs => (hS hs).2.1) (fun k hk => ?_)
    fun c1 h1 f1 => ?_
  · simp only []
    rw [wp_bind]
    have hkl := hk.key.length
    refine wp_hsVerified h hp hrem hkl hdyn (fun c1 q h1 hq v1 k1 s1 f1 htr => ?_) fun c1 h1 f1 => ?_
    · rw [if_neg (by simp)]
      have hq' : q.state = p.state ∧ q.sock = p.sock ∧ q.lastSerial = p.lastSerial := by
        obtain ⟨_, _, _, rfl⟩ := v1; exact ⟨rfl, rfl, rfl⟩
      have hqi := stat_id v1.stat
      have hst1 : q.state ≠ .inactive := by rw [hq'.1]; exact hst
      have hl1 : S → Live c1 sock := fun hs => (hS hs).2.2.of s1
      refine wp_ite (fun _ => ?_) (fun _ => ?_)
      · refine wp_hsInitial h1 hq hqi hst1 hkl (fun hs => ⟨(hS hs).1, hrem, hl1 hs⟩) fun c2 h2 f2 => ?_
        exact hQ c2 h2 fun E hE => (f1 E).lg.trans (f2 E hE.1).lg
      · rw [← hqi]
        have hroom : Room c1.peers q := (room_of_mayConnect hk.may).fr (stat_group v1.stat)
          (fun h => hq'.1.trans h) (f1 fun _ => True)
        refine wp_hsReply (c0 := c) (p0 := p) ⟨h1, hq, hrem, hst1, hroom, hkl, fun hs => (hS hs).1, hl1,
          fun hs n hn => by rw [hq'.2.1]; exact hdyn hs n hn, fun hs => (hS hs).2.1⟩ hk v1.stat.symm hq'.2.2.symm k1
          (f1 fun _ => True).now htr fun c2 h2 f2 => ?_
        exact hQ c2 h2 fun E hE => (f1 E).lg.trans (f2 E hE).lg
    · rw [if_pos (by rfl), wp_pure]
      exact hQ c1 h1 fun E hE => f1 E hE.1
  · exact hQ c1 h1 fun E hE => (f1 E hE.1).lg

/-! ### Finding the sender -/

theorem findKeyAddr_some {key : Key} {a : Addr} {i : Nat} : ∀ {ps : List Peer} {ret : Option Nat},
    findKeyAddr key a ps ret = .peer i → ret = some i ∨
      ∃ p ∈ ps, p.id = i ∧ p.key = key ∧ p.isEnabled = true ∧ matchesAddress p a = true := by
  intro ps
  induction ps with
  | nil =>
    intro ret h
    cases ret <;> simp only [findKeyAddr] at h
    · cases h
    · cases h; exact .inl rfl
  | cons p ps ih =>
    intro ret h
    simp only [findKeyAddr] at h
    split at h
    · rcases ih h with h | ⟨q, hq, hr⟩
      · exact .inl h
      · exact .inr ⟨q, List.mem_cons_of_mem _ hq, hr⟩
    · rename_i hen
      split at h
      · rename_i hk
        split at h
        · cases h
        · rename_i hm
          rcases ih h with h | ⟨q, hq, hr⟩
          · cases h
            exact .inr ⟨p, List.mem_cons_self, rfl, hk, by simpa using hen, by simpa using hm⟩
          · exact .inr ⟨q, List.mem_cons_of_mem _ hq, hr⟩
      · split at h
        · cases h
        · rcases ih h with h | ⟨q, hq, hr⟩
          · exact .inl h
          · exact .inr ⟨q, List.mem_cons_of_mem _ hq, hr⟩

theorem wp_matchSenderKey {c : Ctx} (h : Inv S nobody nobody z c) {sock : Sock} {rem : Addr} {peer : Option Nat}
    {key : Key} (ha : PeerArg c peer) (hl : S → Live c sock)
    (hd : S → ∀ n j, sock = .dyn n → (n, j) ∈ c.socks → peer = some j) {Q : Found → Ctx → Prop}
    (hQp : ∀ p, p ∈ c.peers → p.key = key → p.state ≠ .inactive → p.isEnabled = true → Q (.peer p.id) c)
    (hQn : (∀ i, peer = some i → ∃ p ∈ c.peers, p.id = i ∧ p.key ≠ key) → Q .noent c) (hQe : Q .perm c) :
    wp S (matchSenderKey sock rem peer key) Q c := by
  have found : (∀ i, peer = some i → ∃ p ∈ c.peers, p.id = i ∧ p.key ≠ key) →
      Q (findKeyAddr key rem c.peers none) c := by
    intro hn
    cases hf : findKeyAddr key rem c.peers none with
    | perm => exact hQe
    | noent => exact hQn hn
    | peer i =>
      rcases findKeyAddr_some hf with h1 | ⟨p, hp, rfl, hk, he, _⟩
      · cases h1
      · refine hQp p hp hk (fun hs => ?_) he
        rw [(h.act p hp id).1 hs] at he; cases he
  have main : wp S (match peer with
      | none => pure (findKeyAddr key rem c.peers none)
      | some i => do
        let p ← getP i
        if p.key = key then pure (.peer i)
        else if ownsAddress p rem then pure .perm
        else pure (findKeyAddr key rem c.peers none)) Q c := by
    cases peer with
    | none =>
      simp only []
      rw [wp_pure]; exact found (fun i hi => by cases hi)
    | some i =>
      obtain ⟨p, hp, rfl, hst⟩ := ha i rfl
      simp only []
      rw [wp_bind, wp_getP h.ids hp]
      refine wp_ite (fun hk => ?_) (fun hk => wp_ite (fun _ => ?_) (fun _ => ?_))
      · rw [wp_pure]
        refine hQp p hp hk hst ?_
        cases he : p.isEnabled with
        | true => rfl
        | false => exact absurd ((h.act p hp id).2 he) hst
      · exact hQe
      · rw [wp_pure]
        exact found fun i hi => ⟨p, hp, by cases hi; rfl, hk⟩
  unfold matchSenderKey
  rw [wp_bind]
  refine wp_sockPeer hl (fun k hk => ?_) fun n j hn hm => ?_
  · rw [if_neg (by simp), wp_bind, wp_get]; exact main
  · refine wp_ite (fun hc => wp_bug.2 fun hs => hc.2 (hd hs n j hn hm)) (fun _ => ?_)
    rw [wp_bind, wp_get]; exact main

/-! ### Adding dynamic peers -/

def newDyn (key : Key) (n serial : Nat) : Peer :=
  { group := Env.verifyGroup, cfg := .dynamic, key := key, id := n, lastSerial := serial }

theorem wp_addDynamic {c : Ctx} (h : Inv S nobody nobody z c) {sock : Sock} {key : Key} (hkl : key.length = 32)
    (hl : S → Live c sock) {Q : Option Nat → Ctx → Prop} (hQn : Q none c)
    (hQs : ∀ c' p, Inv S nobody nobody z c' → p ∈ c'.peers → p.id = c.nextId → p.key = key →
      p.group = Env.verifyGroup → p.mtu = 0 → p.isDynamic = true ∧ p.verifyValid = c.now →
      p.state ≠ .inactive → (∃ k, sock = .bound k) → Env.onVerify ≠ none →
      (∀ q ∈ c.peers, q.key ≠ key) → mayConnect c.peers { group := Env.verifyGroup, cfg := .dynamic, key := key } = true →
      c'.keys = c.keys → (∀ E : Eff → Prop, (∀ e, e.plain = true → E e) → Lg E c c') → Q (some c.nextId) c') :
    wp S (addDynamic sock key) Q c := by
  unfold addDynamic
  refine wp_ite (fun _ => hQn) (fun hov => ?_)
  rw [wp_bind]
  refine wp_sockPeer hl (fun k hk => ?_) fun n j hn hm => ?_
  · rw [wp_bind, wp_get, if_neg (by simp)]
    refine wp_ite (fun _ => hQn) (fun _ => wp_ite (fun _ => hQn) (fun hf => wp_ite (fun _ => hQn) (fun _ => ?_)))
    have hf' : findKey c.peers key = none := by simpa using hf
    simp only []
    refine wp_ite (fun _ => hQn) (fun hmc => ?_)
    have hmc' : mayConnect c.peers { group := Env.verifyGroup, cfg := .dynamic, key := key } = true := by
      simpa using hmc
    rw [wp_bind]
    refine wp_peerAdd (y' := (· = c.nextId)) h (q := { group := Env.verifyGroup, cfg := .dynamic, key := key })
      ⟨rfl, rfl, rfl, rfl, rfl, rfl, fun r hr => (by cases hr), fun _ => rfl, hkl, rfl, fun _ => hov⟩ (fun _ => .inl hf')
      (fun j hj => absurd hj id) rfl (fun o ho => ?_) fun c1 h1 e1 n1 i1 k1 l1 => ?_
    · change findKey c.peers key = some o at ho
      rw [hf'] at ho; cases ho
    · have hres : addResult c.peers { group := Env.verifyGroup, cfg := .dynamic, key := key } c.nextId
          c.keys.cur.serial = (.added c.nextId, c.peers ++ [newDyn key c.nextId c.keys.cur.serial]) := by
        unfold addResult
        simp only [hf']
        rfl
      rw [hres] at e1 ⊢
      simp only [] at e1 ⊢
      have hp1 : newDyn key c.nextId c.keys.cur.serial ∈ c1.peers := by rw [e1]; simp
      obtain ⟨l, hl1, hl2⟩ := l1
      have hlog : sessLog c1.log = sessLog c.log := by
        have : sessLog l = [] := by
          unfold sessLog
          rw [List.filterMap_eq_nil_iff]
          intro e he
          obtain ⟨i, rfl⟩ := hl2 e he
          rfl
        rw [hl1, sessLog_append, this, List.append_nil]
      rw [wp_bind]
      refine (wp_modP (p := newDyn key c.nextId c.keys.cur.serial) h1.ids hp1 rfl).2 ?_
      rw [updPeers_const (p := newDyn key c.nextId c.keys.cur.serial) h1.ids hp1]
      refine wp_opaque fun c2 e2 => ?_
      have hk1 := h1.peer _ hp1
      have h2 : Inv S nobody (· = c.nextId) z c2 := by
        rw [e2]
        refine h1.upd' hp1 rfl rfl rfl rfl rfl (.inr ⟨hov, fun s hs => ?_⟩) rfl rfl rfl rfl rfl rfl
          (fun _ _ => id) (fun _ _ => id) (fun _ _ => id) (h1.ht.upd h1.ids hp1 rfl rfl) (h1.uniq.upd hp1 rfl (.inl rfl))
          (h1.socks.upd hp1 rfl rfl) (h1.refs.upd h1.ids hp1 rfl) (h1.eth.upd h1.ids hp1 rfl id)
          (h1.limits.upd h1.ids hp1 rfl id) ?_ (fun hn => absurd rfl hn) ?_ ?_
        · rw [hlog] at hs
          exact Nat.ne_of_lt (h.log.lt s hs).1
        · exact ⟨hk1.inact, hk1.idle, hk1.est, hk1.sock, hk1.oldM, hk1.sessM, hk1.rem, hk1.addrs, hk1.hs, hk1.dynr,
            hk1.key, hk1.ifc⟩
        · intro hs; cases hs
        · intro _ hs; exact absurd rfl hs
      have hp2 : newDyn key c.nextId (c.keys.cur.serial - 1) ∈ c2.peers := by
        rw [e2]; exact mem_upd_self (p := newDyn key c.nextId c.keys.cur.serial) hp1
      rw [wp_bind]
      refine wp_peerReset (x' := nobody) (y' := nobody) (z' := z) h2 hp2 rfl (fun _ => id) (fun _ _ => id)
        (fun j hj hj' => hj hj') (fun _ _ => id) fun c3 q h3 hq hcl hrt f3 => ?_
      rw [wp_pure]
      obtain ⟨ht, r, n, e3⟩ := hrt
      refine hQs c3 q h3 hq (stat_id hcl.stat) (stat_key hcl.stat) (stat_group hcl.stat) (congrArg Stat.mtu hcl.stat)
        ⟨?_, ?_⟩ (fun hs => ?_) ⟨k, hk⟩
        hov (findKey_none hf') hmc' ?_ fun E hE => ?_
      · unfold Peer.isDynamic; rw [stat_cfg hcl.stat]; rfl
      · rw [hcl.verify.2, e2]; exact n1
      · have he := hcl.act.1 hs
        unfold Peer.isEnabled at he
        rw [stat_cfg hcl.stat] at he
        cases he
      · rw [e3, e2]; exact k1
      · refine Lg.trans (c' := c2) ?_ (f3 E (hE _ rfl)).lg
        rw [e2]
        exact ⟨n1, i1, Nat.le_of_eq (by rw [k1]), l, hl1, fun e he => by obtain ⟨i, rfl⟩ := hl2 e he; exact hE _ rfl⟩
  · rw [wp_bind, wp_get, if_pos (by simp)]; exact hQn

/-! ### The handler -/

/-- Who a handshake from `key` may set up a session for: an enabled peer with that key, or a new dynamic one. -/
def Joins (c : Ctx) (key : Key) (id group mtu last : Nat) : Prop :=
  (∃ p ∈ c.peers, p.id = id ∧ p.key = key ∧ p.group = group ∧ p.getMtu = mtu ∧ p.lastSerial = last ∧ p.isEnabled = true ∧
    mayConnect c.peers p = true ∧ Trusted c p) ∨
  (id = c.nextId ∧ Env.onVerify = some true ∧ group = Env.verifyGroup ∧ mtu = Env.mtu ∧ (∀ q ∈ c.peers, q.key ≠ key) ∧
    mayConnect c.peers { group := Env.verifyGroup, cfg := .dynamic, key := key } = true)

/-- What handling a handshake packet may log. -/
def HandleE (r : Rcv) (c : Ctx) (ks : Protocol.HKeys Nat) (E : Eff → Prop) : Prop :=
  (∀ e, e.plain = true → E e) ∧
    ∀ key id group mtu last serial hsKey m init, Has r Handshake.RECORD_SENDER_KEY 32 key →
      Auth r ks c.now key group mtu serial hsKey m init → last < serial → Joins c key id group mtu last →
      EstE id key serial hsKey m init E

theorem wp_handshakeHandle {c : Ctx} (h : Inv S nobody nobody z c) {sock : Sock} {loc rem : Addr}
    {peer : Option Nat} {r : Rcv} (ha : PeerArg c peer) (hrem : rem.isSet = true)
    (hS : S → EnvOk ∧ RcvOk r ∧ Live c sock)
    (hd : S → ∀ n j, sock = .dyn n → (n, j) ∈ c.socks → peer = some j ∧
      ∃ p ∈ c.peers, p.id = j ∧ ∀ key, Has r Handshake.RECORD_SENDER_KEY 32 key → p.key = key) {Q : Unit → Ctx → Prop}
    (hQ : ∀ c' fresh, Inv S nobody nobody z c' →
      (∀ E : Eff → Prop, HandleE r c (c.keys.maintenance c.now fresh) E → Lg E c c') → Q () c') :
    wp S (handshakeHandle sock loc rem peer r) Q c := by
  unfold handshakeHandle
  rw [wp_bind]
  refine wp_protoMaintenance h fun c1 e1 h1 _ f1 => ?_
  have p1 : c1.peers = c.peers := by rw [e1]
  have s1 : c1.socks = c.socks := by rw [e1]
  have n1 : c1.now = c.now := by rw [e1]
  have i1 : c1.nextId = c.nextId := by rw [e1]
  have k1 : c1.keys = c.keys.maintenance c.now (Env.tape c.pos) := by rw [e1]
  have lg : ∀ E, Lg E c c1 := fun E => (f1 nobody nobody E).lg
  have no : Q () c1 := hQ c1 (Env.tape c.pos) h1 fun E _ => lg E
  have hS1 : S → EnvOk ∧ RcvOk r ∧ Live c1 sock := fun hs => ⟨(hS hs).1, (hS hs).2.1, (hS hs).2.2.of s1⟩
  rw [wp_bind]
  refine wp_field (fun hs => (hS hs).2.1) (by decide) (fun _ => no) fun key hkey => ?_
  simp only []
  have ha1 : PeerArg c1 peer := by unfold PeerArg; rw [p1]; exact ha
  rw [wp_bind]
  refine wp_matchSenderKey h1 ha1 (fun hs => (hS1 hs).2.2) (fun hs n j hn hm => ?_) (fun p hp hk hst hen => ?_)
    (fun hno => ?_) no
  · rw [s1] at hm; exact (hd hs n j hn hm).1
  · simp only []
    refine wp_hsKnown h1 hp rfl hrem hst hS1 (fun hs n hn => ?_) fun c2 h2 f2 => ?_
    · subst hn
      obtain ⟨j, hj⟩ := (hS1 hs).2.2
      obtain ⟨_, q, hq, hqi, hqk⟩ := hd hs n j rfl (by rw [← s1]; exact hj)
      rw [← p1] at hq
      have : q = p := keys_inj h1.keys hq hp ((hqk key hkey).trans hk.symm)
      subst this
      exact (h1.socks.own q hq n).2 (by rw [hqi]; exact hj)
    · refine hQ c2 (Env.tape c.pos) h2 fun E hE => (lg E).trans (f2 E ⟨hE.1, fun serial hsKey m init hau hlt hmc htr => ?_⟩)
      refine hE.2 p.key p.id p.group p.getMtu p.lastSerial serial hsKey m init (by rw [hk]; exact hkey) ?_ hlt
        (.inl ⟨p, ?_, rfl, rfl, rfl, rfl, rfl, hen, ?_, ?_⟩)
      · rw [← k1, ← n1]; exact hau
      · rw [← p1]; exact hp
      · rw [← p1]; exact hmc
      · unfold Trusted; rw [← n1]; exact htr
  · simp only []
    rw [wp_bind]
    refine wp_addDynamic h1 hkey.length (fun hs => (hS1 hs).2.2) no
      fun c2 p h2 hp hpi hpk hpg hpm hpv hst hb _ hnk hmc k2 l2 => ?_
    simp only []
    obtain ⟨b, rfl⟩ := hb
    refine wp_hsKnown (sock := .bound b) h2 hp hpi hrem hst (fun hs => ⟨(hS hs).1, (hS hs).2.1, trivial⟩)
      (fun hs n hn => by cases hn)
      fun c3 h3 f3 => ?_
    refine hQ c3 (Env.tape c.pos) h3 fun E hE => (lg E).trans ((l2 E hE.1).trans (f3 E ⟨hE.1,
      fun serial hsKey m init hau hlt _ htr => ?_⟩))
    refine hE.2 p.key p.id p.group p.getMtu p.lastSerial serial hsKey m init (by rw [hpk]; exact hkey) ?_ hlt
      (.inr ⟨hpi.trans i1, ?_, hpg, ?_, ?_, ?_⟩)
    · rw [← k1, ← k2, ← n1, ← (l2 (fun _ => True) fun _ _ => trivial).now]; exact hau
    · have hn2 := (l2 (fun _ => True) fun _ _ => trivial).now
      rcases htr hpv.1 with h0 | h0
      · rw [hpv.2, hn2] at h0; exact absurd h0 (Int.lt_irrefl _)
      · exact h0
    · unfold Peer.getMtu; rw [hpm]; simp
    · rw [← p1, hpk]; exact hnk
    · rw [← p1, hpk]; exact hmc

end Fastd.Daemon
