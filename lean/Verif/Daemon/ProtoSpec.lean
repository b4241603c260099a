import Verif.Daemon.TaskSpec
import Verif.Daemon.Proto

/-!
# The handshake and the invariant
-/

namespace Fastd.Daemon

set_option linter.unusedSectionVars false

variable [Env] {S : Prop} {x y z : Nat → Prop}

/-! ### `supersede_session` -/

/-- The old session `o` of a peer and the live method sessions after superseding its session by one with method `m`. -/
structure Superseded (m : Nat) (c : Ctx) (p : Peer) (o : Session) (objs : Nat → Option Env.Sess) : Prop where
  oldM : o.method.isSome = o.mstate.isSome
  meth : ∀ m', o.method = some m' → m' = m
  ref : ∀ k, o.mstate = some k → k ∈ p.refs ∧ (objs k).isSome = true
  gone : ∀ k ∈ p.refs, o.mstate ≠ some k → objs k = none
  same : ∀ k, k ∉ p.refs → objs k = c.objs k
  keep : validNow c p.sess = true → validNow c p.old = false → p.sess.method = some m →
    o = p.sess ∧ ∀ k s, p.sess.mstate = some k → c.objs k = some s → objs k = some (Env.sessSuperseded m s c.now)
  stay : validNow c p.old = true → p.old.method = some m → o = p.old

theorem validNow_some {c : Ctx} {s : Session} (h : validNow c s = true) :
    ∃ m k o, s.method = some m ∧ s.mstate = some k ∧ c.objs k = some o := by
  unfold validNow at h
  split at h
  · rename_i m k hm hk
    split at h
    · rename_i o ho
      exact ⟨m, k, o, hm, hk, ho⟩
    · cases h
  · cases h

theorem without_some {objs : Nat → Option Env.Sess} {l : List Nat} {k : Nat} (h : k ∉ l) :
    without objs l k = objs k := if_neg h

theorem without_none {objs : Nat → Option Env.Sess} {l : List Nat} {k : Nat} (h : k ∈ l) : without objs l k = none :=
  if_pos h

theorem wp_supersedeSecond {c : Ctx} (hs : Sorted c.peers) {p : Peer} (hp : p ∈ c.peers) {m : Nat}
    (hm : p.old.method.isSome = p.old.mstate.isSome) (ho : ∀ k, p.old.mstate = some k → (c.objs k).isSome = true)
    {Q : Unit → Ctx → Prop}
    (hn : p.old.method = none → Q () c)
    (hd : ∀ m' k, p.old.method = some m' → p.old.mstate = some k → m' ≠ m → Q () { c with
      peers := updPeers c.peers p.id fun _ => { p with old := {} }
      objs := without c.objs [k] })
    (hk : ∀ k o, p.old.method = some m → p.old.mstate = some k → c.objs k = some o →
      Q () (setCtx c k (Env.sessSuperseded m o c.now))) : wp S (supersedeSecond p.id m) Q c := by
  unfold supersedeSecond
  rw [wp_bind, wp_getP hs hp]
  cases hme : p.old.method with
  | none => exact hn hme
  | some m' =>
    rw [hme] at hm
    obtain ⟨k, hst⟩ := Option.isSome_iff_exists.1 hm.symm
    obtain ⟨o, hok⟩ := Option.isSome_iff_exists.1 (ho k hst)
    simp only []
    refine wp_ite (fun hne => ?_) (fun heq => ?_)
    · rw [wp_bind]
      refine wp_freeState ho ?_
      refine (wp_modP (p := p) (by exact hs) (by exact hp) rfl).2 ?_
      simp only [updPeers_const hs hp]
      rw [hst]
      exact hd m' k hme hst hne
    · have heq' : m' = m := by simpa using heq
      subst heq'
      rw [hst]
      show wp S (getObj k >>= _) Q c
      rw [wp_bind, wp_getObj hok, wp_bind, wp_get]
      show wp S (modify fun c => setCtx c k _) _ _
      rw [wp_modify]
      exact hk k o hme hst hok

theorem wp_supersede {c : Ctx} (h : Inv S nobody y z c) {p : Peer} (hp : p ∈ c.peers) {m : Nat} {Q : Unit → Ctx → Prop}
    (hQ : ∀ o objs, Superseded m c p o objs → Q () { c with
      peers := updPeers c.peers p.id fun _ => { p with old := o }
      objs := objs }) : wp S (supersede p.id m) Q c := by
  have hk := h.peer p hp
  have hs := h.ids
  have hnd := nodup_refs h.refs.nodup hp
  have hrl : ∀ k ∈ p.refs, (c.objs k).isSome = true := fun k hkr => h.refs.obj hp hkr
  have hdis : ∀ k, p.old.mstate = some k → p.sess.mstate ≠ some k := by
    intro k h1 h2
    unfold Peer.refs at hnd
    rw [h1, h2] at hnd
    simp at hnd
  have mo : ∀ k, p.old.mstate = some k → k ∈ p.refs := by
    intro k h1; unfold Peer.refs; rw [h1]; simp
  have ms : ∀ k, p.sess.mstate = some k → k ∈ p.refs := by
    intro k h1; unfold Peer.refs; rw [h1]; simp
  have mr : ∀ k ∈ p.refs, p.old.mstate = some k ∨ p.sess.mstate = some k := by
    intro k hkr
    unfold Peer.refs at hkr
    rw [List.mem_append, Option.mem_toList, Option.mem_toList] at hkr
    exact hkr
  unfold supersede supersedeFirst
  rw [wp_bind, wp_bind, wp_getP hs hp, wp_bind]
  -- the condition
  have keep : ∀ {R : Bool → Ctx → Prop}, R (validNow c p.sess && !validNow c p.old) c →
      wp S (supersedeKeep p) R c := by
    intro R hR
    unfold supersedeKeep
    rw [wp_bind]
    refine wp_sessionValid (h.aliveS hp) ?_
    refine wp_ite (fun hv => ?_) (fun hv => ?_)
    · rw [wp_bind]
      refine wp_sessionValid (h.aliveO hp) ?_
      rw [wp_pure]
      rw [hv, Bool.true_and] at hR
      exact hR
    · rw [wp_pure]
      rw [Bool.not_eq_true] at hv
      rw [hv, Bool.false_and] at hR
      exact hR
  refine keep ?_
  refine wp_ite (fun hc => ?_) (fun hc => ?_)
  · -- the session becomes the old one
    have hc' : validNow c p.sess = true ∧ validNow c p.old = false := by simpa using hc
    obtain ⟨ms', ks, os, hms, hks, hos⟩ := validNow_some hc'.1
    rw [wp_bind]
    refine wp_freeSession (by rw [hk.oldM]; exact id) (fun k hko => hrl k (mo k hko)) ?_
    refine (wp_modP (p := p) (by exact hs) (by exact hp) rfl).2 ?_
    simp only [updPeers_const hs hp]
    refine wp_opaque fun c1 e1 => ?_
    have p1 : c1.peers = updPeers c.peers p.id fun _ => { p with old := p.sess } := by rw [e1]
    have o1 : c1.objs = without c.objs p.old.mstate.toList := by rw [e1]
    have n1 : c1.now = c.now := by rw [e1]
    have hs1 : Sorted c1.peers := by
      rw [p1]; exact sorted_updPeers hs (by intro q _ hq; exact hq.symm)
    have hm1 : ({ p with old := p.sess } : Peer) ∈ c1.peers := by rw [p1]; exact mem_upd_self hp
    have hksn : ks ∉ p.old.mstate.toList := by
      rw [Option.mem_toList]; exact fun h1 => hdis ks h1 hks
    have goneO : ∀ k, p.old.mstate = some k → c1.objs k = none := by
      intro k hko
      rw [o1]; exact without_none (by rw [hko]; simp)
    have sameO : ∀ k, p.old.mstate ≠ some k → c1.objs k = c.objs k := by
      intro k hko
      rw [o1]; exact without_some (by rw [Option.mem_toList]; exact hko)
    refine wp_supersedeSecond (p := { p with old := p.sess }) hs1 hm1 ?_ ?_ ?_ ?_ ?_
    · show p.sess.method.isSome = p.sess.mstate.isSome
      rw [hms, hks]; rfl
    · intro k hk1
      have hk2 : p.sess.mstate = some k := hk1
      rw [sameO k fun h1 => hdis k h1 hk2]
      exact hrl k (ms k hk2)
    · intro hn
      have : p.sess.method = none := hn
      rw [hms] at this; cases this
    · intro m' k hm' hk1 hne
      have hm2 : p.sess.method = some m' := hm'
      have hk2 : p.sess.mstate = some k := hk1
      have := hQ {} (without c1.objs [k]) ⟨rfl, fun _ h => (nomatch h), fun _ h => (nomatch h), ?_, ?_, ?_,
        fun h1 _ => (by rw [hc'.2] at h1; cases h1)⟩
      · rw [p1, updPeers_updPeers (by intro q _ hq; exact hq.symm), e1]
        rw [e1] at this
        exact this
      · intro j hj _
        rcases mr j hj with h1 | h1
        · by_cases hjk : j = k
          · exact without_none (by simp [hjk])
          · rw [without_some (by simpa using hjk)]; exact goneO j h1
        · rw [hk2] at h1; cases h1; exact without_none (by simp)
      · intro j hj
        rw [without_some (by simp; intro he; exact hj (he ▸ ms k hk2)), sameO j fun h1 => hj (mo j h1)]
      · intro _ _ h3
        rw [hm2] at h3; cases h3; exact absurd rfl hne
    · intro k o hm' hk1 ho
      have hm2 : p.sess.method = some m := hm'
      have hk2 : p.sess.mstate = some k := hk1
      have := hQ p.sess (setCtx c1 k (Env.sessSuperseded m o c1.now)).objs ⟨?_, ?_, ?_, ?_, ?_, ?_,
        fun h1 _ => (by rw [hc'.2] at h1; cases h1)⟩
      · unfold setCtx
        rw [p1]
        rw [e1] at this ⊢
        exact this
      · rw [hms, hks]; rfl
      · intro m' h1
        rw [hm2] at h1; cases h1; rfl
      · intro j hj
        cases hk2.symm.trans hj
        exact ⟨ms k hk2, by show (if k = k then _ else _ : Option Env.Sess).isSome = true; rw [if_pos rfl]; rfl⟩
      · intro j hj hne
        have hjk : j ≠ k := fun he => hne (by rw [he]; exact hk2)
        show (if j = k then _ else c1.objs j) = none
        rw [if_neg hjk]
        exact goneO j ((mr j hj).resolve_right hne)
      · intro j hj
        show (if j = k then _ else c1.objs j) = _
        rw [if_neg fun he => hj (by rw [he]; exact ms k hk2), sameO j fun h1 => hj (mo j h1)]
      · intro _ _ _
        refine ⟨rfl, fun j s hj hjs => ?_⟩
        rw [hk2] at hj; cases hj
        have : o = s := by
          rw [sameO k fun h1 => hdis k h1 hk2, hjs] at ho
          cases ho; rfl
        show (if k = k then _ else _) = _
        rw [if_pos rfl, this, n1]
  · -- the session is dropped
    refine wp_freeSession hk.sessM (fun k hks => hrl k (ms k hks)) ?_
    refine wp_opaque fun c1 e1 => ?_
    have p1 : c1.peers = c.peers := by rw [e1]
    have o1 : c1.objs = without c.objs p.sess.mstate.toList := by rw [e1]
    have n1 : c1.now = c.now := by rw [e1]
    have goneS : ∀ k, p.sess.mstate = some k → c1.objs k = none := by
      intro k hko
      rw [o1]; exact without_none (by rw [hko]; simp)
    have sameS : ∀ k, p.sess.mstate ≠ some k → c1.objs k = c.objs k := by
      intro k hko
      rw [o1]; exact without_some (by rw [Option.mem_toList]; exact hko)
    have nokeep : validNow c p.sess = true → validNow c p.old = false → False := by
      intro h1 h2
      rw [h1, h2] at hc
      exact hc rfl
    refine wp_supersedeSecond (p := p) (by rw [p1]; exact hs) (by rw [p1]; exact hp) hk.oldM ?_ ?_ ?_ ?_
    · intro k hko
      rw [sameS k (hdis k hko)]
      exact hrl k (mo k hko)
    · intro hn
      have hon : p.old.mstate = none := by
        have := hk.oldM
        rw [hn] at this
        cases hms : p.old.mstate with
        | none => rfl
        | some k => rw [hms] at this; cases this
      have := hQ p.old c1.objs ⟨hk.oldM, fun m' h1 => (by rw [hn] at h1; cases h1),
        fun k h1 => (by rw [hon] at h1; cases h1), fun k hkr _ => ?_, fun k hkr => sameS k fun h1 => hkr (ms k h1),
        fun h1 h2 => (nokeep h1 h2).elim, fun _ _ => rfl⟩
      · have e : ({ p with old := p.old } : Peer) = p := rfl
        rw [e, updPeers_self hs hp, e1] at this
        rw [e1]; exact this
      · rcases mr k hkr with h1 | h1
        · rw [hon] at h1; cases h1
        · exact goneS k h1
    · intro m' k hm' hko hne
      have := hQ {} (without c1.objs [k]) ⟨rfl, fun _ h => (nomatch h), fun _ h => (nomatch h), ?_, ?_,
        fun h1 h2 => (nokeep h1 h2).elim,
        fun _ h2 => (by rw [hm'] at h2; cases h2; exact absurd rfl hne)⟩
      · rw [e1] at this ⊢
        exact this
      · intro j hj _
        rcases mr j hj with h1 | h1
        · rw [hko] at h1; cases h1; exact without_none (by simp)
        · by_cases hjk : j = k
          · exact without_none (by simp [hjk])
          · rw [without_some (by simpa using hjk)]; exact goneS j h1
      · intro j hj
        rw [without_some (by simp; intro he; exact hj (he ▸ mo k hko)), sameS j fun h1 => hj (ms j h1)]
    · intro k o hm' hko ho
      have := hQ p.old (setCtx c1 k (Env.sessSuperseded m o c1.now)).objs ⟨hk.oldM, ?_, ?_, ?_, ?_,
        fun h1 h2 => (nokeep h1 h2).elim, fun _ _ => rfl⟩
      · have e : ({ p with old := p.old } : Peer) = p := rfl
        rw [e, updPeers_self hs hp] at this
        unfold setCtx
        rw [e1] at this ⊢
        exact this
      · intro m' h1
        rw [hm'] at h1; cases h1; rfl
      · intro j hj
        cases hko.symm.trans hj
        exact ⟨mo k hko, by show (if k = k then _ else _ : Option Env.Sess).isSome = true; rw [if_pos rfl]; rfl⟩
      · intro j hj hne
        have hjk : j ≠ k := fun he => hne (by rw [he]; exact hko)
        show (if j = k then _ else c1.objs j) = none
        rw [if_neg hjk]
        exact goneS j ((mr j hj).resolve_left hne)
      · intro j hj
        show (if j = k then _ else c1.objs j) = _
        rw [if_neg fun he => hj (by rw [he]; exact mo k hko), sameS j fun h1 => hj (ms j h1)]

/-! ### `new_session` -/

theorem Inv.superseded {c c' : Ctx} (h : Inv S nobody y z c) {p : Peer} (hp : p ∈ c.peers) {m : Nat} {o : Session}
    {objs : Nat → Option Env.Sess} (hsup : Superseded m c p o objs) {s : Session} {n : Nat} (hn : p.lastSerial ≤ n)
    (hpeers : c'.peers = updPeers c.peers p.id fun _ => { p with old := o, sess := s, lastSerial := n })
    (hsess : s.mstate.isSome = true → s.method.isSome = true) (hnew : ∀ k, s.mstate = some k → k = c.nextObj)
    (hobj : ∀ k, s.mstate = some k → (c'.objs k).isSome = true ∧ k < c'.nextObj)
    (hobjs : ∀ k, s.mstate ≠ some k → c'.objs k = objs k) (hno : c.nextObj ≤ c'.nextObj)
    (h2 : c'.nextId = c.nextId) (h3 : c'.ht = c.ht) (h4 : c'.eth = c.eth)
    (h7 : c'.socks = c.socks) (h8 : c'.nextSock = c.nextSock) (h9 : c'.resolves = c.resolves)
    (h10 : c'.verifs = c.verifs) (h11 : c'.keys = c.keys) (h12 : c'.now = c.now)
    (h13 : sessLog c'.log = sessLog c.log) : Inv S (· = p.id) y z c' := by
  have hk := h.peer p hp
  refine h.upd hp hpeers rfl rfl rfl rfl hn h12 h2 h9 h10 h11 h13 (fun _ _ h => h.elim) (fun _ _ => id)
    (fun _ _ => id) ?_ ?_ ?_ ?_ ?_ ?_ ?_ (h.act p hp) (h.timers p hp) fun hz => h.sched p hp hz
  · rw [hpeers, h3]; exact h.ht.upd h.ids hp rfl rfl
  · rw [hpeers]; exact h.uniq.upd hp rfl (.inl rfl)
  · rw [hpeers, h7, h8]; exact h.socks.upd hp rfl rfl
  · have hrefs : ({ p with old := o, sess := s, lastSerial := n } : Peer).refs = o.mstate.toList ++ s.mstate.toList := rfl
    have hlt : ∀ k ∈ p.refs, k < c.nextObj := fun k hkr => h.refs.lt k (mem_refs_of_mem hp hkr)
    have hdis : ∀ k, o.mstate = some k → s.mstate ≠ some k := by
      intro k h1 h2
      have := hlt k (hsup.ref k h1).1
      rw [hnew k h2] at this
      exact Nat.lt_irrefl _ this
    rw [hpeers]
    refine h.refs.change h.ids hp rfl hno ?_ ?_ ?_ ?_
    · rw [hrefs, List.nodup_append]
      refine ⟨?_, ?_, ?_⟩
      · cases o.mstate <;> simp
      · cases s.mstate <;> simp
      · intro a ha b hb hab
        rw [Option.mem_toList] at ha hb
        subst hab
        exact hdis a ha hb
    · intro k hkr
      rw [hrefs, List.mem_append, Option.mem_toList, Option.mem_toList] at hkr
      rcases hkr with h1 | h1
      · have := hsup.ref k h1
        refine ⟨.inl this.1, Nat.lt_of_lt_of_le (hlt k this.1) hno, ?_⟩
        rw [hobjs k (hdis k h1)]; exact this.2
      · exact ⟨.inr (by rw [hnew k h1]), (hobj k h1).2, (hobj k h1).1⟩
    · intro k hkp hkn
      rw [hrefs, List.mem_append, Option.mem_toList, Option.mem_toList, not_or] at hkn
      rw [hobjs k hkn.2]; exact hsup.gone k hkp hkn.1
    · intro k hkp hkn
      rw [hrefs, List.mem_append, Option.mem_toList, Option.mem_toList, not_or] at hkn
      rw [hobjs k hkn.2, hsup.same k hkp]
  · rw [hpeers, h4]; exact h.eth.upd h.ids hp rfl id
  · rw [hpeers]; exact h.limits.upd h.ids hp rfl id
  · exact { hk with
      idle := fun hx => absurd rfl hx
      est := fun hx => absurd rfl hx
      sock := fun _ hx => absurd rfl hx
      oldM := hsup.oldM
      sessM := hsess }

theorem Fr.superseded {c c' : Ctx} (h : Inv S nobody y z c) {p : Peer} (hp : p ∈ c.peers) {m : Nat} {o : Session}
    {objs : Nat → Option Env.Sess} (hsup : Superseded m c p o objs) {s : Session} {n : Nat}
    (hpeers : c'.peers = updPeers c.peers p.id fun _ => { p with old := o, sess := s, lastSerial := n })
    (hnew : ∀ k, s.mstate = some k → k = c.nextObj) (hobjs : ∀ k, s.mstate ≠ some k → c'.objs k = objs k)
    (h2 : c'.nextId = c.nextId) (h11 : c'.keys = c.keys) (h12 : c'.now = c.now) {E : Eff → Prop} {l : List Eff}
    (h13 : c'.log = c.log ++ l) (hl : ∀ e ∈ l, E e) : Fr (· = p.id) (· = p.id) E c c' := by
  refine ⟨h12, h2, by rw [h11], ?_, ?_, l, h13, hl⟩
  · rw [hpeers]
    refine forall₂_updPeers (fun r hr hi => ?_) fun _ _ _ => PFr.refl
    rw [h.inj hr hp hi]
    exact ⟨rfl, fun hn => absurd rfl hn, .inl, .inr rfl⟩
  · intro q hq hne k hk
    have hlt := h.refs.lt k (mem_refs_of_mem hq hk)
    rw [hobjs k fun hs => by rw [hnew k hs] at hlt; exact Nat.lt_irrefl _ hlt]
    exact hsup.same k fun hkp => refs_disjoint h.ids h.refs.nodup hp hq (fun he => hne he.symm) hkp hk

theorem Inv.session {c : Ctx} (h : Inv S x y z c) {q : Peer} (hq : q ∈ c.peers) {n hk m : Nat} {b : Bool}
    (hn : q.lastSerial = n) (hcur : n ≤ c.keys.cur.serial) (h1 : ∀ s ∈ sessLog c.log, s.peer = q.id → s.serial < n)
    (h2 : Env.onVerify = none → ∀ s ∈ sessLog c.log, s.key = q.key → s.serial < n) :
    Inv S x y z { c with log := c.log ++ [.session q.id q.key n hk m b] } := by
  have e : sessLog (c.log ++ [.session q.id q.key n hk m b]) = sessLog c.log ++ [⟨q.id, q.key, n⟩] := by
    rw [sessLog_append]; rfl
  refine { h with log := ?_ }
  show LogOk c.peers c.nextId c.keys.cur.serial (sessLog (c.log ++ _))
  rw [e]
  have mem : ∀ s ∈ sessLog c.log ++ [⟨q.id, q.key, n⟩], s ∈ sessLog c.log ∨ s = ⟨q.id, q.key, n⟩ := by
    intro s hs; simpa using hs
  constructor
  · intro s hs
    rcases mem s hs with hs | rfl
    · exact h.log.lt s hs
    · exact ⟨h.idlt q hq, hcur⟩
  · intro s hs r hr hri
    rcases mem s hs with hs | rfl
    · exact h.log.last s hs r hr hri
    · rw [h.inj hr hq hri, hn]; exact ⟨rfl, Nat.le_refl _⟩
  · rw [List.pairwise_append]
    refine ⟨h.log.inc, by simp, fun s hs s' hs' hp => ?_⟩
    rw [List.mem_singleton] at hs'
    subst hs'
    exact h1 s hs hp
  · intro ho s hs r hr hrk
    rcases mem s hs with hs | rfl
    · exact h.log.lastKey ho s hs r hr hrk
    · rw [keys_inj h.keys hr hq hrk, hn]
  · intro ho
    rw [List.pairwise_append]
    refine ⟨h.log.incKey ho, by simp, fun s hs s' hs' hp => ?_⟩
    rw [List.mem_singleton] at hs'
    subst hs'
    exact h2 ho s hs hp

/-- The peer after `new_session`. -/
def sessed (p : Peer) (o : Session) (k m n : Nat) : Peer :=
  { p with old := o, sess := ⟨false, false, some m, some k⟩, lastSerial := n }

theorem wp_newSession {c : Ctx} (h : Inv S nobody y z c) {p : Peer} (hp : p ∈ c.peers) {i : Nat} (hi : p.id = i)
    {m : Nat} {initiator compat : Bool} {g : Agreement} (hlt : p.lastSerial < g.hk.serial)
    (hcur : g.hk.serial ≤ c.keys.cur.serial) {Q : Bool → Ctx → Prop}
    (hQf : ∀ c' q, Env.sessInit m (Env.deriveKey m g.A g.B g.X g.Y g.sigma g.salt) initiator compat
        (Env.tape c.pos) c.now = none →
      Inv S (· = i) y z c' → q ∈ c'.peers → q.stat = p.stat → q.state = p.state →
      (∀ E, Fr (· = i) (· = i) E c c') → Q false c')
    (hQt : ∀ c' o objs, Superseded m c p o objs → Inv S (· = i) y z c' →
      c'.peers = (updPeers c.peers i fun _ => sessed p o c.nextObj m g.hk.serial) → c'.keys = c.keys →
      (∀ k, k ≠ c.nextObj → c'.objs k = objs k) →
      (c'.objs c.nextObj = Env.sessInit m (Env.deriveKey m g.A g.B g.X g.Y g.sigma g.salt) initiator compat
        (Env.tape c.pos) c.now) →
      c'.log = c.log ++ [.session i p.key g.hk.serial g.hk.key m initiator] →
      (∀ E : Eff → Prop, E (.session i p.key g.hk.serial g.hk.key m initiator) → Fr (· = i) (· = i) E c c') →
      Q true c') : wp S (newSession i m initiator compat g) Q c := by
  subst hi
  unfold newSession
  rw [wp_bind]
  refine wp_supersede h hp fun o objs hsup => ?_
  rw [wp_bind, wp_draw, wp_bind, wp_get]
  refine wp_opaque fun c1 e1 => ?_
  have p1 : c1.peers = updPeers c.peers p.id fun _ => { p with old := o } := by rw [e1]
  have o1 : c1.objs = objs := by rw [e1]
  have hs1 : Sorted c1.peers := by
    rw [p1]; exact sorted_updPeers h.ids (by intro q _ hq; exact hq.symm)
  have hm1 : ({ p with old := o } : Peer) ∈ c1.peers := by rw [p1]; exact mem_upd_self hp
  simp only [e1]
  cases hsi : Env.sessInit m (Env.deriveKey m g.A g.B g.X g.Y g.sigma g.salt) initiator compat (Env.tape c.pos) c.now with
  | none =>
    simp only []
    rw [wp_bind]
    refine (wp_modP (p := { p with old := o }) (by rw [← p1]; exact hs1) (by rw [← p1]; exact hm1) rfl).2 ?_
    refine wp_opaque fun c2 e2 => ?_
    have p2 : c2.peers = updPeers c.peers p.id fun _ =>
        { p with old := o, sess := { p.sess with mstate := none }, lastSerial := p.lastSerial } := by
      rw [e2]
      show updPeers (updPeers c.peers p.id _) p.id _ = _
      rw [updPeers_updPeers (by intro q _ hq; exact hq.symm)]
      rfl
    have o2 : c2.objs = objs := by rw [e2]
    rw [wp_pure]
    refine hQf c2 { p with old := o, sess := { p.sess with mstate := none }, lastSerial := p.lastSerial } hsi ?_ ?_ rfl rfl
      fun E => ?_
    · refine h.superseded hp hsup (Nat.le_refl _) p2 (fun h => by cases h) (fun k h => by cases h)
        (fun k h => by cases h) (fun k _ => by rw [o2]) ?_ ?_ ?_ ?_ ?_ ?_ ?_ ?_ ?_ ?_ ?_ <;> rw [e2]
    · rw [p2]; exact mem_upd_self hp
    · refine Fr.superseded h hp hsup p2 (fun k h => by cases h) (fun k _ => by rw [o2]) ?_ ?_ ?_ (l := []) ?_
        (by simp) <;> rw [e2]
      exact (List.append_nil _).symm
  | some ob =>
    simp only []
    rw [wp_bind, wp_modify, wp_bind]
    refine (wp_modP (p := { p with old := o }) (by rw [← p1]; exact hs1) (by rw [← p1]; exact hm1) rfl).2 ?_
    refine wp_opaque fun c2 e2 => ?_
    have p2 : c2.peers = updPeers c.peers p.id fun _ => sessed p o c.nextObj m g.hk.serial := by
      rw [e2]
      show updPeers (updPeers c.peers p.id _) p.id _ = _
      rw [updPeers_updPeers (by intro q _ hq; exact hq.symm)]
      rfl
    have n2 : c2.nextObj = c.nextObj + 1 := by rw [e2]
    have o2 : ∀ k, c2.objs k = if k = c.nextObj then some ob else objs k := by intro k; rw [e2]
    have l2 : c2.log = c.log := by rw [e2]
    have h2 : Inv S (· = p.id) y z c2 := by
      refine h.superseded hp hsup (Nat.le_of_lt hlt) p2 (fun _ => rfl) (fun k hk => by cases hk; rfl)
        (fun k hk => ?_) (fun k hk => ?_) ?_ ?_ ?_ ?_ ?_ ?_ ?_ ?_ ?_ ?_ ?_
      · cases hk
        rw [o2, if_pos rfl, n2]
        exact ⟨rfl, Nat.lt_succ_self _⟩
      · rw [o2, if_neg fun he => hk (by rw [he])]
      · rw [n2]; exact Nat.le_succ _
      all_goals rw [e2]
    have hm2 : sessed p o c.nextObj m g.hk.serial ∈ c2.peers := by rw [p2]; exact mem_upd_self hp
    rw [wp_bind, wp_getP' h2.ids hm2 (i := p.id) rfl, wp_bind, wp_emit, wp_pure]
    have h3 := h2.session (hk := g.hk.key) (m := m) (b := initiator) hm2 (n := g.hk.serial) rfl
      (by rw [e2]; exact hcur) ?_ ?_
    · refine hQt _ o objs hsup h3 p2 ?_ ?_ ?_ ?_ ?_
      · show c2.keys = _
        rw [e2]
      · intro k hk
        show c2.objs k = _
        rw [o2, if_neg hk]
      · show c2.objs _ = _
        rw [o2, if_pos rfl, hsi]
      · show c2.log ++ _ = _
        rw [l2]; rfl
      · intro E hE
        refine Fr.superseded h hp hsup (s := ⟨false, false, some m, some c.nextObj⟩) (n := g.hk.serial) (by exact p2)
          (fun k hk => by cases hk; rfl) (fun k hk => ?_) ?_ ?_ ?_
          (l := [.session p.id p.key g.hk.serial g.hk.key m initiator]) ?_ (by simpa using hE)
        · show c2.objs k = _
          rw [o2, if_neg fun he => hk (by rw [he])]
        · show c2.nextId = _
          rw [e2]
        · show c2.keys = _
          rw [e2]
        · show c2.now = _
          rw [e2]
        · show c2.log ++ _ = _
          rw [l2]; rfl
    · rw [l2]
      intro s hs hsp
      exact Nat.lt_of_le_of_lt (h.log.last s hs p hp hsp.symm).2 hlt
    · rw [l2]
      intro ho s hs hsk
      exact Nat.lt_of_le_of_lt (h.log.lastKey ho s hs p hp hsk.symm) hlt

/-! ### `fastd_peer_set_established` -/

/-- There is room for one more established peer in a group, unless the peer is established already. -/
def Room (ps : List Peer) (p : Peer) : Prop :=
  p.state = .established ∨ ∀ g ∈ Env.chain p.group, ∀ m, Env.maxConn g = some m → countEstablished ps g < m

theorem room_of_mayConnect {ps : List Peer} {p : Peer} (h : mayConnect ps p = true) : Room ps p := by
  unfold mayConnect at h
  by_cases he : p.isEstablished = true
  · exact .inl (by simpa [Peer.isEstablished] using he)
  · rw [if_neg he] at h
    refine .inr fun g hg m hm => ?_
    have := List.all_eq_true.1 h g hg
    rw [hm] at this
    simpa using this

theorem Room.mono {ps ps' : List Peer} {p p' : Peer} (h : Room ps p) (hg : p'.group = p.group)
    (he : p.state = .established → p'.state = .established)
    (hf : List.Forall₂ (fun p p' : Peer => p'.group = p.group ∧ (p'.state = .established → p.state = .established)) ps ps') :
    Room ps' p' := by
  rcases h with h | h
  · exact .inl (he h)
  · refine .inr fun g hgc m hm => Nat.lt_of_le_of_lt (countEstablished_le hf g) (h g (by rw [← hg]; exact hgc) m hm)

theorem Room.fr {c c' : Ctx} {p p' : Peer} {t : Nat → Prop} {E : Eff → Prop} (h : Room c.peers p)
    (hg : p'.group = p.group) (he : p.state = .established → p'.state = .established) (hf : Fr t nobody E c c') :
    Room c'.peers p' :=
  h.mono hg he (hf.peers.imp fun _ _ h => ⟨stat_group h.stat, fun he => (h.est he).resolve_right id⟩)

theorem countEstablished_cons (a : Peer) (as : List Peer) (g : Nat) : countEstablished (a :: as) g =
    (if (a.isEstablished && inGroup a g) = true then 1 else 0) + countEstablished as g := by
  unfold countEstablished
  rw [List.filter_cons]
  split <;> simp [Nat.add_comm]

theorem countEstablished_upd {ps : List Peer} (hs : Sorted ps) {p q : Peer} (g : Nat) :
    countEstablished (updPeers ps p.id fun _ => q) g ≤ countEstablished ps g + if inGroup q g = true then 1 else 0 := by
  have far : ∀ as : List Peer, (∀ r ∈ as, p.id < r.id) → (updPeers as p.id fun _ => q) = as := by
    intro as ha
    unfold updPeers
    conv_rhs => rw [← List.map_id as]
    refine List.map_congr_left fun r hr => ?_
    have := ha r hr
    rw [if_neg (by omega)]; rfl
  induction ps with
  | nil => exact Nat.zero_le _
  | cons a as ih =>
    have hs' : Sorted as := (List.pairwise_cons.1 hs).2
    have hlt : ∀ r ∈ as, a.id < r.id := fun r hr => (List.pairwise_cons.1 hs).1 r.id (List.mem_map_of_mem hr)
    have e : (updPeers (a :: as) p.id fun _ => q) = (if a.id = p.id then q else a) :: updPeers as p.id fun _ => q := rfl
    rw [e, countEstablished_cons, countEstablished_cons]
    have h1 := ih hs'
    by_cases ha : a.id = p.id
    · rw [if_pos ha, far as fun r hr => by have := hlt r hr; omega]
      cases inGroup q g <;> cases q.isEstablished <;> simp <;> omega
    · rw [if_neg ha]
      omega

theorem LimitsOk.establish {ps : List Peer} (h : LimitsOk ps) (hs : Sorted ps) {p q : Peer} (hp : p ∈ ps)
    (hr : Room ps p) (hg : q.group = p.group) : LimitsOk (updPeers ps p.id fun _ => q) := by
  rcases hr with hr | hr
  · exact h.upd hs hp hg fun _ => hr
  · intro g m hm
    by_cases hgc : g ∈ Env.chain p.group
    · have h1 := hr g hgc m hm
      have h2 := countEstablished_upd hs (p := p) (q := q) g
      split at h2 <;> omega
    · have h2 := countEstablished_upd hs (p := p) (q := q) g
      rw [if_neg (by unfold inGroup; rw [hg]; simpa using hgc)] at h2
      exact Nat.le_trans h2 (h g m hm)

theorem wp_openIface {c : Ctx} (h : Inv S x y z c) {p : Peer} (hp : p ∈ c.peers) {i : Nat} (hi : p.id = i)
    (hst : p.state ≠ .inactive) {Q : Bool → Ctx → Prop} (hQf : p.iface = none → Env.tape c.pos % 2 ≠ 1 →
      Inv S x y z { c with pos := c.pos + 1 } → Q false { c with pos := c.pos + 1 })
    (hQt : ∀ c' f n, f ≠ none → Inv S x y z c' → c' = { c with
      peers := updPeers c.peers i fun _ => { p with iface := f }
      pos := n } → Q true c') : wp S (openIface i) Q c := by
  subst hi
  unfold openIface
  rw [wp_bind, wp_getP h.ids hp]
  refine wp_ite (fun hn => ?_) (fun hn => ?_)
  · rw [wp_bind, wp_draw]
    refine wp_ite (fun _ => ?_) (fun ht => wp_ite
      (fun _ => wp_exit.2 fun hc => (h.peer p hp).ifc hc.1 hst hn) (fun _ => ?_))
    · rw [wp_bind]
      refine wp_modP_same (h.pos (c.pos + 1)) hp rfl rfl rfl rfl rfl ⟨rfl, rfl, fun _ => rfl⟩ rfl rfl rfl rfl rfl
        (fun h => h) (fun h => h) (fun _ _ _ => Int.le_refl _) (fun c1 e1 h1 _ _ => ?_)
        (hifc := fun _ h => nomatch h)
      rw [wp_pure]
      exact hQt c1 _ _ (by simp) h1 e1
    · rw [wp_pure]
      exact hQf hn ht (h.pos _)
  · rw [wp_pure]
    refine hQt c p.iface c.pos hn h ?_
    have : ({ p with iface := p.iface } : Peer) = p := rfl
    rw [this, updPeers_self h.ids hp]

/-- A peer that has been set established. -/
def SetEst (now : Time) (p q : Peer) : Prop :=
  q = { p with
    iface := q.iface
    state := .established
    established := q.established
    resetTimeout := q.resetTimeout
    keepalive := q.keepalive
    task := q.task } ∧
  (p.state ≠ .established → q.established = now ∧ q.resetTimeout = now + PEER_STALE_TIME ∧
    q.keepalive = now + KEEPALIVE_TIMEOUT) ∧
  (p.state = .established → q = { p with iface := q.iface })

theorem SetEst.core {now : Time} {p q : Peer} (h : SetEst now p q) :
    q.stat = p.stat ∧ q.state = .established ∧ q.sock = p.sock ∧ q.addr = p.addr ∧ q.old = p.old ∧ q.sess = p.sess ∧
      q.lastSerial = p.lastSerial ∧ q.cache = p.cache ∧ q.localAddr = p.localAddr ∧ q.nextHs = p.nextHs := by
  rw [h.1]; exact ⟨rfl, rfl, rfl, rfl, rfl, rfl, rfl, rfl, rfl, rfl⟩

theorem wp_setEstablished {c : Ctx} {i : Nat} (h : Inv S (· = i) y z c) {p : Peer} (hp : p ∈ c.peers) (hi : p.id = i)
    (hst : p.state ≠ .inactive) (ha : p.addr.isSet = true) (hm : p.sess.mstate.isSome = true)
    (hS : S → p.sock.isSome = true) (hr : Room c.peers p) {Q : Bool → Ctx → Prop}
    (hQf : p.iface = none → Env.tape c.pos % 2 ≠ 1 → Inv S (· = i) y z { c with pos := c.pos + 1 } →
      Q false { c with pos := c.pos + 1 })
    (hQt : ∀ c' q, q.iface ≠ none → Inv S nobody y z c' → q ∈ c'.peers → SetEst c.now p q → c'.keys = c.keys → c'.objs = c.objs →
      c'.log = c.log ++ (if p.state = .established then [] else [.established i]) →
      (∀ E : Eff → Prop, E (.established i) → Fr (· = i) (· = i) E c c') → Q true c') :
    wp S (setEstablished i) Q c := by
  subst hi
  have hk := h.peer p hp
  unfold setEstablished
  rw [wp_bind]
  refine wp_openIface h hp rfl hst (fun hn ht h' => ?_) fun c1 f n hf h1 e1 => ?_
  · rw [if_pos (by rfl), wp_pure]; exact hQf hn ht h'
  have hm1 : ({ p with iface := f } : Peer) ∈ c1.peers := by rw [e1]; exact mem_upd_self hp
  have p1 : c1.peers = updPeers c.peers p.id fun _ => { p with iface := f } := by rw [e1]
  have f1 : ∀ E, Fr (· = p.id) (· = p.id) E c c1 := by
    intro E
    rw [e1]
    exact (Fr.upd (t := fun j => j = p.id) (q := { p with iface := f }) h.ids hp
      ⟨rfl, fun hn => absurd rfl hn, .inl, .inl rfl⟩).trans (Fr.pos n)
  rw [if_neg (by simp), wp_bind, wp_getP' h1.ids hm1 (i := p.id) rfl]
  refine wp_ite (fun he => ?_) (fun he => ?_)
  · have he' : p.state = .established := by simpa [Peer.isEstablished] using he
    rw [wp_pure]
    refine hQt c1 _ hf ?_ hm1 ⟨?_, fun hn => absurd he' hn, fun _ => rfl⟩ (by rw [e1]) (by rw [e1])
      (by rw [if_pos he', List.append_nil, e1]) fun E _ => f1 E
    · refine h1.drop (fun q hq _ hqi => ?_) (fun _ _ h1 h2 => absurd h2 h1) (fun _ _ h1 h2 => absurd h2 h1)
      have : q = { p with iface := f } := h1.inj hq hm1 hqi
      subst this
      exact { hk with
        idle := fun _ hn => absurd he' hn
        est := fun _ _ => ⟨ha, hm⟩
        sock := fun hs _ _ => hS hs
        ifc := fun _ _ => hf }
    · rw [he']
  · have he' : p.state ≠ .established := by simpa [Peer.isEstablished] using he
    rw [wp_bind, wp_get, wp_bind]
    refine (wp_modP (p := { p with iface := f }) (by exact h1.ids) (by exact hm1) rfl).2 ?_
    unfold seen clearKeepalive
    rw [wp_bind, wp_bind, wp_get]
    have hst1 : ∀ q' : Peer, q'.id = p.id → Sorted (updPeers c.peers p.id fun _ => q') := fun q' hq' =>
      sorted_updPeers h.ids (by intro q _ hq; rw [hq]; exact hq')
    -- all changes at once
    have u1 : updPeers c1.peers p.id (fun p => { p with state := .established, established := c1.now }) =
        updPeers c.peers p.id fun _ => { p with iface := f, state := .established, established := c1.now } := by
      rw [p1, updPeers_updPeers (by intro q _ hq; exact hq.symm)]; rfl
    simp only [u1]
    refine (wp_modP (p := { p with iface := f, state := .established, established := c1.now }) (by exact hst1 _ rfl)
      (by exact mem_upd_self hp) rfl).2 ?_
    have u2 : updPeers (updPeers c.peers p.id fun _ => { p with iface := f, state := .established, established := c1.now })
        p.id (fun p => { p with resetTimeout := c1.now + PEER_STALE_TIME }) =
        updPeers c.peers p.id fun _ => { p with
          iface := f
          state := .established
          established := c1.now
          resetTimeout := c1.now + PEER_STALE_TIME } := by
      rw [updPeers_updPeers (by intro q _ hq; exact hq.symm)]; rfl
    simp only [u2]
    rw [wp_bind, wp_bind, wp_get]
    refine (wp_modP (p := { p with
      iface := f
      state := .established
      established := c1.now
      resetTimeout := c1.now + PEER_STALE_TIME }) (by exact hst1 _ rfl) (by exact mem_upd_self hp) rfl).2 ?_
    have u3 : updPeers (updPeers c.peers p.id fun _ => { p with
          iface := f
          state := .established
          established := c1.now
          resetTimeout := c1.now + PEER_STALE_TIME })
        p.id (fun p => { p with keepalive := c1.now + KEEPALIVE_TIMEOUT }) =
        updPeers c.peers p.id fun _ => { p with
          iface := f
          state := .established
          established := c1.now
          resetTimeout := c1.now + PEER_STALE_TIME
          keepalive := c1.now + KEEPALIVE_TIMEOUT } := by
      rw [updPeers_updPeers (by intro q _ hq; exact hq.symm)]; rfl
    simp only [u3]
    refine wp_opaque fun c2 e2 => ?_
    rw [wp_bind]
    have hn1 : c1.now = c.now := by rw [e1]
    have p2 : c2.peers = updPeers c.peers p.id fun _ => { p with
          iface := f
          state := .established
          established := c1.now
          resetTimeout := c1.now + PEER_STALE_TIME
          keepalive := c1.now + KEEPALIVE_TIMEOUT } := by rw [e2]
    have h2 : Inv S nobody y (fun j => z j ∨ j = p.id) c2 := by
      refine h.upd hp p2 rfl rfl rfl rfl (Nat.le_refl _) ?_ ?_ ?_ ?_ ?_ ?_ (fun j hj hj' => absurd hj' hj)
        (fun _ _ => id) (fun _ _ => .inl) ?_ ?_ ?_ ?_ ?_ ?_ ?_ ?_ ?_ ?_
      · rw [e2, e1]
      · rw [e2, e1]
      · rw [e2, e1]
      · rw [e2, e1]
      · rw [e2, e1]
      · rw [e2, e1]
      · rw [p2]
        have : c2.ht = c.ht := by rw [e2, e1]
        rw [this]; exact h.ht.upd h.ids hp rfl rfl
      · rw [p2]; exact h.uniq.upd hp rfl (.inl rfl)
      · rw [p2]
        have a1 : c2.socks = c.socks := by rw [e2, e1]
        have a2 : c2.nextSock = c.nextSock := by rw [e2, e1]
        rw [a1, a2]; exact h.socks.upd hp rfl rfl
      · rw [p2]
        have a1 : c2.objs = c.objs := by rw [e2, e1]
        have a2 : c2.nextObj = c.nextObj := by rw [e2, e1]
        rw [a1, a2]; exact h.refs.upd h.ids hp rfl
      · rw [p2]
        have a1 : c2.eth = c.eth := by rw [e2, e1]
        rw [a1]; exact h.eth.upd h.ids hp rfl fun _ => rfl
      · rw [p2]; exact h.limits.establish h.ids hp hr rfl
      · exact { hk with
          inact := fun h => by cases h
          idle := fun _ hn => absurd rfl hn
          est := fun _ _ => ⟨ha, hm⟩
          sock := fun hs _ _ => hS hs
          rem := fun _ => hk.rem hst
          hs := fun _ _ hn => absurd rfl hn
          ifc := fun _ _ => hf }
      · intro hy
        have := h.act p hp hy
        constructor
        · intro h; cases h
        · intro hen; exact absurd (this.2 hen) hst
      · intro _
        rw [hn1]; exact ⟨Int.le_refl _, Int.le_refl _⟩
      · intro hn; exact absurd (.inr rfl) hn
    have hm2 : ({ p with
          iface := f
          state := .established
          established := c1.now
          resetTimeout := c1.now + PEER_STALE_TIME
          keepalive := c1.now + KEEPALIVE_TIMEOUT } : Peer) ∈ c2.peers := by rw [p2]; exact mem_upd_self hp
    have f2 : ∀ E, Fr (· = p.id) (· = p.id) E c c2 := by
      intro E
      refine ⟨by rw [e2, e1], by rw [e2, e1], ?_, ?_, ?_, [], ?_, by simp⟩
      · have : c2.keys = c.keys := by rw [e2, e1]
        rw [this]
      · rw [p2]
        refine forall₂_updPeers (fun r hr hi => ?_) fun _ _ _ => PFr.refl
        rw [h.inj hr hp hi]
        exact ⟨rfl, fun hn => absurd rfl hn, fun _ => .inr rfl, .inl rfl⟩
      · intro _ _ _ _ _
        rw [e2, e1]
      · rw [e2, e1, List.append_nil]
    refine wp_schedulePeerTask (z' := z) h2 hm2 (by rfl) (by simp) (fun j hj hzj => hzj.resolve_right hj)
      fun c3 e3 h3 hm3 f3 => ?_
    rw [wp_bind, wp_emit, wp_pure]
    refine hQt _ _ ?_ (h3.emit rfl) hm3 ⟨?_, fun _ => ?_, fun h => absurd h he'⟩ ?_ ?_ ?_ fun E hE => ?_
    · rw [scheduled_eq]; exact hf
    · rw [scheduled_eq]
    · rw [scheduled_eq, hn1]; exact ⟨rfl, rfl, rfl⟩
    · show c3.keys = _
      rw [e3, e2, e1]
    · show c3.objs = _
      rw [e3, e2, e1]
    · show c3.log ++ _ = _
      rw [if_neg he', e3, e2, e1]
    · exact ((f2 E).trans ((f3 E).mono (fun _ h => h) (fun _ h => h.elim) fun _ h => h)).trans (Fr.emit hE)

end Fastd.Daemon
