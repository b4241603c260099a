import Verif.Daemon.ForwardSpec
import Verif.Daemon.Demo
import Verif.Props.Packets

/-!
# Sessions

* C33: handshake keys are not used for two sessions
* C35: ownership of sessions
* C36: changing from one session to the next

For all states reached from an arbitrary start by arbitrary events, in an arbitrary environment.
-/

namespace Fastd.Daemon

set_option linter.unusedSectionVars false

section

variable [Env]

/-! ### C33 -/

/-- **C33**, partially: as long as a peer exists, its sessions are established with handshake keys of increasing serial number, so never
twice with the same one. Missing: when a dynamic peer has been removed, its handshake can be replayed while the handshake key is valid (`Demo.C33_false`). -/
theorem C33_partial {c : Ctx} (h : Reach anyEvent c) {l1 l2 l3 : List Eff} {i s s' n n' m m' : Nat} {k k' : Key} {b b' : Bool}
    (hl : c.log = l1 ++ .session i k s n m b :: l2 ++ .session i k' s' n' m' b' :: l3) : s < s' := by
  have := (Reach.inv (fun s => s.elim) h : Inv False nobody nobody nobody c).log.inc
  rw [hl] at this
  simp only [sessLog, List.filterMap_append, List.filterMap_cons, Eff.sess] at this
  rw [List.pairwise_append] at this
  exact this.2.2 ⟨i, k, s⟩ (by simp) ⟨i, k', s'⟩ (by simp) rfl

/-- **C33**, partially: without `on verify`, i.e. without dynamic peers, this also holds for a peer that is removed and configured again. -/
theorem C33_key_partial (hv : Env.onVerify = none) {c : Ctx} (h : Reach anyEvent c) {l1 l2 l3 : List Eff} {i i' s s' n n' m m' : Nat}
    {k : Key} {b b' : Bool} (hl : c.log = l1 ++ .session i k s n m b :: l2 ++ .session i' k s' n' m' b' :: l3) : s < s' := by
  have := (Reach.inv (fun s => s.elim) h : Inv False nobody nobody nobody c).log.incKey hv
  rw [hl] at this
  simp only [sessLog, List.filterMap_append, List.filterMap_cons, Eff.sess] at this
  rw [List.pairwise_append] at this
  exact this.2.2 ⟨i, k, s⟩ (by simp) ⟨i', k, s'⟩ (by simp) rfl

/-! ### C35 -/

/-- The peer has a session with this method state. -/
def Owns (p : Peer) (k : Nat) : Prop := p.sess.mstate = some k ∨ p.old.mstate = some k

theorem owns_iff_refs {p : Peer} {k : Nat} : Owns p k ↔ k ∈ p.refs := by
  unfold Owns Peer.refs
  simp [or_comm]

/-- **C35**: a session has only one owner, in only one of its two places. -/
theorem C35_owner {c : Ctx} (h : Reach anyEvent c) {p q : Peer} (hp : p ∈ c.peers) (hq : q ∈ c.peers) {k : Nat} (h1 : Owns p k)
    (h2 : Owns q k) : p = q ∧ ¬ (p.sess.mstate = some k ∧ p.old.mstate = some k) := by
  have hI : Inv False nobody nobody nobody c := Reach.inv (fun s => s.elim) h
  rw [owns_iff_refs] at h1 h2
  refine ⟨?_, fun ⟨h3, h4⟩ => ?_⟩
  · by_contra hn
    exact refs_disjoint hI.ids hI.refs.nodup hp hq (fun h => hn (sorted_inj hI.ids hp hq h)) h1 h2
  · have := nodup_refs hI.refs.nodup hp
    unfold Peer.refs at this
    rw [h3, h4] at this
    simp at this

/-- **C35**: the method states that exist are exactly those owned by a peer: none is freed that is still in use, none is leaked. -/
theorem C35_live {c : Ctx} (h : Reach anyEvent c) (k : Nat) : (c.objs k).isSome = true ↔ ∃ p ∈ c.peers, Owns p k := by
  have hI : Inv False nobody nobody nobody c := Reach.inv (fun s => s.elim) h
  rw [hI.refs.live, List.mem_flatMap]
  simp only [owns_iff_refs]

/-- **C35**: a peer has a current session exactly while it is established; otherwise it has none at all. -/
theorem C35_established {c : Ctx} (h : Reach anyEvent c) {p : Peer} (hp : p ∈ c.peers) :
    (p.state = .established → ∃ k, p.sess.mstate = some k) ∧ (p.state ≠ .established → ∀ k, ¬ Owns p k) := by
  have hI : Inv False nobody nobody nobody c := Reach.inv (fun s => s.elim) h
  refine ⟨fun he => ?_, fun he k ho => ?_⟩
  · obtain ⟨_, k, _, _, hk, _⟩ := hI.estSess hp (fun h => h) he
    exact ⟨k, hk⟩
  · have := (hI.peer p hp).idle (fun h => h) he
    rcases ho with ho | ho
    · rw [this.2] at ho; cases ho
    · rw [this.1] at ho; cases ho

/-! ### C36 -/

/-- The session can be used. -/
def SessOk (c : Ctx) (s : Session) : Prop :=
  ∃ m k o, s.method = some m ∧ s.mstate = some k ∧ c.objs k = some o ∧ Env.sessValid m o c.now = true

/-- We are the initiator of the session. -/
def Initiated (c : Ctx) (s : Session) : Prop :=
  ∃ m k o, s.method = some m ∧ s.mstate = some k ∧ c.objs k = some o ∧ Env.sessInitiator m o = true

/-- The packet is one of this session. -/
def Opens (c : Ctx) (s : Session) (d : Bytes) : Prop :=
  ∃ m k o r, s.method = some m ∧ s.mstate = some k ∧ c.objs k = some o ∧ Env.decrypt m o d c.now = some r

theorem sessOk_iff {c : Ctx} {s : Session} : SessOk c s ↔ validNow c s = true := by
  constructor
  · rintro ⟨m, k, o, h1, h2, h3, h4⟩
    unfold validNow
    rw [h1, h2]
    simp only [h3, h4]
  · intro h
    obtain ⟨m, k, o, h1, h2, h3⟩ := validNow_some h
    refine ⟨m, k, o, h1, h2, h3, ?_⟩
    unfold validNow at h
    rw [h1, h2] at h
    simpa only [h3] using h

theorem initiated_iff {c : Ctx} {s : Session} : Initiated c s ↔ initiatorNow c s = true := by
  unfold Initiated initiatorNow
  cases s.method with
  | none => simp
  | some m =>
    cases s.mstate with
    | none => simp
    | some k => cases ho : c.objs k <;> simp [ho]

theorem opens_iff {c : Ctx} {s : Session} {d : Bytes} : Opens c s d ↔ (decryptNow c s d).isSome = true := by
  unfold Opens decryptNow
  cases s.method with
  | none => simp
  | some m =>
    cases s.mstate with
    | none => simp
    | some k =>
      cases ho : c.objs k with
      | none => simp [ho]
      | some o => simp [ho, Option.isSome_iff_exists]

/-- **C36**: payload for a peer is encrypted with its old session if that is valid and the current one was initiated by us, and with the
current one otherwise. The current one is valid in any case. -/
theorem C36_send {c c' : Ctx} (h : Reach anyEvent c) {e : Event} (hp : e.possible c) (he : handle e c = .ok ((), c')) {l : List Eff}
    (hl : c'.log = c.log ++ l) {i k : Nat} {d : Bytes} (hm : .encrypt i k d ∈ l) (hd : d ≠ []) :
    ∃ p ∈ c.peers, p.id = i ∧ p.state = .established ∧ SessOk c p.sess ∧
      (Initiated c p.sess ∧ SessOk c p.old → p.old.mstate = some k) ∧
      (¬ (Initiated c p.sess ∧ SessOk c p.old) → p.sess.mstate = some k) := by
  have key : ∀ {is : List Nat} {data : Bytes} {l : List Eff}, Sends c data is l → .encrypt i k d ∈ l →
      ∃ p ∈ c.peers, p.id = i ∧ p.state = .established ∧ SessOk c p.sess ∧
      (Initiated c p.sess ∧ SessOk c p.old → p.old.mstate = some k) ∧
      (¬ (Initiated c p.sess ∧ SessOk c p.old) → p.sess.mstate = some k) := by
    intro is data l hs hm
    obtain ⟨j, _, b, hb, hm⟩ := hs.mem hm
    cases hb with
    | dead => simp at hm
    | failed => simp at hm
    | sent hp hi he hv hm' hk ho hf hsk =>
      simp only [List.mem_cons, Eff.encrypt.injEq, reduceCtorEq, List.not_mem_nil, or_false] at hm
      obtain ⟨rfl, rfl, rfl⟩ := hm
      refine ⟨_, hp, hi, he, sessOk_iff.2 hv, fun hc => ?_, fun hc => ?_⟩
      · rw [initiated_iff, sessOk_iff] at hc
        unfold chosen useOldNow at hk
        rw [if_pos (by rw [hc.1, hc.2]; rfl)] at hk
        exact hk
      · rw [initiated_iff, sessOk_iff] at hc
        unfold chosen useOldNow at hk
        rw [if_neg (by rw [Bool.and_eq_true]; exact hc)] at hk
        exact hk
  have no : ∀ {l : List Eff}, (∀ f ∈ l, f.empty = true) → .encrypt i k d ∈ l → False := fun h hm => by
    have := h _ hm
    exact hd (List.isEmpty_iff.1 this)
  cases (h.res hp he).pay hl with
  | none _ hn => exact (no hn hm).elim
  | deliver _ _ _ _ l1 hll h1 =>
    subst hll
    rcases List.mem_append.1 hm with hm | hm
    · exact (no h1 hm).elim
    · simp at hm
  | shared data _ hs => exact key hs hm
  | own j data _ hs => exact key hs hm
  | forward _ _ _ _ _ _ _ _ p _ _ data _ _ _ _ l1 l2 hll h1 hs =>
    subst hll
    rcases List.mem_append.1 hm with hm | hm
    · exact (no h1 hm).elim
    · rcases List.mem_cons.1 hm with hm | hm
      · cases hm
      · exact key hs hm

/-- **C36**: while the current session of a peer is valid, packets of the current session and packets of its valid old session are both
accepted. -/
theorem C36_accept {c c' : Ctx} (h : Reach anyEvent c) {sock : Sock} {loc rem : Addr} {d : Bytes}
    (hp : (Event.recv sock loc rem d).possible c) (he : handle (.recv sock loc rem d) c = .ok ((), c')) {l : List Eff}
    (hl : c'.log = c.log ++ l) (hd : IsData d) {p : Peer} (hs : MaySend c sock loc rem p)
    (hv : SessOk c p.sess) (ho : Opens c p.sess d ∨ (SessOk c p.old ∧ Opens c p.old d)) : ∃ k, Owns p k ∧ .accept p.id k d ∈ l := by
  have hI : Inv False nobody nobody nobody c := Reach.inv (fun s => s.elim) h
  have hrem := hp.2.1
  have hr : RecvEv sock loc rem d c c' := h.res hp he
  obtain ⟨t, ht, htd⟩ := hd
  have hc : payload d = some (d, false) := by
    unfold payload
    rw [if_neg]
    rw [ht]
    intro hn
    cases hn
    exact absurd htd.1 (by decide)
  rw [← isDataPacket_iff] at htd
  rcases hr with ⟨_, hr⟩ | ⟨peer, q, b', hsd, hq, hr⟩
  · rcases hr with hr | ⟨n, j, hn, hm, hr⟩
    · rw [hc] at hr; cases hr
    · have := hs.sock n hn
      have hj := hI.sockInj hm this
      have hne := hr p hs.mem hj.symm
      rw [hs.rem] at hne
      cases hne
  · rw [hc] at hq
    cases hq
    have hpeer : peer = some p.id := by
      cases sock with
      | dyn n => exact hsd.own n p.id rfl (hs.sock n rfl)
      | bound k =>
        cases peer with
        | none =>
          have := hsd.bound k rfl rfl p hs.mem
          rw [hs.rem] at this; cases this
        | some j =>
          obtain ⟨q, hq, hqj, _⟩ := hsd.arg j rfl
          have := hsd.addr q hq (by rw [hqj])
          have e := hI.uniq p hs.mem q hq (addrEq_set hs.rem hrem) (addrEq_trans hs.rem (by rw [addrEq_comm]; exact this))
          rw [← hqj, e]
    subst hpeer
    cases hr with
    | ignored _ hi =>
      rcases hi with hi | ⟨t', ht', _, hd'⟩
      · cases hi
      · rw [ht] at ht'; cases ht'
        rw [htd] at hd'; cases hd'
    | handshake ht' =>
      rw [ht] at ht'; cases ht'
      exact absurd htd (by decide)
    | unknown t' ht' hd' hn =>
      rcases hn p hs.mem rfl with hn | hn
      · exact absurd hs.est hn
      · rw [hs.loc] at hn; cases hn
    | data q hq hqi hest hloc t' ht' hd' hr hf =>
      have e : q = p := sorted_inj hI.ids hq hs.mem (by simpa using hqi.symm)
      subst e
      rw [sessOk_iff] at hv
      cases hr with
      | dead _ hv' => rw [hv] at hv'; cases hv'
      | reject _ ho' hs' =>
        rcases ho with ho | ⟨ho1, ho⟩
        · rw [opens_iff, hs'] at ho; cases ho
        · rw [sessOk_iff] at ho1
          rw [opens_iff, ho' ho1] at ho; cases ho
      | accept _ useOld ho' data b' o' k hdec hk r hr hsoft hold c1 l1 l2 _ _ _ hl' hl1 hacc _ =>
        have := List.append_cancel_left (hl'.symm.trans hl)
        subst this
        refine ⟨k, ?_, List.mem_append_left _ hacc⟩
        cases useOld with
        | true => exact .inr hk
        | false => exact .inl hk

/-- **C36**: accepting a packet of the old session leaves both sessions alone; accepting a packet of the current session drops
the old one. -/
theorem C36_confirm {c c' : Ctx} (h : Reach anyEvent c) {e : Event} (hp : e.possible c) (he : handle e c = .ok ((), c')) {l : List Eff}
    (hl : c'.log = c.log ++ l) {i k : Nat} {d : Bytes} (hm : .accept i k d ∈ l) :
    ∃ p ∈ c.peers, ∃ q ∈ c'.peers, p.id = i ∧ q.id = i ∧ SessOk c p.sess ∧ q.sess.method = p.sess.method ∧ q.sess.mstate = p.sess.mstate ∧
      ((p.old.mstate = some k ∧ SessOk c p.old ∧ Opens c p.old d ∧ q.old = p.old) ∨
       (p.sess.mstate = some k ∧ Opens c p.sess d ∧ q.old.mstate = none)) := by
  have hI : Inv False nobody nobody nobody c := Reach.inv (fun s => s.elim) h
  have hI' : Inv False nobody nobody nobody c' := Reach.inv (fun s => s.elim) (P := anyEvent) (.step h hp trivial he)
  obtain ⟨sock, loc, rem, pkt, b, p, rfl, hpl, hs, hpm, hi, hest, hloc, _, hk, hr⟩ := (h.res hp he).decrypt hl (.inr hm)
  cases hr with
  | dead r hv hq hc hr =>
    obtain ⟨_, _, _, e⟩ := hr
    rw [e] at hl
    have := List.append_cancel_left hl
    rw [← this] at hm
    split at hm <;> simp at hm
  | reject hv ho hs l' hc hl' =>
    rw [hc] at hl
    have := List.append_cancel_left hl
    subst this
    obtain ⟨_, _, h⟩ := hl' _ hm
    cases h
  | accept hv useOld ho data b' o' k' hd hk' r hr hsoft hold c1 l1 l2 hf1 hq1 heth hl' hl1 hacc hl2 =>
    have := List.append_cancel_left (hl'.symm.trans hl)
    subst this
    have hkk : k' = k := by
      rcases List.mem_append.1 hm with hm | hm
      · rcases hl1 _ hm with h1 | ⟨_, h1⟩ | ⟨_, _, h1⟩ | h1
        · cases h1
        · cases h1
        · cases h1
        · cases h1; rfl
      · split at hl2
        · rw [hl2] at hm; cases hm
        · cases hl2 with
          | drop _ h => rw [h] at hm; cases hm
          | write _ es l' _ _ hll hfw hnf =>
            rw [hll] at hm
            rcases List.mem_cons.1 hm with hm | hm
            · cases hm
            · by_cases hc : Env.mode = .tap ∧ Env.forward = true
              · obtain ⟨_, _, b, hb, hm⟩ := (hfw hc.1 hc.2).mem hm
                cases hb <;> simp at hm
              · rw [hnf hc] at hm; cases hm
    subst hkk
    have hsess : r.sess.method = p.sess.method ∧ r.sess.mstate = p.sess.mstate := hsoft.sess
    refine ⟨p, hpm, r, hr, hi, (hsoft.id.trans hi), sessOk_iff.2 hv, hsess.1, hsess.2, ?_⟩
    cases useOld with
    | true =>
      exact .inl ⟨hk', sessOk_iff.2 (by simpa using ho), opens_iff.2 (by rw [show decryptNow c p.old d = _ from hd]; rfl), hold⟩
    | false =>
      exact .inr ⟨hk', opens_iff.2 (by rw [show decryptNow c p.sess d = _ from hd]; rfl), hold.2⟩

/-- **C36**: when a new session with the same method is established for a peer, its current session becomes the old one if it is valid and
there is no other valid old session. If there is one, it is kept. In any case nothing but one of these two sessions is kept, and only if it has the same
method. -/
theorem C36_rekey {z : Nat → Prop} {c c' : Ctx} (h : Inv False nobody nobody z c) {p : Peer} (hp : p ∈ c.peers)
    (hst : p.state ≠ .inactive) {m : Nat} {sock : Sock} {loc rem : Addr} {initiator compat : Bool} {g : Agreement}
    (hset : rem.isSet = true) (hr : mayConnect c.peers p = true) (hcur : g.hk.serial ≤ c.keys.cur.serial)
    (he : establish p.id m sock loc rem initiator compat g c = .ok (true, c')) :
    ∃ q ∈ c'.peers, q.id = p.id ∧ q.state = .established ∧ (∃ k, q.sess.mstate = some k ∧ ¬ Owns p k) ∧
      (SessOk c p.sess → ¬ SessOk c p.old → p.sess.method = some m → q.old = p.sess) ∧
      (SessOk c p.old → p.old.method = some m → q.old = p.old) ∧
      (∀ k, q.old.mstate = some k → q.old.method = some m ∧ Owns p k) := by
  have hw : wp False (establish p.id m sock loc rem initiator compat g) (fun b c' => b = true → ∃ q ∈ c'.peers, q.id = p.id ∧
      q.state = .established ∧ (∃ k, q.sess.mstate = some k ∧ ¬ Owns p k) ∧
      (SessOk c p.sess → ¬ SessOk c p.old → p.sess.method = some m → q.old = p.sess) ∧
      (SessOk c p.old → p.old.method = some m → q.old = p.old) ∧
      (∀ k, q.old.mstate = some k → q.old.method = some m ∧ Owns p k)) c := by
    refine wp_establish h hp rfl hset hst (fun s => s.elim) (room_of_mayConnect hr) hcur (fun _ _ _ _ _ _ hb => by cases hb)
      fun c' q _ hq hs hqe _ _ hk _ _ => ?_
    simp only [owns_iff_refs, sessOk_iff, Bool.not_eq_true]
    exact ⟨q, hq, stat_id hs, hqe, hk.new.2, hk.keep, hk.stay, hk.left⟩
  unfold wp at hw
  rw [he] at hw
  exact hw rfl

end

namespace Demo

/-! ### A handshake is replayed -/

section

/-- The peer is accepted by `on verify`. -/
local instance replayEnv : Env := env { onVerify := some true, tape := fun _ => 1 }

/-- The sessions in a log. -/
def sessionsIn (l : List Eff) : List (Key × Nat × Nat × Nat) :=
  l.filterMap fun
    | .session _ k s n m _ => some (k, s, n, m)
    | _ => none

/-- A handshake of an unknown peer, then all connections are reset, then the same packets arrive again. -/
def replay : List Event :=
  [.tick 5000, .recv (.bound 0) (addrOf 1) (addrOf 3) (hsPkt 1 3 1 60), .recv (.bound 0) (addrOf 1) (addrOf 3) (hsPkt 3 3 1 60),
   .resetAll, .recv (.bound 0) (addrOf 1) (addrOf 3) (hsPkt 1 3 1 60), .recv (.bound 0) (addrOf 1) (addrOf 3) (hsPkt 3 3 1 60)]

/-- **C33** does not hold for dynamic peers: after its peer was removed, a replayed handshake establishes another session with the same local
handshake key pair. The packets are the same, so the session key is too. -/
theorem C33_false : ∃ (c : Ctx), Reach anyEvent c ∧ ∃ x, sessionsIn c.log = [x, x] := by
  have h : after [] [] replay (fun c => decide (∃ x ∈ (sessionsIn c.log).head?, sessionsIn c.log = [x, x])) = true := by decide +kernel
  obtain ⟨c, hr, h⟩ := after_reach h
  obtain ⟨x, _, h⟩ := of_decide_eq_true h
  exact ⟨c, hr, x, h⟩

end

/-! ### A new session is established -/

section

local instance sessionsEnv : Env := env {}

/-- The first peer starts another session. -/
def rekey : List Event := duoUp ++ [.tick 40000, .recv (.bound 0) (addrOf 1) (addrOf 2) (hsPkt 3 2 11 51)]

/-- The first peer has two sessions now, with different handshake keys, as in `C33_partial`. -/
example : ∃ (c : Ctx), Reach anyEvent c ∧ (sessionsIn c.log).map (fun x => (x.1, x.2.1)) = [(keyOf 2, 1), (keyOf 3, 1), (keyOf 2, 2)] ∧
    (c.peers.map fun p => (p.sess.mstate, p.old.mstate)) = [(some 2, some 0), (some 1, none)] := by
  have h : after duo [] rekey (fun c => decide ((sessionsIn c.log).map (fun x => (x.1, x.2.1)) = [(keyOf 2, 1), (keyOf 3, 1), (keyOf 2, 2)] ∧
    (c.peers.map fun p => (p.sess.mstate, p.old.mstate)) = [(some 2, some 0), (some 1, none)])) = true := by decide +kernel
  obtain ⟨c, hr, h⟩ := after_reach h
  exact ⟨c, hr, (of_decide_eq_true h)⟩

/-- The payload in a log: peer and session. -/
def payloadIn (l : List Eff) : List (Nat × Nat) :=
  l.filterMap fun
    | .encrypt i k d => if d = [] then none else some (i, k)
    | _ => none

def acceptsIn (l : List Eff) : List (Nat × Nat) :=
  l.filterMap fun
    | .accept i k _ => some (i, k)
    | _ => none

/-- We send with the old session until a packet of the new one arrives, -/
example : afterStep duo [] rekey (.iface none (frame 9 1)) (fun c c' => decide (payloadIn (c'.log.drop c.log.length) = [(0, 0), (1, 1)])) =
    true := by decide +kernel

/-- packets of the old session are still accepted, -/
example : afterStep duo [] rekey (.recv (.bound 0) (addrOf 1) (addrOf 2) (dataPkt 2 (frame 9 1)))
    (fun c c' => decide (acceptsIn (c'.log.drop c.log.length) = [(0, 0)])) = true := by decide +kernel

/-- and the first packet of the new session ends the old one. -/
example : afterStep duo [] rekey (.recv (.bound 0) (addrOf 1) (addrOf 2) ((2 : UInt8) :: 196 :: frame 9 1))
    (fun c c' => decide (acceptsIn (c'.log.drop c.log.length) = [(0, 2)] ∧
      (c'.peers.map fun p => (p.sess.mstate, p.old.mstate)) = [(some 2, none), (some 1, none)] ∧ (c'.objs 0).isNone)) = true := by
  decide +kernel

/-- The hypotheses of `C36_accept` in this state. -/
example : ∃ (c : Ctx) (p : Peer), Reach anyEvent c ∧ MaySend c (.bound 0) (addrOf 1) (addrOf 2) p ∧ IsData (dataPkt 2 (frame 9 1)) ∧
    SessOk c p.sess ∧ SessOk c p.old ∧ Opens c p.old (dataPkt 2 (frame 9 1)) ∧ ¬ Opens c p.sess (dataPkt 2 (frame 9 1)) := by
  have h : after duo [] rekey (fun c => match c.peers with
      | p :: _ => decide (p.state = .established) && addrEq p.addr (addrOf 2) && addrEq p.localAddr (addrOf 1) &&
        decide (p.sock = some (.bound 0)) &&
        validNow c p.sess && validNow c p.old && (decryptNow c p.old (dataPkt 2 (frame 9 1))).isSome &&
        !(decryptNow c p.sess (dataPkt 2 (frame 9 1))).isSome
      | [] => false) = true := by decide +kernel
  obtain ⟨c, hr, h⟩ := after_reach h
  revert h
  cases hc : c.peers with
  | nil => intro h; cases h
  | cons p ps =>
    intro h
    simp only [Bool.and_eq_true, decide_eq_true_eq, Bool.not_eq_true'] at h
    obtain ⟨⟨⟨⟨⟨⟨⟨h1, h2⟩, h3⟩, h4⟩, h5⟩, h6⟩, h7⟩, h8⟩ := h
    refine ⟨c, p, hr, ⟨by rw [hc]; simp, h1, h2, h3, (fun n hn => by cases hn)⟩, ⟨2, rfl, by decide⟩, sessOk_iff.2 h5, sessOk_iff.2 h6, opens_iff.2 h7,
      fun hn => ?_⟩
    rw [opens_iff, h8] at hn
    cases hn

end

end Demo

end Fastd.Daemon
