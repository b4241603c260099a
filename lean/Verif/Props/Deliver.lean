import Verif.Props.Forward
import Verif.Props.Sessions

/-!
# C84: payload gets through

What a packet with payload leads to, exactly: the payload is written to the interface once if the packet can be decrypted and
nothing is wrong with it, and nothing is written otherwise. Together with C23, which says what is sent for a packet from the
interface, this describes the way of a packet from the interface of one daemon to that of another one.
-/

namespace Fastd.Daemon

set_option linter.unusedSectionVars false

section

variable [Env]

/-- The packets written to interfaces, with the peers they come from. -/
def writes (l : List Eff) : List (Nat × Bytes) :=
  l.filterMap fun
    | .write i d => some (i, d)
    | _ => none

/-- A session decrypts a packet to this payload. -/
def Yields (c : Ctx) (s : Session) (pkt data : Bytes) : Prop :=
  ∃ m k o b o', s.method = some m ∧ s.mstate = some k ∧ c.objs k = some o ∧ Env.decrypt m o pkt c.now = some (data, b, o')

/-- The payload of a packet from a peer: the old session, if it is still valid, comes first. -/
def Reads (c : Ctx) (p : Peer) (pkt data : Bytes) : Prop :=
  (SessOk c p.old ∧ Yields c p.old pkt data) ∨ (¬ (SessOk c p.old ∧ Opens c p.old pkt) ∧ Yields c p.sess pkt data)

/-- Payload that is handed to the interface: the peer has one, the payload is not empty (keepalives are), and in TAP mode it is at
least an ethernet header. -/
def Deliverable (p : Peer) (data : Bytes) : Prop := p.iface ≠ none ∧ data ≠ [] ∧ (Env.mode = .tap → 14 ≤ data.length)

theorem yields_iff {c : Ctx} {s : Session} {pkt data : Bytes} : Yields c s pkt data ↔ ∃ b o', decryptNow c s pkt = some (data, b, o') := by
  unfold Yields decryptNow
  cases s.method with
  | none => simp
  | some m =>
    cases s.mstate with
    | none => simp
    | some k =>
      cases ho : c.objs k with
      | none => simp [ho]
      | some o => simp [ho]

theorem deliverable_iff {p : Peer} {data : Bytes} (hd : data ≠ []) : Deliverable p data ↔ deliverable p data = true := by
  unfold Deliverable deliverable
  rw [Bool.and_eq_true, Option.isSome_iff_ne_none]
  constructor
  · rintro ⟨h1, _, h2⟩
    refine ⟨h1, ?_⟩
    by_cases hm : Env.mode = .tap
    · simp [hm, h2 hm]
    · simp [hm]
  · rintro ⟨h1, h2⟩
    refine ⟨h1, hd, fun hm => ?_⟩
    simpa [hm] using h2

theorem writes_nil {l : List Eff} (h : ∀ f ∈ l, ∀ i d, f ≠ .write i d) : writes l = [] := by
  unfold writes
  rw [List.filterMap_eq_nil_iff]
  intro f hf
  cases f with
  | write i d => exact absurd rfl (h _ hf i d)
  | _ => rfl

theorem writes_append (l l' : List Eff) : writes (l ++ l') = writes l ++ writes l' := List.filterMap_append

theorem Sends.writes {c : Ctx} {data : Bytes} {is : List Nat} {l : List Eff} (h : Sends c data is l) : Daemon.writes l = [] := by
  refine writes_nil fun f hf i d he => ?_
  subst he
  obtain ⟨_, _, b, hb, hm⟩ := h.mem hf
  cases hb <;> simp at hm

/-- What happens to a packet that can be decrypted. -/
theorem recv_accept {c c' : Ctx} (h : Reach anyEvent c) {sock : Sock} {loc rem : Addr} {d : Bytes}
    (hp : (Event.recv sock loc rem d).possible c) (he : handle (.recv sock loc rem d) c = .ok ((), c')) (hd : IsData d) {p : Peer}
    (hs : MaySend c sock loc rem p) : RecvRes p d c c' := by
  have hI : Inv False nobody nobody nobody c := Reach.inv (fun s => s.elim) h
  have hrem := hp.2.1
  have hr : RecvEv sock loc rem d c c' := h.res hp he
  obtain ⟨t, ht, htd⟩ := hd
  have hc : payload d = some (d, false) := by
    unfold payload
    rw [if_neg]
    rw [ht]
    intro hn
    cases hn
    exact absurd htd.1 (by decide)
  rw [← isDataPacket_iff] at htd
  rcases hr with ⟨_, hr⟩ | ⟨peer, q, b', hsd, hq, hr⟩
  · rcases hr with hr | ⟨n, j, hn, hm, hr⟩
    · rw [hc] at hr; cases hr
    · have := hs.sock n hn
      have hj := hI.sockInj hm this
      have hne := hr p hs.mem hj.symm
      rw [hs.rem] at hne
      cases hne
  · rw [hc] at hq
    cases hq
    have hpeer : peer = some p.id := by
      cases sock with
      | dyn n => exact hsd.own n p.id rfl (hs.sock n rfl)
      | bound k =>
        cases peer with
        | none =>
          have := hsd.bound k rfl rfl p hs.mem
          rw [hs.rem] at this; cases this
        | some j =>
          obtain ⟨q, hq, hqj, _⟩ := hsd.arg j rfl
          have := hsd.addr q hq (by rw [hqj])
          have e := hI.uniq p hs.mem q hq (addrEq_set hs.rem hrem) (addrEq_trans hs.rem (by rw [addrEq_comm]; exact this))
          rw [← hqj, e]
    subst hpeer
    cases hr with
    | ignored _ hi =>
      rcases hi with hi | ⟨t', ht', _, hd'⟩
      · cases hi
      · rw [ht] at ht'; cases ht'
        rw [htd] at hd'; cases hd'
    | handshake ht' =>
      rw [ht] at ht'; cases ht'
      exact absurd htd (by decide)
    | unknown t' ht' hd' hn =>
      rcases hn p hs.mem rfl with hn | hn
      · exact absurd hs.est hn
      · rw [hs.loc] at hn; cases hn
    | data q hq hqi hest hloc t' ht' hd' hr hf =>
      have e : q = p := sorted_inj hI.ids hq hs.mem (by simpa using hqi.symm)
      subst e
      exact hr

theorem RecvRes.log {c c' : Ctx} {p : Peer} {pkt : Bytes} (h : RecvRes p pkt c c') : ∃ l, c'.log = c.log ++ l := by
  cases h with
  | dead _ hv _ _ hr => obtain ⟨_, _, _, e⟩ := hr; rw [e]; exact ⟨_, rfl⟩
  | reject _ _ _ _ hc _ => rw [hc]; exact ⟨_, rfl⟩
  | accept _ _ _ _ _ _ _ _ _ _ _ _ _ _ l1 l2 _ _ _ hl => exact ⟨_, hl⟩

open Classical in
/-- What a data packet leads to. -/
theorem RecvRes.writes {c c' : Ctx} {p : Peer} {pkt : Bytes} (h : RecvRes p pkt c c') {l : List Eff} (hl : c'.log = c.log ++ l) :
    (∃ data, SessOk c p.sess ∧ Reads c p pkt data ∧ Daemon.writes l = if Deliverable p data then [(p.id, data)] else []) ∨
    ((¬ SessOk c p.sess ∨ ∀ data, ¬ Reads c p pkt data) ∧ Daemon.writes l = []) := by
  unfold Reads
  simp only [sessOk_iff, yields_iff, opens_iff]
  cases h with
  | dead _ hv _ _ hr =>
    obtain ⟨_, _, _, e⟩ := hr
    rw [e] at hl
    rw [← List.append_cancel_left hl]
    refine .inr ⟨.inl (by rw [hv]; simp), writes_nil fun f hf i d hfe => ?_⟩
    subst hfe
    split at hf <;> simp at hf
  | reject _ ho' hs' l' hc hl' =>
    rw [hc] at hl
    rw [← List.append_cancel_left hl]
    refine .inr ⟨.inr fun data hr => ?_, writes_nil fun f hf i d hfe => ?_⟩
    · rcases hr with ⟨h1, _, _, h2⟩ | ⟨_, _, _, h2⟩
      · rw [ho' h1] at h2; cases h2
      · rw [hs'] at h2; cases h2
    · subst hfe
      obtain ⟨_, _, h⟩ := hl' _ hf
      cases h
  | accept hv useOld ho' data b' o' k hdec hk q hq hsoft hold c1 l1 l2 _ _ _ hl' hl1 hacc hl2 =>
    have := List.append_cancel_left (hl'.symm.trans hl)
    subst this
    refine .inl ⟨data, hv, ?_, ?_⟩
    · cases useOld with
      | true => exact .inl ⟨ho', _, _, hdec⟩
      | false =>
        refine .inr ⟨fun h => ?_, _, _, hdec⟩
        rw [ho' h.1] at h
        cases h.2
    have hn1 : Daemon.writes l1 = [] := by
      refine writes_nil fun f hf i d hfe => ?_
      subst hfe
      rcases hl1 _ hf with h1 | ⟨_, h1⟩ | ⟨_, _, h1⟩ | h1 <;> cases h1
    rw [writes_append, hn1, List.nil_append]
    by_cases hne : data = []
    · rw [if_pos hne] at hl2
      rw [hl2, if_neg fun hx => hx.2.1 hne]
      rfl
    · rw [if_neg hne] at hl2
      have hdq : deliverable q data = deliverable p data := by unfold deliverable; rw [hsoft.iface]
      cases hl2 with
      | drop h1 h2 =>
        rw [h2, if_neg fun hx => ?_]
        · rfl
        · rw [deliverable_iff hne, ← hdq, h1] at hx; cases hx
      | write h1 es l' hes hle h2 hfw hnf =>
        rw [if_pos (by rw [deliverable_iff hne, ← hdq]; exact h1), h2, hsoft.id]
        have : Daemon.writes l' = [] := by
          by_cases hm : Env.mode = .tap ∧ Env.forward = true
          · exact (hfw hm.1 hm.2).writes
          · rw [hnf hm]; rfl
        show (p.id, data) :: Daemon.writes l' = _
        rw [this]

/-- A packet has at most one payload. -/
theorem Reads.inj {c : Ctx} {p : Peer} {pkt data data' : Bytes} (h : Reads c p pkt data) (h' : Reads c p pkt data') : data = data' := by
  unfold Reads at h h'
  simp only [sessOk_iff, yields_iff, opens_iff] at h h'
  rcases h with ⟨h0, _, _, h⟩ | ⟨h0, _, _, h⟩ <;> rcases h' with ⟨h0', _, _, h'⟩ | ⟨h0', _, _, h'⟩
  · rw [h] at h'; cases h'; rfl
  · exact absurd ⟨h0, by rw [h]; rfl⟩ h0'
  · exact absurd ⟨h0', by rw [h']; rfl⟩ h0
  · rw [h] at h'; cases h'; rfl

/-- **C84**: a data packet from the address of an established peer with a valid session is decrypted with the old session, or, if
this is not possible, with the current one; the payload is written to the interface once if it is deliverable. -/
theorem C84_deliver {c c' : Ctx} (h : Reach anyEvent c) {sock : Sock} {loc rem : Addr} {pkt : Bytes}
    (hp : (Event.recv sock loc rem pkt).possible c) (he : handle (.recv sock loc rem pkt) c = .ok ((), c')) {l : List Eff}
    (hl : c'.log = c.log ++ l) (hd : IsData pkt) {p : Peer} (hs : MaySend c sock loc rem p) (hv : SessOk c p.sess) {data : Bytes}
    (hr : Reads c p pkt data) : (Deliverable p data → writes l = [(p.id, data)]) ∧ (¬ Deliverable p data → writes l = []) := by
  rcases (recv_accept h hp he hd hs).writes hl with ⟨data', _, hr', hw⟩ | ⟨hn | hn, _⟩
  · rw [hr.inj hr']
    rw [hw]
    exact ⟨fun h => if_pos h, fun h => if_neg h⟩
  · exact absurd hv hn
  · exact absurd hr (hn _)

/-- **C84**: a packet no session decrypts, or one for an expired session, writes nothing. -/
theorem C84_drop {c c' : Ctx} (h : Reach anyEvent c) {sock : Sock} {loc rem : Addr} {pkt : Bytes}
    (hp : (Event.recv sock loc rem pkt).possible c) (he : handle (.recv sock loc rem pkt) c = .ok ((), c')) {l : List Eff}
    (hl : c'.log = c.log ++ l) (hd : IsData pkt) {p : Peer} (hs : MaySend c sock loc rem p)
    (hn : ¬ SessOk c p.sess ∨ ∀ data, ¬ Reads c p pkt data) : writes l = [] := by
  rcases (recv_accept h hp he hd hs).writes hl with ⟨data', hv, hr', hw⟩ | ⟨_, hw⟩
  · rcases hn with hn | hn
    · exact absurd hv hn
    · exact absurd hr' (hn _)
  · exact hw

/-- **C84**: nothing else is ever written to an interface. -/
theorem C84_only {c c' : Ctx} (h : Reach anyEvent c) {e : Event} (hp : e.possible c) (he : handle e c = .ok ((), c')) {l : List Eff}
    (hl : c'.log = c.log ++ l) {i : Nat} {data : Bytes} (hw : .write i data ∈ l) :
    ∃ sock loc rem pkt d p, e = .recv sock loc rem pkt ∧ Content pkt d ∧ IsData d ∧ p.id = i ∧ MaySend c sock loc rem p ∧
      SessOk c p.sess ∧ Reads c p d data ∧ Deliverable p data := by
  have nil : c'.log = c.log → False := by
    intro h
    rw [log_same h hl] at hw; cases hw
  have no : (∀ f ∈ l, f.empty = true) → False := fun h => by
    have := h _ hw
    cases this
  have no' : ∀ {data' : Bytes} {is : List Nat}, Sends c data' is l → False := fun h => by
    obtain ⟨_, _, b, hb, hm⟩ := h.mem hw
    cases hb <;> simp at hm
  have hres := h.res hp he
  cases e with
  | tick d => exact (nil (by rw [show c' = _ from hres])).elim
  | task i =>
    obtain ⟨p, _, _, _, hE⟩ := hres
    exact (no ((hE (fun f => f.empty = true) (fun _ => Eff.empty_of_plain) (fun _ => rfl) fun _ _ => rfl).all hl)).elim
  | maintenance => exact (nil (by rw [show c' = _ from hres])).elim
  | iface o d =>
    obtain ⟨l', hl', h1, h2, _⟩ := hres
    have : l' = l := List.append_cancel_left (hl'.symm.trans hl)
    subst this
    cases o with
    | none => exact (no' (h1 rfl)).elim
    | some j => exact (no' (h2 j rfl)).elim
  | resolved k a =>
    obtain ⟨_, _, hE⟩ := hres
    exact (no ((hE (fun f => f.empty = true)).lg.all hl)).elim
  | verified k ok =>
    obtain ⟨_, _, hE⟩ := hres
    exact (no ((hE (fun f => f.empty = true) fun _ => Eff.empty_of_plain).lg.all hl)).elim
  | reload d => exact (no ((hres.2.2 (fun f => f.empty = true) fun _ => Eff.empty_of_plain).all hl)).elim
  | resetAll => exact (no ((hres.2 (fun f => f.empty = true) fun _ => Eff.empty_of_plain).all hl)).elim
  | recv sock loc rem pkt =>
    have hr : RecvEv sock loc rem pkt c c' := hres
    rcases hr with ⟨hc, _⟩ | ⟨peer, q, b, hs, hpl, hr⟩
    · exact (nil (by rw [hc])).elim
    · cases hr with
      | ignored hc => exact (nil (by rw [hc])).elim
      | handshake ht hn hr => exact (no fun f hf => Eff.empty_of_ofHs (hr.ofHs hl f hf)).elim
      | unknown t ht hd hn hs hsock hf r hb hl' ho he =>
        exact (no ((hf (fun f => f.empty = true) (fun _ => Eff.empty_of_plain) rfl).lg.all hl)).elim
      | data p hpm hi hest hloc t ht hd hr hf =>
        have hwm : (i, data) ∈ writes l := by
          unfold writes
          rw [List.mem_filterMap]
          exact ⟨_, hw, rfl⟩
        rw [hi] at hs
        rcases hr.writes hl with ⟨data', hv, hr', hw'⟩ | ⟨_, hw'⟩
        · rw [hw'] at hwm
          split at hwm
          · rename_i hdv
            cases List.mem_singleton.1 hwm
            exact ⟨sock, loc, rem, pkt, q, p, rfl, payload_content hpl, ⟨t, ht, (isDataPacket_iff t).1 hd⟩, rfl,
              hs.maySend hpm hest hloc (possible_sock hp), hv, hr', hdv⟩
          · cases hwm
        · rw [hw'] at hwm
          cases hwm

/-- A packet read from an interface that is meant for a peer: from the interface of the peer, or from the shared one, where every
peer is meant in TUN mode and C23 says who is meant in TAP mode. -/
inductive Meant (c : Ctx) (i : Nat) (data : Bytes) : Event → Prop
  | own (h : ∃ p ∈ c.peers, p.id = i ∧ p.state = .established) (hd : data ≠ []) : Meant c i data (.iface (some i) data)
  | tun (hm : Env.mode ≠ .tap) (h : ∃ p ∈ c.peers, p.id = i ∧ p.state = .established) (hd : data ≠ []) : Meant c i data (.iface none data)
  | tap (hm : Env.mode = .tap) (hl : 14 ≤ data.length) (hf : For c none data i) : Meant c i data (.iface none data)

/-- **C84**: a packet from the interface is encrypted and sent to the peers it is meant for. -/
theorem C84_send {c c' : Ctx} (h : Reach anyEvent c) {e : Event} (hp : e.possible c) (he : handle e c = .ok ((), c')) {l : List Eff}
    (hl : c'.log = c.log ++ l) {p : Peer} (hpm : p ∈ c.peers) {data : Bytes} (hm : Meant c p.id data e) {k : Nat} {pkt : Bytes}
    (hk : Encrypts c p data k pkt) : ∃ sk, p.sock = some sk ∧ .send sk p.localAddr p.addr (some p.id) pkt ∈ l := by
  have fin : ∀ {dest : Nat → Prop}, SentTo c l data dest → dest p.id →
      ∃ sk, p.sock = some sk ∧ .send sk p.localAddr p.addr (some p.id) pkt ∈ l := by
    intro dest hs hd
    obtain ⟨l1, sk, l2, rfl, h2⟩ := hs.all p hpm hd k pkt hk
    exact ⟨sk, h2, by simp⟩
  have hI : Inv False nobody nobody nobody c := Reach.inv (fun s => s.elim) h
  cases hm with
  | own hs hd => exact fin (C23_own h hp he hl hd) ⟨rfl, hs⟩
  | tap hm hlen hf => exact fin (C23_iface hm h hp he hl hlen) hf
  | tun hm hs hd =>
    cases (h.res hp he).pay hl with
    | none hn => exact absurd rfl (hn _ _)
    | deliver hn => exact absurd rfl (hn _ _)
    | own j d hd => cases hd
    | forward _ _ _ _ _ _ hd => cases hd
    | shared d hd' hs' =>
      cases hd'
      have ht : targets c none data = others none c.peers := by unfold targets; rw [if_pos hm]
      rw [ht] at hs'
      refine fin (hs'.sentTo (l1 := []) hI.ids rfl (by simp) hd (others_nodup hI.ids)) ?_
      rw [mem_others]
      obtain ⟨q, hq, hqi, hqs⟩ := hs
      exact ⟨q, hq, hqi, hqs, by simp⟩

end

/-- **C84**, from one interface to the other: `a` has a packet for its peer `pB`, `b` knows `a` as `pA`. What `a` sends is, if it
arrives on its own or changed addresses that `b` knows, written to the interface at `b` exactly as it was, once. That the session
at `b` decrypts what the one at `a` has encrypted is a property of the method (see C01 to C14). -/
theorem C84_across (a b : Env) {ca ca' : @Ctx a} (ra : @Reach a (@anyEvent a) ca) {e : Event} (hp : @Event.possible a ca e)
    (he : @handle a e ca = .ok ((), ca')) {la : List Eff} (hla : @Ctx.log a ca' = @Ctx.log a ca ++ la) {pB : Peer}
    (hB : pB ∈ @Ctx.peers a ca) {data : Bytes} (hm : @Meant a ca pB.id data e) {k : Nat} {pkt : Bytes} (hk : @Encrypts a ca pB data k pkt)
    {cb cb' : @Ctx b} (rb : @Reach b (@anyEvent b) cb) {sock : Sock} {loc rem : Addr} {pA : Peer} (hs : @MaySend b cb sock loc rem pA)
    (hv : @SessOk b cb pA.sess) (hmeth : IsData pkt ∧ @Reads b cb pA pkt data) (hd : @Deliverable b pA data) :
    ∃ sk, pB.sock = some sk ∧ .send sk pB.localAddr pB.addr (some pB.id) pkt ∈ la ∧
      (@Event.possible b cb (.recv sock loc rem pkt) → @handle b (.recv sock loc rem pkt) cb = .ok ((), cb') →
        ∃ lb, @Ctx.log b cb' = @Ctx.log b cb ++ lb ∧ writes lb = [(pA.id, data)]) := by
  obtain ⟨sk, h1, h2⟩ := @C84_send a _ _ ra _ hp he _ hla _ hB _ hm _ _ hk
  refine ⟨sk, h1, h2, fun hpb heb => ?_⟩
  obtain ⟨lb, hlb⟩ := @RecvRes.log b _ _ _ _ (@recv_accept b _ _ rb _ _ _ _ hpb heb hmeth.1 _ hs)
  exact ⟨lb, hlb, (@C84_deliver b _ _ rb _ _ _ _ hpb heb _ hlb hmeth.1 _ hs hv _ hmeth.2).1 hd⟩

namespace Demo

section

local instance deliverEnv : Env := env {}

/-- A frame is written once, to the interface of its sender; -/
example : afterStep duo [] duoUp (.recv (.bound 0) (addrOf 1) (addrOf 2) (dataPkt 2 (frame 9 5)))
    (fun c c' => decide (writes (c'.log.drop c.log.length) = [(0, frame 9 5)])) = true := by decide +kernel

/-- a packet without payload is not, -/
example : afterStep duo [] duoUp (.recv (.bound 0) (addrOf 1) (addrOf 2) (dataPkt 2 []))
    (fun c c' => decide (writes (c'.log.drop c.log.length) = [])) = true := by decide +kernel

/-- nor is one that is too short for TAP mode, -/
example : afterStep duo [] duoUp (.recv (.bound 0) (addrOf 1) (addrOf 2) (dataPkt 2 [1, 2, 3]))
    (fun c c' => decide (writes (c'.log.drop c.log.length) = [])) = true := by decide +kernel

/-- nor one the session of the peer does not decrypt. -/
example : afterStep duo [] duoUp (.recv (.bound 0) (addrOf 1) (addrOf 2) (dataPkt 3 (frame 9 5)))
    (fun c c' => decide (writes (c'.log.drop c.log.length) = [])) = true := by decide +kernel

/-- The hypotheses of `C84_deliver` in this state, -/
example : ∃ (c : Ctx) (p : Peer), Reach anyEvent c ∧ MaySend c (.bound 0) (addrOf 1) (addrOf 2) p ∧ IsData (dataPkt 2 (frame 9 5)) ∧
    SessOk c p.sess ∧ Reads c p (dataPkt 2 (frame 9 5)) (frame 9 5) ∧ Deliverable p (frame 9 5) := by
  have h : after duo [] duoUp (fun c => match c.peers with
      | p :: _ => decide (p.state = .established) && addrEq p.addr (addrOf 2) && addrEq p.localAddr (addrOf 1) &&
        validNow c p.sess && !validNow c p.old && decide ((decryptNow c p.sess (dataPkt 2 (frame 9 5))).map (·.1) = some (frame 9 5)) &&
        p.iface.isSome
      | [] => false) = true := by decide +kernel
  obtain ⟨c, hr, h⟩ := after_reach h
  revert h
  cases hc : c.peers with
  | nil => intro h; cases h
  | cons p ps =>
    intro h
    simp only [Bool.and_eq_true, decide_eq_true_eq, Bool.not_eq_true'] at h
    obtain ⟨⟨⟨⟨⟨⟨h1, h2⟩, h3⟩, h4⟩, h5⟩, h6⟩, h7⟩ := h
    refine ⟨c, p, hr, ⟨by rw [hc]; simp, h1, h2, h3, (fun n hn => by cases hn)⟩, ⟨2, rfl, by decide⟩, sessOk_iff.2 h4, .inr ⟨fun h => ?_, ?_⟩,
      fun h => (by rw [h] at h7; cases h7), (by decide), fun _ => (by decide)⟩
    · rw [sessOk_iff, h5] at h; cases h.1
    · rw [yields_iff]
      rw [Option.map_eq_some_iff] at h6
      obtain ⟨⟨x, y, z⟩, h6, h8⟩ := h6
      cases h8
      exact ⟨y, z, h6⟩

/-- and those of `C84_send`. -/
example : ∃ (c : Ctx) (p : Peer) (pkt : Bytes), Reach anyEvent c ∧ p ∈ c.peers ∧ Meant c p.id (frame 9 1) (.iface none (frame 9 1)) ∧
    (Event.iface none (frame 9 1)).possible c ∧ Encrypts c p (frame 9 1) 0 pkt := by
  have h : after duo [] duoUp (fun c => match c.peers with
      | p :: _ => decide (p.state = .established) && validNow c p.sess && !validNow c p.old && decide (p.sess.method = some 0) &&
        decide (p.sess.mstate = some 0) && (c.objs 0).isSome && decide (c.eth = [])
      | [] => false) = true := by decide +kernel
  obtain ⟨c, hr, h⟩ := after_reach h
  revert h
  cases hc : c.peers with
  | nil => intro h; cases h
  | cons p ps =>
    intro h
    simp only [Bool.and_eq_true, decide_eq_true_eq, Bool.not_eq_true'] at h
    obtain ⟨⟨⟨⟨⟨⟨h1, h2⟩, h3⟩, h4⟩, h5⟩, h6⟩, h7⟩ := h
    have hm : p ∈ c.peers := by rw [hc]; simp
    obtain ⟨o, ho⟩ := Option.isSome_iff_exists.1 h6
    refine ⟨c, p, _, hr, hm, .tap rfl (by decide) ⟨⟨p, hm, rfl, h1⟩, (by simp), .inr ⟨(by decide), .inl fun e he => ?_⟩⟩, rfl,
      sessOk_iff.2 h2, p.sess, 0, o, _, .inr ⟨fun h => ?_, rfl⟩, h4, h5, ho, rfl⟩
    · rw [h7] at he; cases he
    · rw [sessOk_iff (s := p.old), h3] at h; cases h.2

end

end Demo

end Fastd.Daemon
