import Verif.Daemon.ForwardSpec
import Verif.Daemon.Demo
import Verif.Props.Sessions

/-!
# Payload from the interface and between peers

* C23: where a frame is sent to

For all states reached from an arbitrary start by arbitrary events, in an arbitrary environment.
-/

namespace Fastd.Daemon

set_option linter.unusedSectionVars false

section

variable [Env]

/-! ### C23 -/

/-- The address of an ethernet frame is that of a group. -/
def IsGroup (mac : Bytes) : Prop := mac.headD 0 &&& (1 : UInt8) = 1

/-- A frame with the destination in bytes 0-5 and the source in bytes 6-11 that has come from the peer `source` (or the interface) is for peer
`i`: it is connected, not the source, and the destination is a group, unknown, or known to belong to this peer. -/
structure For (c : Ctx) (source : Option Nat) (data : Bytes) (i : Nat) : Prop where
  est : ∃ p ∈ c.peers, p.id = i ∧ p.state = .established
  other : source ≠ some i
  dest : IsGroup (data.take 6) ∨ (data.take 6 ≠ (data.drop 6).take 6 ∧
    ((∀ e ∈ c.eth, e.addr ≠ data.take 6) ∨ ∃ e ∈ c.eth, e.addr = data.take 6 ∧ e.peer = some i))

theorem isUnicast_iff (mac : Bytes) : (!isUnicast mac) = true ↔ IsGroup mac := by
  unfold isUnicast IsGroup
  have key : ∀ n : Fin 256, (!decide (UInt8.ofNat n.val &&& (1 : UInt8) = 0)) = true ↔ UInt8.ofNat n.val &&& (1 : UInt8) = 1 := by
    decide +kernel
  have := key ⟨(mac.headD 0).toNat, UInt8.toNat_lt _⟩
  simpa using this

/-- The same as a list. -/
def goesTo (c : Ctx) (source : Option Nat) (data : Bytes) : List Nat :=
  if !isUnicast (destMac data) then others source c.peers
  else if destMac data = sourceMac data then []
  else
    match (ethEntry c.eth (destMac data)).map (·.peer) with
    | none => others source c.peers
    | some none => []
    | some (some d) => if some d = source then [] else [d]

theorem mem_forwards {c : Ctx} (he : EthOk c.peers c.eth) {source : Option Nat} {data : Bytes} {i : Nat} :
    i ∈ goesTo c source data ↔ For c source data i := by
  unfold goesTo
  have ho : i ∈ others source c.peers ↔ (∃ p ∈ c.peers, p.id = i ∧ p.state = .established) ∧ source ≠ some i := by
    rw [mem_others]
    constructor
    · rintro ⟨p, h1, h2, h3, h4⟩
      exact ⟨⟨p, h1, h2, h3⟩, fun h => h4 h.symm⟩
    · rintro ⟨⟨p, h1, h2, h3⟩, h4⟩
      exact ⟨p, h1, h2, h3, fun h => h4 h.symm⟩
  by_cases hu : (!isUnicast (destMac data)) = true
  · rw [if_pos hu, ho]
    rw [isUnicast_iff] at hu
    exact ⟨fun h => ⟨h.1, h.2, .inl hu⟩, fun h => ⟨h.est, h.other⟩⟩
  · rw [if_neg hu]
    rw [isUnicast_iff] at hu
    by_cases hs : destMac data = sourceMac data
    · rw [if_pos hs]
      refine ⟨fun h => by (cases h), fun h => ?_⟩
      rcases h.dest with h | h
      · exact absurd h hu
      · exact absurd hs h.1
    · rw [if_neg hs]
      cases hn : ethEntry c.eth (destMac data) with
      | none =>
        simp only [Option.map_none]
        rw [ho]
        exact ⟨fun h => ⟨h.1, h.2, .inr ⟨hs, .inl (ethEntry_none.1 hn)⟩⟩, fun h => ⟨h.est, h.other⟩⟩
      | some e =>
        obtain ⟨hm, ha⟩ := (ethEntry_some he.sorted).1 hn
        have uniq : For c source data i → e.peer = some i := by
          intro h
          rcases h.dest with h | ⟨_, h | ⟨e', h1, h2, h3⟩⟩
          · exact absurd h hu
          · exact absurd ha (h e hm)
          · rw [ethSorted_inj he.sorted hm h1 (ha.trans h2.symm)]; exact h3
        simp only [Option.map_some]
        cases hp : e.peer with
        | none =>
          refine ⟨fun h => by (cases h), fun h => ?_⟩
          rw [uniq h] at hp; cases hp
        | some d =>
          simp only []
          split
          · rename_i hds
            refine ⟨fun h => by (cases h), fun h => ?_⟩
            rw [uniq h] at hp; cases hp
            exact absurd hds.symm h.other
          · rename_i hds
            rw [List.mem_singleton]
            constructor
            · rintro rfl
              exact ⟨he.peer e hm _ hp, fun h => hds h.symm, .inr ⟨hs, .inr ⟨e, hm, ha, hp⟩⟩⟩
            · intro h
              rw [uniq h] at hp; cases hp; rfl

theorem targets_none {c : Ctx} {data : Bytes} (hm : Env.mode = .tap) (hl : 14 ≤ data.length) :
    targets c none data = goesTo c none data := by
  unfold targets goesTo
  rw [if_neg (by simp [hm]), if_neg (by omega)]
  split
  · rfl
  · rename_i hu
    unfold learned
    by_cases hs : destMac data = sourceMac data
    · rw [if_pos ⟨rfl, by rw [← hs]; simpa using hu, hs⟩, if_pos hs]
    · rw [if_neg (fun h => hs h.2.2), if_neg hs]
      cases (ethEntry c.eth (destMac data)).map (·.peer) with
      | none => rfl
      | some o => cases o <;> rfl

theorem forwards_eq {c : Ctx} {j : Nat} {data : Bytes} : forwards c j data = goesTo c (some j) data := by
  unfold forwards goesTo
  split
  · rfl
  · split
    · rfl
    · cases (ethEntry c.eth (destMac data)).map (·.peer) with
      | none => rfl
      | some o =>
        cases o with
        | none => rfl
        | some d => simp

theorem targets_nodup {c : Ctx} (hs : Sorted c.peers) {source : Option Nat} {data : Bytes} :
    (goesTo c source data).Nodup := by
  unfold goesTo
  split
  · exact others_nodup hs
  · split
    · exact List.nodup_nil
    · split
      · exact others_nodup hs
      · exact List.nodup_nil
      · split
        · exact List.nodup_nil
        · simp

/-- Encryption of `data` for the peer, with the session in use (see C36), succeeds and results in `pkt`. -/
def Encrypts (c : Ctx) (p : Peer) (data : Bytes) (k : Nat) (pkt : Bytes) : Prop :=
  SessOk c p.sess ∧ ∃ s m o o', ((Initiated c p.sess ∧ SessOk c p.old ∧ s = p.old) ∨ (¬ (Initiated c p.sess ∧ SessOk c p.old) ∧ s = p.sess)) ∧
    s.method = some m ∧ s.mstate = some k ∧ c.objs k = some o ∧ Env.encrypt m o data = some (pkt, o')

/-- `data` is encrypted at most once for each peer it is for, for nobody else, and no other data is; unless this fails, it is sent to the
address of the peer. -/
structure SentTo (c : Ctx) (l : List Eff) (data : Bytes) (dest : Nat → Prop) : Prop where
  only : ∀ i k d, .encrypt i k d ∈ l → d ≠ [] → d = data ∧ dest i
  once : ∀ i, l.countP (Eff.isEnc i data) ≤ 1
  all : ∀ p ∈ c.peers, dest p.id → ∀ k pkt, Encrypts c p data k pkt →
    ∃ l1 sk l2, l = l1 ++ [.encrypt p.id k data, .send sk p.localAddr p.addr (some p.id) pkt] ++ l2 ∧ p.sock = some sk

theorem Sends.sentTo {c : Ctx} (hs : Sorted c.peers) {data : Bytes} {is : List Nat} {l0 l1 l2 : List Eff} (h : Sends c data is l2)
    (hl : l0 = l1 ++ l2) (h1 : ∀ f ∈ l1, f.empty = true) (hd : data ≠ []) (hn : is.Nodup) : SentTo c l0 data (· ∈ is) := by
  subst hl
  refine ⟨fun i k d he hne => ?_, fun i => ?_, fun p hp hi k pkt hk => ?_⟩
  · rcases List.mem_append.1 he with he | he
    · exact absurd (List.isEmpty_iff.1 (h1 _ he)) hne
    · obtain ⟨j, hj, b, hb, he⟩ := h.mem he
      cases hb with
      | dead => simp at he
      | failed => simp at he
      | sent =>
        simp only [List.mem_cons, Eff.encrypt.injEq, reduceCtorEq, List.not_mem_nil, or_false] at he
        obtain ⟨rfl, rfl, rfl⟩ := he
        exact ⟨rfl, hj⟩
  · rw [List.countP_append]
    have : l1.countP (Eff.isEnc i data) = 0 := by
      rw [List.countP_eq_zero]
      intro f hf he
      have := h1 f hf
      cases f with
      | encrypt j k d =>
        simp only [Eff.isEnc, Bool.and_eq_true, decide_eq_true_eq] at he
        rw [he.2] at this
        exact hd (List.isEmpty_iff.1 this)
      | _ => cases he
    rw [this, Nat.zero_add]
    exact Nat.le_trans (h.count i) (List.nodup_iff_count.1 hn i)
  · obtain ⟨hv, s, m, o, o', h0, h2, h3, h4, h5⟩ := hk
    rw [sessOk_iff] at hv
    have hs' : s = chosen c p := by
      unfold chosen useOldNow
      simp only [initiated_iff, sessOk_iff] at h0
      rcases h0 with ⟨e1, e2, e3⟩ | ⟨e1, e2⟩
      · rw [if_pos (by rw [e1, e2]; rfl), e3]
      · rw [if_neg (by rw [Bool.and_eq_true]; exact e1), e2]
    subst hs'
    obtain ⟨a, sk, b, e, h6⟩ := h.complete hs hp hi hv h2 h3 h4 h5
    exact ⟨l1 ++ a, sk, b, by rw [e]; simp, h6⟩

theorem SentTo.congr {c : Ctx} {l : List Eff} {data : Bytes} {s t : Nat → Prop} (h : SentTo c l data s) (ht : ∀ i, s i ↔ t i) :
    SentTo c l data t :=
  ⟨fun i k d h1 h2 => ⟨(h.only i k d h1 h2).1, (ht i).1 (h.only i k d h1 h2).2⟩, h.once, fun p hp hi => h.all p hp ((ht _).2 hi)⟩

/-- **C23**: in TAP mode a frame from the interface is sent to the peers it is for, and to nobody else. -/
theorem C23_iface (hm : Env.mode = .tap) {c c' : Ctx} (h : Reach anyEvent c) {data : Bytes} (hp : (Event.iface none data).possible c)
    (he : handle (.iface none data) c = .ok ((), c')) {l : List Eff} (hl : c'.log = c.log ++ l) (hlen : 14 ≤ data.length) :
    SentTo c l data (For c none data) := by
  have hI : Inv False nobody nobody nobody c := Reach.inv (fun s => s.elim) h
  cases (h.res hp he).pay hl with
  | none hn => exact absurd rfl (hn _ _)
  | deliver hn => exact absurd rfl (hn _ _)
  | shared d hd hs =>
    cases hd
    have hnd : (targets c none data).Nodup := by rw [targets_none hm hlen]; exact targets_nodup hI.ids
    refine (hs.sentTo (l1 := []) hI.ids rfl (by simp) (fun hn => ?_) hnd).congr fun i => ?_
    · rw [hn] at hlen; exact absurd hlen (by decide)
    · rw [targets_none hm hlen]
      exact mem_forwards hI.eth
  | own j d hd => cases hd
  | forward _ _ _ _ _ _ hd => cases hd

/-- **C23**: shorter frames are not sent at all. -/
theorem C23_short (hm : Env.mode = .tap) {c c' : Ctx} (h : Reach anyEvent c) {data : Bytes} (hp : (Event.iface none data).possible c)
    (he : handle (.iface none data) c = .ok ((), c')) (hlen : data.length < 14) : c'.log = c.log := by
  obtain ⟨l, hl, hs, _⟩ := h.res hp he
  have := hs rfl
  unfold targets at this
  rw [if_neg (by simp [hm]), if_pos hlen] at this
  cases hq : l with
  | nil => rw [hl, hq]; simp
  | cons f fs =>
    obtain ⟨_, hi, _⟩ := this.mem (e := f) (by rw [hq]; simp)
    cases hi

/-- **C23**: payload from the interface of one peer is sent to this peer only. -/
theorem C23_own {c c' : Ctx} (h : Reach anyEvent c) {j : Nat} {data : Bytes} (hp : (Event.iface (some j) data).possible c)
    (he : handle (.iface (some j) data) c = .ok ((), c')) {l : List Eff} (hl : c'.log = c.log ++ l) (hd : data ≠ []) :
    SentTo c l data (fun i => i = j ∧ ∃ p ∈ c.peers, p.id = i ∧ p.state = .established) := by
  have hI : Inv False nobody nobody nobody c := Reach.inv (fun s => s.elim) h
  cases (h.res hp he).pay hl with
  | none hn => exact absurd rfl (hn _ _)
  | deliver hn => exact absurd rfl (hn _ _)
  | shared d hd hs => cases hd
  | own j' d hd' hs =>
    cases hd'
    refine (hs.sentTo (l1 := []) hI.ids rfl (by simp) hd ?_).congr fun i => ?_
    · have hs' : Sorted (c.peers.filter (·.id = j)) := by
        have := hI.ids
        exact this.sublist (List.filter_sublist.map _)
      exact others_nodup hs'
    · rw [mem_others]
      constructor
      · rintro ⟨p, hp, rfl, hs, _⟩
        rw [List.mem_filter] at hp
        exact ⟨by simpa using hp.2, p, hp.1, rfl, hs⟩
      · rintro ⟨rfl, p, hp, hi, hs⟩
        exact ⟨p, List.mem_filter.2 ⟨hp, by simpa using hi⟩, hi, hs, by simp⟩
  | forward _ _ _ _ _ _ hd => cases hd

/-- **C23**: a frame received from a peer is forwarded to the peers it is for, and to nobody else, if forwarding is configured. -/
theorem C23_forward (hm : Env.mode = .tap) (hf : Env.forward = true) {c c' : Ctx} (h : Reach anyEvent c) {e : Event} (hp : e.possible c)
    (he : handle e c = .ok ((), c')) {l : List Eff} (hl : c'.log = c.log ++ l) {j : Nat} {data : Bytes} (hw : .write j data ∈ l) :
    SentTo c l data (For c (some j) data) := by
  have hI : Inv False nobody nobody nobody c := Reach.inv (fun s => s.elim) h
  have no : ∀ {l : List Eff}, (∀ f ∈ l, f.empty = true) → ¬ .write j data ∈ l := fun h hm => by
    have := h _ hm
    cases this
  have no' : ∀ {l : List Eff} {data' : Bytes} {is : List Nat}, Sends c data' is l → ¬ .write j data ∈ l := fun h hm => by
    obtain ⟨_, _, b, hb, hm⟩ := h.mem hm
    cases hb <;> simp at hm
  cases (h.res hp he).pay hl with
  | none _ hn => exact absurd hw (no hn)
  | deliver _ hc => exact absurd ⟨hm, hf⟩ hc
  | shared _ _ hs => exact absurd hw (no' hs)
  | own _ _ _ hs => exact absurd hw (no' hs)
  | forward _ _ _ _ _ _ _ _ p hpm _ data' hne _ _ _ l1 l2 hll h1 hs =>
    have hx : p.id = j ∧ data' = data := by
      rw [hll] at hw
      rcases List.mem_append.1 hw with hw | hw
      · exact absurd hw (no h1)
      · rcases List.mem_cons.1 hw with hw | hw
        · cases hw; exact ⟨rfl, rfl⟩
        · exact absurd hw (no' hs)
    obtain ⟨rfl, rfl⟩ := hx
    rw [forwards_eq] at hs
    have hs0 := hs.sentTo (l0 := l2) (l1 := []) hI.ids rfl (by simp) hne (targets_nodup hI.ids)
    refine SentTo.congr (s := (· ∈ goesTo c (some p.id) data')) ⟨fun i k d hx hd => ?_, fun i => ?_, fun q hq hi k pkt hk => ?_⟩
      fun i => mem_forwards hI.eth
    · rw [hll] at hx
      rcases List.mem_append.1 hx with hx | hx
      · exact absurd (List.isEmpty_iff.1 (h1 _ hx)) hd
      · rcases List.mem_cons.1 hx with hx | hx
        · cases hx
        · exact hs0.only i k d hx hd
    · rw [hll, List.countP_append, List.countP_cons]
      have : l1.countP (Eff.isEnc i data') = 0 := by
        rw [List.countP_eq_zero]
        intro f hf he
        have := h1 f hf
        cases f with
        | encrypt j k d =>
          simp only [Eff.isEnc, Bool.and_eq_true, decide_eq_true_eq] at he
          rw [he.2] at this
          exact hne (List.isEmpty_iff.1 this)
        | _ => cases he
      rw [this]
      simpa [Eff.isEnc] using hs0.once i
    · obtain ⟨a, sk, b, e1, e2⟩ := hs0.all q hq hi k pkt hk
      exact ⟨l1 ++ .write p.id data' :: a, sk, b, by rw [hll, e1]; simp, e2⟩

/-- **C23**: payload is only sent in these cases. -/
theorem C23_only {c c' : Ctx} (h : Reach anyEvent c) {e : Event} (hp : e.possible c) (he : handle e c = .ok ((), c')) {l : List Eff}
    (hl : c'.log = c.log ++ l) {i k : Nat} {d : Bytes} (hx : .encrypt i k d ∈ l) (hd : d ≠ []) :
    (∃ o, e = .iface o d) ∨ (Env.mode = .tap ∧ Env.forward = true ∧ ∃ j, .write j d ∈ l) := by
  have no : ∀ {l : List Eff}, (∀ f ∈ l, f.empty = true) → ¬ .encrypt i k d ∈ l := fun h hm =>
    hd (List.isEmpty_iff.1 (h _ hm))
  have same : ∀ {l : List Eff} {data' : Bytes} {is : List Nat}, Sends c data' is l → .encrypt i k d ∈ l → data' = d := fun h hm => by
    obtain ⟨_, _, b, hb, hm⟩ := h.mem hm
    cases hb with
    | dead => simp at hm
    | failed => simp at hm
    | sent =>
      simp only [List.mem_cons, Eff.encrypt.injEq, reduceCtorEq, List.not_mem_nil, or_false] at hm
      exact hm.2.2.symm
  cases (h.res hp he).pay hl with
  | none _ hn => exact absurd hx (no hn)
  | deliver _ _ _ _ l1 hll h1 =>
    rw [hll] at hx
    rcases List.mem_append.1 hx with hx | hx
    · exact absurd hx (no h1)
    · simp at hx
  | shared data hd hs => rw [same hs hx] at hd; exact .inl ⟨_, hd⟩
  | own j data hd hs => rw [same hs hx] at hd; exact .inl ⟨_, hd⟩
  | forward _ _ _ _ _ _ _ _ p hpm _ data' hne _ hm hf l1 l2 hll h1 hs =>
    refine .inr ⟨hm, hf, p.id, ?_⟩
    rw [hll] at hx
    rcases List.mem_append.1 hx with hx | hx
    · exact absurd hx (no h1)
    · rcases List.mem_cons.1 hx with hx | hx
      · cases hx
      · rw [same hs hx] at hll
        rw [hll]; simp

end

namespace Demo

/-! ### Three frames -/

section

local instance forwardEnv : Env := env { forward := true }

/-- The peers a frame is encrypted for. -/
def sentTo (data : Bytes) (c c' : Ctx) : List Nat :=
  (c'.log.drop c.log.length).filterMap fun
    | .encrypt i _ d => if d = data then some i else none
    | _ => none

/-- A frame for an unknown address is sent to all peers, -/
example : afterStep duo [] duoUp (.iface none (frame 9 1)) (fun c c' => decide (sentTo (frame 9 1) c c' = [0, 1])) = true := by
  decide +kernel

/-- one for an address that the second peer has sent from only to that one, -/
example : afterStep duo [] (duoUp ++ [.recv (.bound 0) (addrOf 1) (addrOf 3) (dataPkt 3 (frame 1 9))]) (.iface none (frame 9 1))
    (fun c c' => decide (sentTo (frame 9 1) c c' = [1])) = true := by
  decide +kernel

/-- also if it is from the first peer, -/
example : afterStep duo [] (duoUp ++ [.recv (.bound 0) (addrOf 1) (addrOf 3) (dataPkt 3 (frame 1 9))])
    (.recv (.bound 0) (addrOf 1) (addrOf 2) (dataPkt 2 (frame 9 5)))
    (fun c c' => decide (sentTo (frame 9 5) c c' = [1] ∧ .write 0 (frame 9 5) ∈ c'.log.drop c.log.length)) = true := by
  decide +kernel

/-- but not back to where it came from. -/
example : afterStep duo [] (duoUp ++ [.recv (.bound 0) (addrOf 1) (addrOf 3) (dataPkt 3 (frame 1 9))])
    (.recv (.bound 0) (addrOf 1) (addrOf 3) (dataPkt 3 (frame 9 5)))
    (fun c c' => decide (sentTo (frame 9 5) c c' = [] ∧ .write 1 (frame 9 5) ∈ c'.log.drop c.log.length)) = true := by
  decide +kernel

end

end Demo

end Fastd.Daemon
