import Verif.Daemon.SessSpec

/-!
# Payload and the invariant: the MAC table, sending to peers
-/

namespace Fastd.Daemon

set_option linter.unusedSectionVars false

variable [Env] {S : Prop} {x y z : Nat → Prop}

/-! ### The MAC table -/

theorem EthOk.learn {ps : List Peer} {es es' : List Eth} {e : Eth} (h : EthOk ps es) (hl : ethLearn es e es')
    (he : ∀ i, e.peer = some i → ∃ p ∈ ps, p.id = i ∧ p.state = .established) : EthOk ps es' := by
  refine ⟨hl.1, fun f hf i hi => ?_⟩
  have h1 := (ethEntry_some hl.1 (a := f.addr) (e := f)).2 ⟨hf, rfl⟩
  rw [hl.2] at h1
  split at h1
  · cases h1
    exact he i hi
  · rw [ethEntry_some h.sorted] at h1
    exact h.peer f h1.1 i hi

theorem Inv.eths {c : Ctx} (h : Inv S x y z c) {es : List Eth} (he : EthOk c.peers es) : Inv S x y z { c with eth := es } :=
  { h with eth := he }

theorem Fr.eths {t a : Nat → Prop} {E : Eff → Prop} {c : Ctx} {es : List Eth} : Fr t a E c { c with eth := es } :=
  ⟨rfl, rfl, Nat.le_refl _, forall₂_refl' fun _ _ => PFr.refl, fun _ _ _ _ _ => rfl, [], (List.append_nil _).symm, by simp⟩

theorem wp_ethPut {c : Ctx} (h : Inv S x y z c) {peer : Option Nat} {a : Bytes}
    (hp : ∀ i, peer = some i → ∃ p ∈ c.peers, p.id = i ∧ p.state = .established) {Q : Unit → Ctx → Prop}
    (hQ : ∀ es, Inv S x y z { c with eth := es } → ethLearn c.eth ⟨a, peer, c.now + ETH_ADDR_STALE_TIME⟩ es →
      Q () { c with eth := es }) : wp S (ethPut peer a) Q c := by
  unfold ethPut
  rw [wp_bind, wp_get]
  have key := ethPut_learn h.eth.sorted peer a (c.now + ETH_ADDR_STALE_TIME)
  have fin : ∀ es, ethLearn c.eth ⟨a, peer, c.now + ETH_ADDR_STALE_TIME⟩ es → Q () { c with eth := es } :=
    fun es hl => hQ es (h.eths (h.eth.learn hl hp)) hl
  cases hs : ethSearch c.eth a (c.eth.length + 1) 0 c.eth.length with
  | error e => rw [hs] at key; exact absurd key id
  | ok r =>
    rw [hs] at key
    cases r with
    | inl k => simp only [] at key ⊢; rw [wp_modify]; exact fin _ key
    | inr k => simp only [] at key ⊢; rw [wp_modify]; exact fin _ key

theorem wp_ethAdd {c : Ctx} (h : Inv S x y z c) {peer : Option Nat} {a : Bytes}
    (hp : ∀ i, peer = some i → ∃ p ∈ c.peers, p.id = i ∧ p.state = .established) {Q : Unit → Ctx → Prop}
    (hQ : ∀ es, Inv S x y z { c with eth := es } → ethLearn c.eth ⟨a, peer, c.now + ETH_ADDR_STALE_TIME⟩ es →
      Q () { c with eth := es }) : wp S (ethAdd peer a) Q c := by
  unfold ethAdd
  cases peer with
  | none => exact wp_ethPut h hp hQ
  | some i =>
    simp only []
    obtain ⟨p, hpm, hpi, he⟩ := hp i rfl
    rw [wp_bind, wp_getP' h.ids hpm hpi]
    refine wp_ite (fun hn => by simp [Peer.isEstablished, he] at hn) (fun _ => ?_)
    exact wp_ethPut h hp hQ

/-! ### What sending a packet to peers does -/

/-- The session payload for a peer is encrypted with. -/
def chosen (c : Ctx) (p : Peer) : Session := if useOldNow c p then p.old else p.sess

/-- The effects of sending a packet to one established peer: its session has expired, encrypting it fails, or it is
encrypted and sent to the address of the peer. -/
inductive Block (c : Ctx) (data : Bytes) (i : Nat) : List Eff → Prop
  | dead {p : Peer} (hp : p ∈ c.peers) (hi : p.id = i) (he : p.state = .established) (hv : validNow c p.sess = false) :
      Block c data i [.disestablished i]
  | failed {p : Peer} (hp : p ∈ c.peers) (hi : p.id = i) (he : p.state = .established)
      (hv : validNow c p.sess = true) {m k : Nat} {o : Env.Sess} (hm : (chosen c p).method = some m)
      (hk : (chosen c p).mstate = some k) (ho : c.objs k = some o) (hf : Env.encrypt m o data = none) :
      Block c data i []
  | sent {p : Peer} (hp : p ∈ c.peers) (hi : p.id = i) (he : p.state = .established)
      (hv : validNow c p.sess = true) {m k : Nat} {o o' : Env.Sess} {pkt : Bytes} {sk : Sock}
      (hm : (chosen c p).method = some m) (hk : (chosen c p).mstate = some k) (ho : c.objs k = some o)
      (hf : Env.encrypt m o data = some (pkt, o')) (hs : p.sock = some sk) :
      Block c data i [.encrypt i k data, .send sk p.localAddr p.addr (some i) pkt]

/-- The effects of sending a packet to several peers in turn. -/
inductive Sends (c : Ctx) (data : Bytes) : List Nat → List Eff → Prop
  | nil : Sends c data [] []
  | snoc {is : List Nat} {l : List Eff} {i : Nat} {b : List Eff} (h : Sends c data is l) (hb : Block c data i b) :
      Sends c data (is ++ [i]) (l ++ b)

theorem Sends.one {c : Ctx} {data : Bytes} {i : Nat} {b : List Eff} (h : Block c data i b) : Sends c data [i] b := by
  have := Sends.snoc Sends.nil h
  simpa using this

/-- The result of `protocol_send` for a peer that has not changed since an earlier state. -/
theorem SendRes.block {c0 c c' : Ctx} {p : Peer} {data : Bytes} (h : SendRes p data c c') (he : p.state = .established)
    (hp : p ∈ c0.peers) (ho : ∀ k ∈ p.refs, c.objs k = c0.objs k) (hn : c.now = c0.now) :
    ∃ b, c'.log = c.log ++ b ∧ Block c0 data p.id b := by
  have hsess : ∀ k, p.sess.mstate = some k → c.objs k = c0.objs k := fun k hk =>
    ho k (by unfold Peer.refs; rw [hk]; simp)
  have hold : ∀ k, p.old.mstate = some k → c.objs k = c0.objs k := fun k hk =>
    ho k (by unfold Peer.refs; rw [hk]; simp)
  have hv : validNow c p.sess = validNow c0 p.sess := validNow_congr hsess hn
  have hu : useOldNow c p = useOldNow c0 p := by
    unfold useOldNow
    rw [initiatorNow_congr (c := c0) (c' := c) hsess, validNow_congr (c := c0) (c' := c) hold hn]
  cases h with
  | idle h _ => exact absurd he h
  | dead q _ hvd _ _ hr =>
    obtain ⟨ht, r, n, e⟩ := hr
    refine ⟨[.disestablished p.id], ?_, .dead hp rfl he (hv.symm.trans hvd)⟩
    rw [e]
    simp [Peer.isEstablished, he]
  | sent q _ hvd _ _ _ hd =>
    obtain ⟨m, k, o, hm, hk, hok, hor⟩ := hd
    rw [hu] at hm hk
    have hkr : c.objs k = c0.objs k := by
      split at hk
      · exact hold k hk
      · exact hsess k hk
    rw [hkr] at hok
    rcases hor with ⟨hf, hl⟩ | ⟨pkt, o', sk, hf, hs, _, hl⟩
    · exact ⟨[], by rw [hl, List.append_nil], .failed hp rfl he (hv.symm.trans hvd) hm hk hok hf⟩
    · exact ⟨_, hl, .sent hp rfl he (hv.symm.trans hvd) hm hk hok hf hs⟩

/-- The established peers except the source. -/
def others (source : Option Nat) (ps : List Peer) : List Nat :=
  (ps.filter fun p => p.isEstablished && !decide (some p.id = source)).map (·.id)

theorem others_append (source : Option Nat) (ps qs : List Peer) :
    others source (ps ++ qs) = others source ps ++ others source qs := by
  unfold others; rw [List.filter_append, List.map_append]

theorem forall₂_get {α β : Type} {R : α → β → Prop} {l : List α} {l' : List β} (h : List.Forall₂ R l l') (k : Nat) :
    (l[k]? = none ∧ l'[k]? = none) ∨ ∃ a b, l[k]? = some a ∧ l'[k]? = some b ∧ R a b := by
  induction h generalizing k with
  | nil => left; simp
  | cons hab _ ih =>
    cases k with
    | zero => right; exact ⟨_, _, rfl, rfl, hab⟩
    | succ k => simpa using ih k

theorem sorted_notMem_take {ps : List Peer} (hs : Sorted ps) {k : Nat} {p : Peer} (hp : ps[k]? = some p) :
    p.id ∉ (ps.take k).map (·.id) := by
  intro hm
  obtain ⟨q, hq, he⟩ := List.mem_map.1 hm
  obtain ⟨j, hj, hqj⟩ := List.mem_iff_getElem.1 hq
  obtain ⟨hk, hpk⟩ := List.getElem?_eq_some_iff.1 hp
  rw [List.length_take] at hj
  have := List.pairwise_iff_getElem.1 (List.pairwise_map.1 hs) j k (by omega) hk (by omega)
  rw [List.getElem_take] at hqj
  rw [hqj, hpk] at this
  omega

theorem take_add_one {α : Type} {l : List α} {k : Nat} {a : α} (h : l[k]? = some a) : l.take (k + 1) = l.take k ++ [a] := by
  obtain ⟨hk, ha⟩ := List.getElem?_eq_some_iff.1 h
  rw [← ha, List.take_append_getElem hk]

/-- Effects of sending payload. -/
def PayE (E : Eff → Prop) (c : Ctx) (source : Option Nat) (data : Bytes) : Prop :=
  (∀ e, e.plain = true → E e) ∧
    ∀ p ∈ c.peers, p.state = .established → some p.id ≠ source → ∀ k, E (.encrypt p.id k data)

theorem wp_sendAll_go (hS : S → EnvOk) {data : Bytes} {source : Option Nat} {c0 : Ctx} (hs0 : Sorted c0.peers)
    {Q : Unit → Ctx → Prop}
    (hQ : ∀ c' l, Inv S nobody y z c' → c'.log = c0.log ++ l → Sends c0 data (others source c0.peers) l →
      (∀ E, PayE E c0 source data → Fr (fun j => some j ≠ source) nobody E c0 c') → Q () c') (fuel k : Nat) {c : Ctx}
    (hk : k ≤ c0.peers.length) (hf : c0.peers.length < fuel + k)
    (h : Inv S nobody y z c) {l : List Eff} (hl : c.log = c0.log ++ l)
    (hs : Sends c0 data (others source (c0.peers.take k)) l)
    (hfr : ∀ E, PayE E c0 source data → Fr (fun j => some j ≠ source) nobody E c0 c)
    (hun : Fr (fun j => j ∈ (c0.peers.take k).map (·.id)) nobody (fun _ => True) c0 c) :
    wp S (sendAll data source fuel k) Q c := by
  induction fuel generalizing k c l with
  | zero => omega
  | succ fuel ih =>
    unfold sendAll
    rw [wp_bind, wp_get]
    rcases forall₂_get hun.peers k with ⟨h1, h2⟩ | ⟨p, q, h1, h2, hpq⟩
    · rw [h2]
      simp only []
      rw [wp_pure]
      have : c0.peers.length ≤ k := List.getElem?_eq_none_iff.1 h1
      rw [List.take_of_length_le this] at hs
      exact hQ c l h hl hs hfr
    · rw [h2]
      have hnot := sorted_notMem_take hs0 h1
      have hqp := hpq.same hnot
      subst hqp
      have hk' : k < c0.peers.length := (List.getElem?_eq_some_iff.1 h1).1
      have hp0 : q ∈ c0.peers := List.mem_of_getElem? h1
      have hp : q ∈ c.peers := List.mem_of_getElem? h2
      have htake : c0.peers.take (k + 1) = c0.peers.take k ++ [q] := take_add_one h1
      have hun' : ∀ {c' : Ctx}, Fr (· = q.id) nobody (fun _ => True) c c' →
          Fr (fun j => j ∈ (c0.peers.take (k + 1)).map (·.id)) nobody (fun _ => True) c0 c' := by
        intro c' hc'
        rw [htake]
        refine (hun.mono (fun j hj => ?_) (fun _ h => h) fun _ h => h).trans
          (hc'.mono (fun j hj => ?_) (fun _ h => h) fun _ h => h)
        · rw [List.map_append, List.mem_append]; exact .inl hj
        · rw [List.map_append, List.mem_append]; right; simp [hj]
      simp only []
      rw [wp_bind]
      unfold sendOne
      refine wp_ite (fun hc => ?_) (fun hc => ?_)
      · rw [wp_pure]
        refine ih (k + 1) (by omega) (by omega) h hl ?_ hfr (hun' Fr.refl)
        rw [htake, others_append]
        have : others source [q] = [] := by
          unfold others
          rw [List.filter_cons_of_neg]
          · rfl
          · simp only [Bool.or_eq_true, decide_eq_true_eq, Bool.not_eq_true'] at hc
            rcases hc with hc | hc
            · simp [hc]
            · simp [hc]
        rw [this, List.append_nil]
        exact hs
      · simp only [Bool.or_eq_true, decide_eq_true_eq, Bool.not_eq_true', not_or, Bool.not_eq_false] at hc
        have he : q.state = .established := by simpa [Peer.isEstablished] using hc.2
        refine wp_protocolSend h hp rfl hS fun c' h' hres hf' => ?_
        obtain ⟨b, hb, hblk⟩ := hres.block (c0 := c0) he hp0
          (fun j hj => hun.objs q hp0 hnot j hj) hun.now
        refine ih (k + 1) (by omega) (by omega) h' (l := l ++ b) ?_ ?_ ?_ ?_
        · rw [hb, hl, List.append_assoc]
        · rw [htake, others_append]
          have : others source [q] = [q.id] := by
            unfold others
            rw [List.filter_cons_of_pos]
            · rfl
            · simp [hc.1, hc.2]
          rw [this]
          exact hs.snoc hblk
        · intro E hE
          refine (hfr E hE).trans ((hf' E hE.1 fun _ k => hE.2 q hp0 he hc.1 k).mono (fun j hj => ?_) (fun _ h => h)
            fun _ h => h)
          rw [hj]; exact hc.1
        · exact hun' (hf' _ (fun _ _ => trivial) fun _ _ => trivial)

theorem wp_sendAll (hS : S → EnvOk) {data : Bytes} {source : Option Nat} {c : Ctx} (h : Inv S nobody y z c)
    {Q : Unit → Ctx → Prop}
    (hQ : ∀ c' l, Inv S nobody y z c' → c'.log = c.log ++ l → Sends c data (others source c.peers) l →
      (∀ E, PayE E c source data → Fr (fun j => some j ≠ source) nobody E c c') → Q () c') :
    wp S (sendAll data source (c.peers.length + 1) 0) Q c :=
  wp_sendAll_go hS h.ids hQ _ _ (Nat.zero_le _) (by omega) h (List.append_nil _).symm Sends.nil (fun _ _ => Fr.refl)
    Fr.refl

/-! ### `fastd_send_data` -/

/-- The MAC table after learning the source address of a packet from the interface. -/
def learned (c : Ctx) (source : Option Nat) (data : Bytes) (a : Bytes) : Option (Option Nat) :=
  if source = none ∧ isUnicast (sourceMac data) = true ∧ a = sourceMac data then some none
  else (ethEntry c.eth a).map (·.peer)

/-- The peers a packet without given destination is for. -/
def targets (c : Ctx) (source : Option Nat) (data : Bytes) : List Nat :=
  if Env.mode ≠ .tap then others source c.peers
  else if data.length < 14 then []
  else if !isUnicast (destMac data) then others source c.peers
  else
    match learned c source data (destMac data) with
    | none => others source c.peers
    | some none => []
    | some (some d) => if some d = source then [] else [d]

/-- What a table of MAC addresses may have become. -/
def LearnedLocal (c c' : Ctx) (source : Option Nat) (data : Bytes) : Prop :=
  ∃ es, c' = { c with eth := es } ∧ EthSorted es ∧ ∀ a, (ethEntry es a).map (·.peer) = learned c source data a

theorem wp_learnLocal {c : Ctx} (h : Inv S x y z c) {source : Option Nat} {data : Bytes} {Q : Unit → Ctx → Prop}
    (hQ : ∀ c', Inv S x y z c' → LearnedLocal c c' source data → Q () c') : wp S (learnLocal source data) Q c := by
  unfold learnLocal
  have skip : ¬ (source = none ∧ isUnicast (sourceMac data) = true) → Q () c := by
    intro hn
    refine hQ c h ⟨c.eth, rfl, h.eth.sorted, fun a => ?_⟩
    unfold learned
    rw [if_neg]
    exact fun hc => hn ⟨hc.1, hc.2.1⟩
  cases source with
  | some s => exact skip (by simp)
  | none =>
    simp only []
    refine wp_ite (fun hu => ?_) (fun hu => skip fun hc => hu hc.2)
    refine wp_ethAdd (peer := none) h (fun i hi => (nomatch hi)) fun es h' hl => ?_
    refine hQ _ h' ⟨es, rfl, hl.1, fun a => ?_⟩
    rw [hl.2]
    unfold learned
    by_cases ha : a = sourceMac data
    · rw [if_pos ha, if_pos ⟨rfl, hu, ha⟩]; rfl
    · rw [if_neg ha, if_neg fun hc => ha hc.2.2]

/-- `Block` and `Sends` do not depend on the MAC table. -/
theorem Sends.eths {c : Ctx} {es : List Eth} {data : Bytes} {is : List Nat} {l : List Eff}
    (h : Sends { c with eth := es } data is l) : Sends c data is l := by
  induction h with
  | nil => exact .nil
  | snoc _ hb ih =>
    refine ih.snoc ?_
    cases hb with
    | dead hp hi he hv => exact .dead hp hi he hv
    | failed hp hi he hv hm hk ho hf => exact .failed hp hi he hv hm hk ho hf
    | sent hp hi he hv hm hk ho hf hs => exact Block.sent (c := c) hp hi he hv hm hk ho hf hs

theorem wp_sendData {c : Ctx} (h : Inv S nobody y z c) (hS : S → EnvOk) {data : Bytes} {source dest : Option Nat}
    (hd : ∀ d, dest = some d → source = none ∧ ∃ p ∈ c.peers, p.id = d) {Q : Unit → Ctx → Prop}
    (hQ : ∀ c' l, Inv S nobody y z c' → c'.log = c.log ++ l →
      (dest = none → Sends c data (targets c source data) l) →
      (∀ d, dest = some d → Sends c data (others none (c.peers.filter (·.id = d))) l) →
      (∀ E, PayE E c source data → Fr (fun j => some j ≠ source) nobody E c c') → Q () c') :
    wp S (sendData data source dest) Q c := by
  unfold sendData
  have one : ∀ d, (hd : ∃ p ∈ c.peers, p.id = d) → some d ≠ source → ∀ {Q : Unit → Ctx → Prop},
      (∀ c' l, Inv S nobody y z c' → c'.log = c.log ++ l → Sends c data (others none (c.peers.filter (·.id = d))) l →
      (∀ E, PayE E c source data → Fr (fun j => some j ≠ source) nobody E c c') → Q () c') →
      wp S (protocolSend d data) Q c := by
    rintro d ⟨p, hp, hpd⟩ hne Q hQ
    subst hpd
    have hfil : c.peers.filter (·.id = p.id) = [p] := by
      have hs := h.ids
      revert hp hs
      generalize c.peers = ps
      intro hp hs
      induction ps with
      | nil => cases hp
      | cons a as ih =>
        simp only [Sorted, List.map_cons, List.pairwise_cons] at hs
        rcases List.mem_cons.1 hp with rfl | hp'
        · rw [List.filter_cons_of_pos (by simp), List.filter_eq_nil_iff.2]
          intro q hq
          have := hs.1 q.id (List.mem_map_of_mem hq)
          simp only [decide_eq_true_eq]
          omega
        · have := hs.1 p.id (List.mem_map_of_mem hp')
          rw [List.filter_cons_of_neg (by simp; omega)]
          exact ih hp' hs.2
    rw [hfil] at hQ
    refine wp_protocolSend h hp rfl hS fun c' h' hres hf => ?_
    have hfr : ∀ E, PayE E c source data → Fr (fun j => some j ≠ source) nobody E c c' := by
      intro E hE
      refine (hf E hE.1 fun he k => hE.2 p hp he hne k).mono (fun j hj => ?_) (fun _ h => h) fun _ h => h
      rw [hj]; exact hne
    by_cases he : p.state = .established
    · obtain ⟨b, hb, hblk⟩ := hres.block he hp (fun _ _ => rfl) rfl
      refine hQ c' b h' hb ?_ hfr
      have : others none [p] = [p.id] := by
        unfold others
        rw [List.filter_cons_of_pos (by simp [Peer.isEstablished, he])]
        rfl
      rw [this]
      exact .one hblk
    · have hc : c' = c := by
        cases hres with
        | idle _ hc => exact hc
        | dead _ h => exact absurd h he
        | sent _ h => exact absurd h he
      refine hQ c' [] h' (by rw [hc, List.append_nil]) ?_ hfr
      have : others none [p] = [] := by
        unfold others
        rw [List.filter_cons_of_neg (by simp [Peer.isEstablished, he])]
        rfl
      rw [this]
      exact .nil
  cases dest with
  | some d =>
    obtain ⟨hsrc, hex⟩ := hd d rfl
    simp only []
    refine one d hex (by rw [hsrc]; simp) fun c' l h' hl hsn hf => ?_
    refine hQ c' l h' hl (fun hn => (nomatch hn)) (fun d' hd' => ?_) hf
    cases hd'
    exact hsn
  | none =>
    simp only []
    replace hQ : ∀ c' l, Inv S nobody y z c' → c'.log = c.log ++ l → Sends c data (targets c source data) l →
        (∀ E, PayE E c source data → Fr (fun j => some j ≠ source) nobody E c c') → Q () c' :=
      fun c' l h1 h2 h3 h4 => hQ c' l h1 h2 (fun _ => h3) (fun d hd => (nomatch hd)) h4
    -- sending to all, possibly after learning an address
    have all : ∀ es, Inv S nobody y z { c with eth := es } → targets c source data = others source c.peers →
        wp S (do let c ← get; sendAll data source (c.peers.length + 1) 0) Q { c with eth := es } := by
      intro es h1 ht
      rw [wp_bind, wp_get]
      refine wp_sendAll hS h1 fun c' l h' hl hsn hf => ?_
      refine hQ c' l h' hl ?_ fun E hE => Fr.trans Fr.eths (hf E hE)
      rw [ht]
      exact hsn.eths
    rw [wp_bind]
    unfold sendTapSingle
    have htg := Eq.refl (targets c source data)
    conv at htg => rhs; unfold targets
    refine wp_ite (fun hm => ?_) (fun hm => ?_)
    · rw [if_pos hm] at htg
      rw [wp_pure, if_neg (by simp)]
      exact all c.eth h htg
    rw [if_neg hm] at htg
    refine wp_ite (fun hl => ?_) (fun hl => ?_)
    · rw [if_pos hl] at htg
      rw [wp_pure, if_pos rfl, wp_pure]
      exact hQ c [] h (List.append_nil _).symm (by rw [htg]; exact .nil) fun E _ => Fr.refl
    rw [if_neg hl] at htg
    rw [wp_bind]
    refine wp_learnLocal h fun c1 h1 hll => ?_
    obtain ⟨es, e1, hes, hent⟩ := hll
    refine wp_ite (fun hu => ?_) (fun hu => ?_)
    · rw [if_pos hu] at htg
      rw [wp_pure, if_neg (by simp)]
      subst e1
      exact all es h1 htg
    rw [if_neg hu] at htg
    rw [wp_bind, wp_get]
    have hfind : ethFind c1.eth (destMac data) = learned c source data (destMac data) := by
      rw [e1]
      simp only []
      rw [ethFind_spec hes]
      exact hent _
    rw [hfind]
    cases hlr : learned c source data (destMac data) with
    | none =>
      rw [hlr] at htg
      simp only [] at htg ⊢
      rw [wp_pure, if_neg (by simp)]
      subst e1
      exact all es h1 htg
    | some r =>
      cases r with
      | none =>
        rw [hlr] at htg
        simp only [] at htg ⊢
        rw [wp_pure, if_pos rfl, wp_pure]
        exact hQ c1 [] h1 (by rw [e1]; exact (List.append_nil _).symm) (by rw [htg]; exact .nil)
          fun E _ => by rw [e1]; exact Fr.eths
      | some d =>
        rw [hlr] at htg
        simp only [] at htg ⊢
        refine wp_ite (fun hds => ?_) (fun hds => ?_)
        · rw [if_pos hds] at htg
          rw [wp_pure, if_pos rfl, wp_pure]
          exact hQ c1 [] h1 (by rw [e1]; exact (List.append_nil _).symm) (by rw [htg]; exact .nil)
            fun E _ => by rw [e1]; exact Fr.eths
        · rw [if_neg hds] at htg
          -- the destination is established
          have hest : ∃ p ∈ c1.peers, p.id = d ∧ p.state = .established := by
            have he1 := hent (destMac data)
            rw [hlr] at he1
            cases hen : ethEntry es (destMac data) with
            | none => rw [hen] at he1; cases he1
            | some e =>
              rw [hen] at he1
              simp only [Option.map_some, Option.some.injEq] at he1
              have hmem := ((ethEntry_some hes).1 hen).1
              exact h1.eth.peer e (by rw [e1]; exact hmem) d he1
          obtain ⟨p, hp1, hpd, hpe⟩ := hest
          have hpc : p ∈ c.peers := by rw [e1] at hp1; exact hp1
          rw [wp_bind]
          refine wp_protocolSend h1 hp1 hpd hS fun c' h' hres hf => ?_
          rw [wp_pure, if_pos rfl, wp_pure]
          obtain ⟨b, hb, hblk⟩ := hres.block (c0 := c1) hpe hp1 (fun _ _ => rfl) rfl
          rw [hpd] at hblk
          refine hQ c' b h' ?_ ?_ fun E hE => ?_
          · rw [hb, e1]
          · rw [htg]
            have := Sends.one hblk
            rw [e1] at this
            exact this.eths
          · have f1 : Fr (fun j => some j ≠ source) nobody E c c1 := by rw [e1]; exact Fr.eths
            have hne : some p.id ≠ source := by rw [hpd]; exact hds
            refine f1.trans ((hf E hE.1 fun _ k => ?_).mono (fun j hj => ?_) (fun _ h => h) fun _ h => h)
            · rw [← hpd]; exact hE.2 p hpc hpe hne k
            · rw [hj]; exact hds

end Fastd.Daemon
