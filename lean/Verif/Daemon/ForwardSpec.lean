import Verif.Daemon.LogSpec

/-!
# Payload sent in an event
-/

namespace Fastd.Daemon

set_option linter.unusedSectionVars false

variable [Env]

theorem Sends.mem {c : Ctx} {data : Bytes} {is : List Nat} {l : List Eff} (h : Sends c data is l) {e : Eff} (he : e ∈ l) :
    ∃ i ∈ is, ∃ b, Block c data i b ∧ e ∈ b := by
  induction h with
  | nil => cases he
  | snoc _ hb ih =>
    rcases List.mem_append.1 he with he | he
    · obtain ⟨i, hi, b, h1, h2⟩ := ih he
      exact ⟨i, List.mem_append_left _ hi, b, h1, h2⟩
    · exact ⟨_, by simp, _, hb, he⟩

/-- Peers that did not change get the same packets. -/
theorem Block.back {t a : Nat → Prop} {E : Eff → Prop} {c c1 : Ctx} (hf : Fr t a E c c1) {data : Bytes} {i : Nat} {b : List Eff}
    (h : Block c1 data i b) (hi : ¬ t i) : Block c data i b := by
  have key : ∀ {p : Peer}, p ∈ c1.peers → p.id = i → p ∈ c.peers ∧ (∀ k ∈ p.refs, c1.objs k = c.objs k) ∧
      validNow c1 p.sess = validNow c p.sess ∧ chosen c1 p = chosen c p := by
    intro p hp hpi
    obtain ⟨q, hq, hqi, hpf⟩ := hf.mem' hp
    have e : p = q := hpf.same (by rw [← hqi, hpi]; exact hi)
    subst e
    have ho := hf.objs p hq (by rw [hpi]; exact hi)
    have hS : ∀ k, p.sess.mstate = some k → c1.objs k = c.objs k := fun k hk => ho k (by simp [Peer.refs, hk])
    have hO : ∀ k, p.old.mstate = some k → c1.objs k = c.objs k := fun k hk => ho k (by simp [Peer.refs, hk])
    refine ⟨hq, ho, validNow_congr hS hf.now, ?_⟩
    unfold chosen useOldNow
    rw [initiatorNow_congr (c := c) (c' := c1) hS, validNow_congr (c := c) (c' := c1) hO hf.now]
  have ref : ∀ {p : Peer} {k : Nat}, (chosen c p).mstate = some k → k ∈ p.refs := by
    intro p k hk
    unfold chosen at hk
    split at hk <;> simp [Peer.refs, hk]
  cases h with
  | dead hp hpi he hv =>
    obtain ⟨h1, _, h3, _⟩ := key hp hpi
    exact .dead h1 hpi he (h3 ▸ hv)
  | failed hp hpi he hv hm hk ho hff =>
    obtain ⟨h1, h2, h3, h4⟩ := key hp hpi
    rw [h4] at hm hk
    exact .failed h1 hpi he (h3 ▸ hv) hm hk (h2 _ (ref hk) ▸ ho) hff
  | sent hp hpi he hv hm hk ho hff hs =>
    obtain ⟨h1, h2, h3, h4⟩ := key hp hpi
    rw [h4] at hm hk
    exact .sent h1 hpi he (h3 ▸ hv) hm hk (h2 _ (ref hk) ▸ ho) hff hs

theorem Sends.back {t a : Nat → Prop} {E : Eff → Prop} {c c1 : Ctx} (hf : Fr t a E c c1) {data : Bytes} {is : List Nat}
    {l : List Eff} (h : Sends c1 data is l) (hi : ∀ i ∈ is, ¬ t i) : Sends c data is l := by
  induction h with
  | nil => exact .nil
  | snoc _ hb ih => exact (ih fun i h => hi i (List.mem_append_left _ h)).snoc (hb.back hf (hi _ (by simp)))

theorem others_back {i : Nat} {a : Nat → Prop} {ps qs : List Peer} (h : List.Forall₂ (PFr (· = i) a) ps qs) :
    others (some i) qs = others (some i) ps := by
  induction h with
  | nil => rfl
  | @cons p q ps qs hpq _ ih =>
    unfold others at ih ⊢
    have hid : q.id = p.id := stat_id hpq.stat
    by_cases hpi : p.id = i
    · rw [List.filter_cons_of_neg (by simp [hid, hpi]), List.filter_cons_of_neg (by simp [hpi]), ih]
    · rw [hpq.same hpi, List.filter_cons, List.filter_cons]
      split
      · rw [List.map_cons, List.map_cons, ih]
      · exact ih

theorem mem_others {source : Option Nat} {ps : List Peer} {i : Nat} :
    i ∈ others source ps ↔ ∃ p ∈ ps, p.id = i ∧ p.state = .established ∧ some i ≠ source := by
  unfold others
  simp only [List.mem_map, List.mem_filter, Bool.and_eq_true, Bool.not_eq_true', decide_eq_false_iff_not, Peer.isEstablished,
    decide_eq_true_eq]
  constructor
  · rintro ⟨p, ⟨hp, he, hn⟩, rfl⟩
    exact ⟨p, hp, rfl, he, hn⟩
  · rintro ⟨p, hp, rfl, he, hn⟩
    exact ⟨p, ⟨hp, he, hn⟩, rfl⟩

/-- The peers a frame from a peer is forwarded to. -/
def forwards (c : Ctx) (i : Nat) (data : Bytes) : List Nat :=
  if !isUnicast (destMac data) then others (some i) c.peers
  else if destMac data = sourceMac data then []
  else
    match (ethEntry c.eth (destMac data)).map (·.peer) with
    | none => others (some i) c.peers
    | some none => []
    | some (some d) => if d = i then [] else [d]

theorem targets_forwards {c c1 : Ctx} {i : Nat} {a : Nat → Prop} {E : Eff → Prop} {data : Bytes} {es : List Eth}
    (hf : Fr (· = i) a E c c1) (he : c1.eth = c.eth) (hm : Env.mode = .tap) (hlen : ¬ data.length < 14)
    (hle : ∀ b, (ethEntry es b).map (·.peer) = learnedFrom c1 i data b) :
    targets { c1 with eth := es } (some i) data = forwards c i data := by
  unfold targets forwards
  rw [if_neg (by simp [hm]), if_neg hlen]
  have ho : others (some i) c1.peers = others (some i) c.peers := others_back hf.peers
  simp only [ho]
  split
  · rfl
  · rename_i hu
    have hu' : isUnicast (destMac data) = true := by simpa using hu
    unfold learned
    rw [if_neg (by simp)]
    simp only [hle]
    unfold learnedFrom
    by_cases hs : destMac data = sourceMac data
    · rw [if_pos ⟨hm, hs ▸ hu', hs⟩, if_pos hs]
      simp
    · rw [if_neg (fun h => hs h.2.2), if_neg hs, he]
      cases (ethEntry c.eth (destMac data)).map (·.peer) with
      | none => rfl
      | some o =>
        cases o with
        | none => rfl
        | some d => simp

theorem forwards_other {c : Ctx} {i j : Nat} {data : Bytes} (h : j ∈ forwards c i data) : j ≠ i := by
  unfold forwards at h
  have ho : j ∈ others (some i) c.peers → j ≠ i := by
    intro h
    obtain ⟨_, _, _, _, h⟩ := mem_others.1 h
    simpa using h
  split at h
  · exact ho h
  · split at h
    · cases h
    · split at h
      · exact ho h
      · cases h
      · split at h
        · cases h
        · rename_i hd
          rw [List.mem_singleton] at h
          rw [h]; exact hd

/-- No payload apart from keepalives. -/
def Eff.empty : Eff → Bool
  | .encrypt _ _ d => d.isEmpty
  | .write _ _ => false
  | _ => true

theorem Eff.empty_of_plain {e : Eff} (h : e.plain = true) : e.empty = true := by
  cases e <;> simp_all [Eff.plain, Eff.empty]

theorem Eff.empty_of_ofHs {e : Eff} (h : e.ofHs = true) : e.empty = true := by
  cases e with
  | encrypt i k d => cases d <;> simp_all [Eff.ofHs, Eff.empty]
  | write => simp_all [Eff.ofHs]
  | _ => rfl

/-- The payload sent or delivered in an event. -/
inductive PayEv (e : Event) (c c' : Ctx) (l : List Eff) : Prop
  | none (hn : ∀ o d, e ≠ .iface o d) (h : ∀ f ∈ l, f.empty = true)
  | deliver (hn : ∀ o d, e ≠ .iface o d) (hc : ¬ (Env.mode = .tap ∧ Env.forward = true)) (i : Nat) (data : Bytes) (l1 : List Eff)
      (hl : l = l1 ++ [.write i data]) (h1 : ∀ f ∈ l1, f.empty = true)
  | shared (data : Bytes) (he : e = .iface none data) (h : Sends c data (targets c none data) l)
  | own (j : Nat) (data : Bytes) (he : e = .iface (some j) data) (h : Sends c data (others none (c.peers.filter (·.id = j))) l)
  | forward (sock : Sock) (loc rem : Addr) (pkt d : Bytes) (b : Bool) (he : e = .recv sock loc rem pkt)
      (hd : payload pkt = some (d, b)) (p : Peer) (hp : p ∈ c.peers) (hest : p.state = .established) (data : Bytes)
      (hne : data ≠ []) (hlen : 14 ≤ data.length) (hm : Env.mode = .tap) (hfw : Env.forward = true) (l1 l2 : List Eff)
      (hl : l = l1 ++ .write p.id data :: l2) (h1 : ∀ f ∈ l1, f.empty = true) (h : Sends c data (forwards c p.id data) l2)
      (k : Nat) (hacc : .accept p.id k d ∈ l1)

theorem StepRes.pay {e : Event} {c c' : Ctx} (h : StepRes e c c') {l : List Eff} (hl : c'.log = c.log ++ l) : PayEv e c c' l := by
  have nil : c'.log = c.log → ∀ f ∈ l, f.empty = true := by
    intro h f hf
    rw [log_same h hl] at hf; cases hf
  cases e with
  | tick d => exact .none (by simp) (nil (by rw [show c' = _ from h]))
  | task i =>
    obtain ⟨p, _, _, _, hE⟩ := h
    exact .none (by simp) ((hE (fun f => f.empty = true) (fun _ => Eff.empty_of_plain) (fun _ => rfl) fun _ _ => rfl).all hl)
  | maintenance => exact .none (by simp) (nil (by rw [show c' = _ from h]))
  | iface o d =>
    obtain ⟨l', hl', h1, h2, _⟩ := h
    have : l' = l := List.append_cancel_left (hl'.symm.trans hl)
    subst this
    cases o with
    | none => exact .shared d rfl (h1 rfl)
    | some j => exact .own j d rfl (h2 j rfl)
  | resolved k a =>
    obtain ⟨_, _, hE⟩ := h
    exact .none (by simp) ((hE (fun f => f.empty = true)).lg.all hl)
  | verified k ok =>
    obtain ⟨_, _, hE⟩ := h
    exact .none (by simp) ((hE (fun f => f.empty = true) fun _ => Eff.empty_of_plain).lg.all hl)
  | reload d => exact .none (by simp) ((h.2.2 (fun f => f.empty = true) fun _ => Eff.empty_of_plain).all hl)
  | resetAll => exact .none (by simp) ((h.2 (fun f => f.empty = true) fun _ => Eff.empty_of_plain).all hl)
  | recv sock loc rem pkt =>
    have hr : RecvEv sock loc rem pkt c c' := h
    rcases hr with ⟨hc, _⟩ | ⟨peer, q, b, hs, hp, hr⟩
    · exact .none (by simp) (nil (by rw [hc]))
    · cases hr with
      | ignored hc => exact .none (by simp) (nil (by rw [hc]))
      | handshake ht hn hr => exact .none (by simp) fun f hf => Eff.empty_of_ofHs (hr.ofHs hl f hf)
      | unknown t ht hd hn hs hsock hf r hb hl' ho he =>
        exact .none (by simp) ((hf (fun f => f.empty = true) (fun _ => Eff.empty_of_plain) rfl).lg.all hl)
      | data p hpm hi hest hloc t ht hd hr hf =>
        cases hr with
        | dead r hv hq hc hr =>
          obtain ⟨_, _, _, e⟩ := hr
          rw [e] at hl
          have := List.append_cancel_left hl
          refine .none (by simp) fun f hf => ?_
          rw [← this] at hf
          split at hf
          · simp at hf; rw [hf]; rfl
          · cases hf
        | reject hv ho hs l' hc hl' =>
          rw [hc] at hl
          have := List.append_cancel_left hl
          subst this
          refine .none (by simp) fun f hf => ?_
          obtain ⟨_, _, rfl⟩ := hl' f hf
          rfl
        | accept hv useOld ho data b' o' k hd hk r hr hsoft hold c1 l1 l2 hf1 hq1 heth hl' hl1 hacc hl2 =>
          have := List.append_cancel_left (hl'.symm.trans hl)
          subst this
          have em1 : ∀ f ∈ l1, f.empty = true := by
            intro f hf
            rcases hl1 f hf with h1 | ⟨k, rfl⟩ | ⟨k, _, rfl⟩ | rfl
            · exact Eff.empty_of_plain h1
            · rfl
            · rfl
            · rfl
          have both : (∀ f ∈ l2, f.empty = true) → ∀ f ∈ l1 ++ l2, f.empty = true := fun h f hf =>
            (List.mem_append.1 hf).elim (em1 f) (h f)
          split at hl2
          · subst hl2; exact .none (by simp) (both (by simp))
          · rename_i hne
            have hri : r.id = p.id := hsoft.id
            cases hl2 with
            | drop _ hl => subst hl; exact .none (by simp) (both (by simp))
            | write hdel es l' hes hle hl2 hfw hnf =>
              subst hl2
              by_cases hc : Env.mode = .tap ∧ Env.forward = true
              · have hlen : ¬ data.length < 14 := by
                  intro hl
                  unfold deliverable at hdel
                  simp [hc.1, hl] at hdel
                have hsn := hfw hc.1 hc.2
                rw [hri] at hsn hle
                rw [targets_forwards hf1 heth hc.1 hlen hle] at hsn
                refine .forward sock loc rem pkt q b rfl hp p hpm hest data hne (by omega) hc.1 hc.2 l1 l' (by rw [hri]) em1
                  (hsn.back hf1 fun i hi => forwards_other hi) k hacc
              · have hn := hnf hc
                subst hn
                exact .deliver (by simp) hc _ _ _ rfl em1

/-! ### Counting -/

def Eff.isEnc (i : Nat) (data : Bytes) : Eff → Bool
  | .encrypt j _ d => decide (j = i) && decide (d = data)
  | _ => false

theorem Block.count {c : Ctx} {data : Bytes} {i j : Nat} {b : List Eff} (h : Block c data j b) :
    b.countP (Eff.isEnc i data) ≤ [j].count i := by
  cases h with
  | dead => simp [Eff.isEnc]
  | failed => simp
  | sent =>
    by_cases hij : j = i
    · simp [Eff.isEnc, hij]
    · simp [Eff.isEnc, hij]

theorem Sends.count {c : Ctx} {data : Bytes} {is : List Nat} {l : List Eff} (h : Sends c data is l) (i : Nat) :
    l.countP (Eff.isEnc i data) ≤ is.count i := by
  induction h with
  | nil => simp
  | snoc _ hb ih =>
    rw [List.countP_append, List.count_append]
    exact Nat.add_le_add ih hb.count

/-- A packet for each of the peers whose session is valid and able to encrypt it. -/
theorem Sends.complete {c : Ctx} (hs : Sorted c.peers) {data : Bytes} {is : List Nat} {l : List Eff} (h : Sends c data is l) {p : Peer}
    (hp : p ∈ c.peers) (hi : p.id ∈ is) (hv : validNow c p.sess = true) {m k : Nat} {o : Env.Sess} (hm : (chosen c p).method = some m)
    (hk : (chosen c p).mstate = some k) (ho : c.objs k = some o) {pkt : Bytes} {o' : Env.Sess}
    (he : Env.encrypt m o data = some (pkt, o')) :
    ∃ l1 sk l2, l = l1 ++ [.encrypt p.id k data, .send sk p.localAddr p.addr (some p.id) pkt] ++ l2 ∧ p.sock = some sk := by
  induction h with
  | nil => cases hi
  | @snoc is l i b _ hb ih =>
    rcases List.mem_append.1 hi with hi | hi
    · obtain ⟨l1, sk, l2, h1, h2⟩ := ih hi
      exact ⟨l1, sk, l2 ++ b, by rw [h1]; simp, h2⟩
    · rw [List.mem_singleton] at hi
      cases hb with
      | dead hp' hi' _ hv' =>
        rw [sorted_inj hs hp' hp (hi'.trans hi.symm), hv] at hv'; cases hv'
      | failed hp' hi' _ _ hm' hk' ho' hf' =>
        have e := sorted_inj hs hp' hp (hi'.trans hi.symm)
        subst e
        rw [hm] at hm'; cases hm'
        rw [hk] at hk'; cases hk'
        rw [ho] at ho'; cases ho'
        rw [he] at hf'; cases hf'
      | sent hp' hi' _ _ hm' hk' ho' hf' hsk =>
        have e := sorted_inj hs hp' hp (hi'.trans hi.symm)
        subst e
        rw [hm] at hm'; cases hm'
        rw [hk] at hk'; cases hk'
        rw [ho] at ho'; cases ho'
        rw [he] at hf'; cases hf'
        exact ⟨l, _, [], by rw [← hi, List.append_nil], hsk⟩

theorem others_nodup {source : Option Nat} {ps : List Peer} (hs : Sorted ps) : (others source ps).Nodup := by
  unfold others
  have : (ps.map (·.id)).Nodup := hs.imp fun h => Nat.ne_of_lt h
  exact this.sublist (List.filter_sublist.map _)

end Fastd.Daemon
