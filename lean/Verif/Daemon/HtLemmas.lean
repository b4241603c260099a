import Verif.Daemon.Logic
import Verif.Props.Addr

/-!
# Lemmas about the hash table of peers
-/

namespace Fastd.Daemon

set_option linter.unusedSectionVars false

variable [Env] {S : Prop}

theorem bucket_isSome {seed : UInt32} {size : Nat} {a : Addr} (h : a.isSet = true) :
    ∃ b, bucket seed size a = some b := by
  cases a <;> simp_all [bucket, addrHashInput, Addr.isSet]

theorem bucket_lt {seed : UInt32} {size b : Nat} {a : Addr} (hs : 0 < size) (h : bucket seed size a = some b) :
    b < size := by
  unfold bucket at h
  rw [Option.map_eq_some_iff] at h
  obtain ⟨d, _, rfl⟩ := h
  exact Nat.mod_lt _ hs

theorem bucket_congr {seed : UInt32} {size : Nat} {a b : Addr} (h : addrEq a b = true) :
    bucket seed size a = bucket seed size b := by
  unfold bucket
  rw [hashInput_congr h]

/-- The table holds exactly the peers of `ps` that have an address and whose id satisfies `inc`. -/
structure HtOk (inc : Nat → Bool) (ps : List Peer) (t : HT) : Prop where
  pos : 0 < t.buckets.length
  nodup : ∀ l ∈ t.buckets, l.Nodup
  mem : ∀ b l, t.buckets[b]? = some l → ∀ i, i ∈ l ↔
    ∃ p ∈ ps, p.id = i ∧ inc p.id = true ∧ p.addr.isSet = true ∧ bucket t.seed t.buckets.length p.addr = some b
  used : t.used = ps.countP fun p => inc p.id && p.addr.isSet
  load : t.used ≤ 2 * t.buckets.length

theorem HtOk.congr {inc inc' : Nat → Bool} {ps ps' : List Peer} {t : HT} (h : HtOk inc ps t)
    (hps : (ps.map fun p => (p.id, p.addr)) = ps'.map fun p => (p.id, p.addr))
    (hinc : ∀ p ∈ ps', p.addr.isSet = true → inc p.id = inc' p.id) : HtOk inc' ps' t := by
  have hmem : ∀ i a, (∃ p ∈ ps, p.id = i ∧ p.addr = a) ↔ ∃ p ∈ ps', p.id = i ∧ p.addr = a := by
    intro i a
    have h1 : (i, a) ∈ (ps.map fun p => (p.id, p.addr)) ↔ (i, a) ∈ ps'.map fun p => (p.id, p.addr) := by rw [hps]
    simpa [List.mem_map] using h1
  refine ⟨h.pos, h.nodup, ?_, ?_, h.load⟩
  · intro b l hl i
    rw [h.mem b l hl i]
    constructor
    · rintro ⟨p, hp, hi, hinc', hset, hb⟩
      obtain ⟨q, hq, hqi, hqa⟩ := (hmem p.id p.addr).1 ⟨p, hp, rfl, rfl⟩
      exact ⟨q, hq, hqi.trans hi, by rw [← hinc q hq (by rw [hqa]; exact hset), hqi]; exact hinc',
        by rw [hqa]; exact hset, by rw [hqa]; exact hb⟩
    · rintro ⟨p, hp, hi, hinc', hset, hb⟩
      obtain ⟨q, hq, hqi, hqa⟩ := (hmem p.id p.addr).2 ⟨p, hp, rfl, rfl⟩
      exact ⟨q, hq, hqi.trans hi, by rw [hqi, hinc p hp hset]; exact hinc', by rw [hqa]; exact hset,
        by rw [hqa]; exact hb⟩
  · rw [h.used]
    have e1 : ∀ (l : List Peer) (f : Nat → Bool), (l.countP fun p => f p.id && p.addr.isSet) =
        (l.map fun p => (p.id, p.addr)).countP fun x => f x.1 && x.2.isSet := by
      intro l f
      rw [List.countP_map]
      rfl
    rw [e1, hps, ← e1]
    refine List.countP_congr fun p hp => ?_
    by_cases hset : p.addr.isSet = true
    · rw [hinc p hp hset]
    · simp [hset]

theorem countP_insert {ps : List Peer} (hs : Sorted ps) {p : Peer} (hp : p ∈ ps) {inc : Nat → Bool}
    (hset : p.addr.isSet = true) (hinc : inc p.id = false) :
    (ps.countP fun q => (inc q.id || q.id == p.id) && q.addr.isSet) =
      (ps.countP fun q => inc q.id && q.addr.isSet) + 1 := by
  induction ps with
  | nil => cases hp
  | cons a as ih =>
    have hs' := hs
    simp only [Sorted, List.map_cons, List.pairwise_cons, List.mem_map, forall_exists_index, and_imp,
      forall_apply_eq_imp_iff₂] at hs'
    rw [List.countP_cons, List.countP_cons]
    rcases List.mem_cons.1 hp with rfl | hp'
    · have : (as.countP fun q => (inc q.id || q.id == p.id) && q.addr.isSet) =
          as.countP fun q => inc q.id && q.addr.isSet := by
        refine List.countP_congr fun q hq => ?_
        have := hs'.1 q hq
        have : (q.id == p.id) = false := by simp; omega
        simp [this]
      simp [this, hset, hinc]
    · have := hs'.1 p hp'
      have hne : (a.id == p.id) = false := by simp; omega
      rw [ih hs'.2 hp', hne]
      simp only [Bool.or_false]
      omega

/-- Inserting without growing. -/
theorem HtOk.insert {inc : Nat → Bool} {ps : List Peer} {t : HT} (h : HtOk inc ps t) (hs : Sorted ps) {p : Peer}
    (hp : p ∈ ps) (hset : p.addr.isSet = true) (hinc : inc p.id = false) (hload : t.used + 1 ≤ 2 * t.buckets.length)
    {b : Nat} (hb : bucket t.seed t.buckets.length p.addr = some b) :
    HtOk (fun i => inc i || i == p.id) ps
      { t with used := t.used + 1, buckets := t.buckets.modify b (· ++ [p.id]) } := by
  have hbl := bucket_lt h.pos hb
  have hlen : (t.buckets.modify b (· ++ [p.id])).length = t.buckets.length := List.length_modify ..
  have hnot : ∀ l, t.buckets[b]? = some l → p.id ∉ l := by
    intro l hl hi
    obtain ⟨q, hq, hqi, hq', _⟩ := (h.mem b l hl p.id).1 hi
    rw [hqi, hinc] at hq'
    cases hq'
  constructor
  · simp only [hlen]; exact h.pos
  · simp only []
    intro l hl
    obtain ⟨k, hk, rfl⟩ := List.mem_iff_getElem.1 hl
    rw [List.getElem_modify]
    have hk' : k < t.buckets.length := by simpa [hlen] using hk
    by_cases hkb : b = k
    · subst hkb
      rw [if_pos rfl]
      have := h.nodup t.buckets[b] (List.getElem_mem hk')
      have := hnot t.buckets[b] (List.getElem?_eq_getElem hk')
      rw [List.nodup_append]
      refine ⟨‹_›, by simp, ?_⟩
      intro a ha c hc
      rw [List.mem_singleton] at hc
      subst hc
      intro e; subst e; exact this ha
    · rw [if_neg hkb]
      exact h.nodup _ (List.getElem_mem hk')
  · simp only [hlen]
    intro k l hl i
    rw [List.getElem?_modify] at hl
    by_cases hkb : b = k
    · subst hkb
      simp only [if_true] at hl
      have hl' : t.buckets[b]? = some t.buckets[b] := List.getElem?_eq_getElem hbl
      rw [hl'] at hl
      simp only [Option.map_eq_map, Option.map_some, Option.some.injEq] at hl
      subst hl
      rw [List.mem_append, h.mem b _ hl' i, List.mem_singleton]
      constructor
      · rintro (⟨q, hq, hqi, hq', hq'', hqb⟩ | rfl)
        · exact ⟨q, hq, hqi, by simp [hq'], hq'', hqb⟩
        · exact ⟨p, hp, rfl, by simp, hset, hb⟩
      · rintro ⟨q, hq, hqi, hq', hq'', hqb⟩
        by_cases he : q.id = p.id
        · right; rw [← hqi, he]
        · left
          refine ⟨q, hq, hqi, ?_, hq'', hqb⟩
          simpa [he] using hq'
    · simp only [hkb, if_false, id_map'] at hl
      rw [h.mem k l hl i]
      constructor
      · rintro ⟨q, hq, hqi, hq', hq'', hqb⟩
        exact ⟨q, hq, hqi, by simp [hq'], hq'', hqb⟩
      · rintro ⟨q, hq, hqi, hq', hq'', hqb⟩
        refine ⟨q, hq, hqi, ?_, hq'', hqb⟩
        by_cases he : q.id = p.id
        · have := sorted_inj hs hq hp he
          subst this
          rw [hb] at hqb
          simp only [Option.some.injEq] at hqb
          exact absurd hqb hkb
        · simpa [he] using hq'
  · simp only []
    rw [countP_insert hs hp hset hinc, h.used]
  · simp only [hlen]; exact hload

/-- Removing. -/
theorem HtOk.remove {inc : Nat → Bool} {ps : List Peer} {t : HT} (h : HtOk inc ps t) (hs : Sorted ps) {p : Peer}
    (hp : p ∈ ps) (hset : p.addr.isSet = true) (hinc : inc p.id = true) {b : Nat}
    (hb : bucket t.seed t.buckets.length p.addr = some b) :
    t.used ≠ 0 ∧ HtOk (fun i => inc i && i != p.id) ps
      { t with used := t.used - 1, buckets := t.buckets.modify b (·.erase p.id) } := by
  have hcount : (ps.countP fun q => inc q.id && q.addr.isSet) =
      (ps.countP fun q => (inc q.id && q.id != p.id) && q.addr.isSet) + 1 := by
    rw [← countP_insert hs hp (inc := fun i => inc i && i != p.id) hset (by simp)]
    refine List.countP_congr fun q hq => ?_
    by_cases he : q.id = p.id
    · simp [he, hinc]
    · simp [he]
  have hu : t.used ≠ 0 := by rw [h.used, hcount]; omega
  refine ⟨hu, ?_⟩
  have hbl := bucket_lt h.pos hb
  have hlen : (t.buckets.modify b (·.erase p.id)).length = t.buckets.length := List.length_modify ..
  constructor
  · simp only [hlen]; exact h.pos
  · simp only []
    intro l hl
    obtain ⟨k, hk, rfl⟩ := List.mem_iff_getElem.1 hl
    rw [List.getElem_modify]
    have hk' : k < t.buckets.length := by simpa [hlen] using hk
    split
    · exact (h.nodup _ (List.getElem_mem hk')).erase _
    · exact h.nodup _ (List.getElem_mem hk')
  · simp only [hlen]
    intro k l hl i
    rw [List.getElem?_modify] at hl
    by_cases hkb : b = k
    · subst hkb
      simp only [if_true] at hl
      have hl' : t.buckets[b]? = some t.buckets[b] := List.getElem?_eq_getElem hbl
      rw [hl'] at hl
      simp only [Option.map_eq_map, Option.map_some, Option.some.injEq] at hl
      subst hl
      rw [(h.nodup _ (List.getElem_mem hbl)).mem_erase_iff, h.mem b _ hl' i]
      constructor
      · rintro ⟨hne, q, hq, hqi, hq', hq'', hqb⟩
        exact ⟨q, hq, hqi, by rw [hq', hqi]; simpa using hne, hq'', hqb⟩
      · rintro ⟨q, hq, hqi, hq', hq'', hqb⟩
        simp only [Bool.and_eq_true, bne_iff_ne, ne_eq] at hq'
        exact ⟨by rw [← hqi]; exact hq'.2, q, hq, hqi, hq'.1, hq'', hqb⟩
    · simp only [hkb, if_false, id_map'] at hl
      rw [h.mem k l hl i]
      constructor
      · rintro ⟨q, hq, hqi, hq', hq'', hqb⟩
        refine ⟨q, hq, hqi, ?_, hq'', hqb⟩
        by_cases he : q.id = p.id
        · have := sorted_inj hs hq hp he
          subst this
          rw [hb] at hqb
          simp only [Option.some.injEq] at hqb
          exact absurd hqb hkb
        · simp [he, hq']
      · rintro ⟨q, hq, hqi, hq', hq'', hqb⟩
        simp only [Bool.and_eq_true] at hq'
        exact ⟨q, hq, hqi, hq'.1, hq'', hqb⟩
  · simp only []
    rw [h.used, hcount]
    omega
  · have := h.load
    simp only [hlen]
    omega

/-- An empty table. -/
theorem HtOk.empty (ps : List Peer) (seed : UInt32) {size : Nat} (h : 0 < size) :
    HtOk (fun _ => false) ps (HT.empty seed size) := by
  constructor
  · simpa [HT.empty] using h
  · intro l hl
    simp only [HT.empty, List.mem_replicate] at hl
    rw [hl.2]
    exact List.nodup_nil
  · intro b l hl i
    have : l = [] := by
      simp only [HT.empty] at hl
      obtain ⟨hb, rfl⟩ := List.getElem?_eq_some_iff.1 hl
      simp
    subst this
    simp
  · simp [HT.empty]
  · simp [HT.empty]

theorem wp_htInsertFuel {inc : Nat → Bool} (fuel : Nat) {c : Ctx} (hs : Sorted c.peers) {p : Peer} (hp : p ∈ c.peers)
    (h : HtOk inc c.peers c.ht) (hinc : inc p.id = false) (hload : c.ht.used + 1 ≤ 2 * c.ht.buckets.length) :
    wp S (htInsertFuel (fuel + 1) p.id) (fun _ c' => c' = { c with ht := c'.ht } ∧
      HtOk (fun i => inc i || i == p.id) c.peers c'.ht ∧ c'.ht.buckets.length = c.ht.buckets.length ∧
      c'.ht.used ≤ c.ht.used + 1) c := by
  rw [htInsertFuel, wp_bind, wp_getP hs hp]
  refine wp_ite (fun hn => ?_) (fun hset => ?_)
  · rw [wp_pure]
    refine ⟨rfl, h.congr rfl ?_, rfl, by omega⟩
    intro q hq hqs
    by_cases he : q.id = p.id
    · rw [sorted_inj hs hq hp he] at hqs
      simp [hqs] at hn
    · simp [he]
  · simp only [Bool.not_eq_eq_eq_not, Bool.not_true, Bool.not_eq_false] at hset
    rw [wp_bind, wp_modify, wp_bind, wp_get]
    rw [if_neg (by simp only []; omega)]
    obtain ⟨b, hb⟩ := bucket_isSome (seed := c.ht.seed) (size := c.ht.buckets.length) hset
    simp only [hb]
    rw [wp_modify]
    exact ⟨rfl, h.insert hs hp hset hinc hload hb, List.length_modify .., Nat.le_refl _⟩

theorem wp_htInsert {c : Ctx} (hs : Sorted c.peers) {p : Peer} (hp : p ∈ c.peers)
    (h : HtOk (fun i => i != p.id) c.peers c.ht) :
    wp S (htInsert p.id) (fun _ c' => c' = { c with ht := c'.ht, pos := c'.pos } ∧
      HtOk (fun _ => true) c.peers c'.ht) c := by
  by_cases hload : c.ht.used + 1 ≤ 2 * c.ht.buckets.length
  · refine wp_mono (wp_htInsertFuel 1 hs hp h (by simp) hload) ?_
    rintro _ c' ⟨hc, ht, _⟩
    refine ⟨by rw [hc], ht.congr rfl ?_⟩
    intro q _ _
    by_cases he : q.id = p.id <;> simp [he]
  · rw [htInsert, htInsertFuel, wp_bind, wp_getP hs hp]
    refine wp_ite (fun hn => ?_) (fun hset => ?_)
    · rw [wp_pure]
      refine ⟨rfl, h.congr rfl ?_⟩
      intro q hq hqs
      by_cases he : q.id = p.id
      · rw [sorted_inj hs hq hp he] at hqs
        simp [hqs] at hn
      · simp [he]
    · simp only [Bool.not_eq_eq_eq_not, Bool.not_true, Bool.not_eq_false] at hset
      rw [wp_bind, wp_modify, wp_bind, wp_get]
      rw [if_pos (by simp only []; omega)]
      rw [wp_bind, wp_draw, wp_bind, wp_modify]
      simp only []
      -- peers without an address are not inserted; only those with one count
      have key : ∀ (l : List Peer) (inc : Nat → Bool) (c : Ctx), Sorted c.peers → (∀ p ∈ l, p ∈ c.peers) →
          (l.map (·.id)).Nodup → HtOk inc c.peers c.ht → (∀ p ∈ l, inc p.id = false) →
          c.ht.used + (l.countP fun p => p.addr.isSet) ≤ 2 * c.ht.buckets.length →
          wp S (forEach (htInsertFuel 1) (l.map (·.id))) (fun _ c' => c' = { c with ht := c'.ht } ∧
            HtOk (fun i => inc i || (l.map (·.id)).contains i) c.peers c'.ht) c := by
        intro l
        induction l with
        | nil =>
          intro inc c _ _ _ h _ _
          refine ⟨rfl, h.congr rfl ?_⟩
          intro q _ _
          simp
        | cons p ps ih =>
          intro inc c hs hl hnd h hinc hload
          rw [List.map_cons, forEach]
          simp only [List.map_cons, List.nodup_cons, List.mem_map, not_exists, not_and] at hnd
          rw [List.countP_cons] at hload
          have step : wp S (htInsertFuel 1 p.id) (fun _ c' => c' = { c with ht := c'.ht } ∧
              HtOk (fun i => inc i || i == p.id) c.peers c'.ht ∧ c'.ht.buckets.length = c.ht.buckets.length ∧
              c'.ht.used ≤ c.ht.used + (if p.addr.isSet = true then 1 else 0)) c := by
            by_cases hset : p.addr.isSet = true
            · simp only [hset, if_true] at hload ⊢
              exact wp_htInsertFuel 0 hs (hl p List.mem_cons_self) h (hinc p List.mem_cons_self) (by omega)
            · rw [htInsertFuel, wp_bind, wp_getP hs (hl p List.mem_cons_self)]
              simp only [hset, Bool.not_false, if_true]
              rw [wp_pure]
              refine ⟨rfl, h.congr rfl ?_, rfl, by simp⟩
              intro q hq hqs
              by_cases he : q.id = p.id
              · rw [sorted_inj hs hq (hl p List.mem_cons_self) he] at hqs
                exact absurd hqs hset
              · simp [he]
          refine wp_seq step ?_
          rintro _ c' ⟨hc, ht, hlen, hused⟩
          have hpe : c'.peers = c.peers := by rw [hc]
          refine wp_mono (ih (fun i => inc i || i == p.id) c' ?_ ?_ hnd.2 ?_ ?_ ?_) ?_
          · rw [hpe]; exact hs
          · rw [hpe]; exact fun q hq => hl q (List.mem_cons_of_mem _ hq)
          · rw [hpe]; exact ht
          · intro q hq
            have h1 := hinc q (List.mem_cons_of_mem _ hq)
            have h2 := hnd.1 q hq
            simp [h1, h2]
          · rw [hlen]
            omega
          · rintro _ c'' ⟨hc', ht'⟩
            rw [hpe] at ht'
            refine ⟨by rw [hc', hc], ht'.congr rfl ?_⟩
            intro q _ _
            simp only [List.contains_cons, Bool.or_assoc]
      have hcount : (c.peers.countP fun q => q.addr.isSet) = c.ht.used + 1 := by
        rw [h.used, ← countP_insert hs hp (inc := fun i => i != p.id) hset (by simp)]
        refine List.countP_congr fun q _ => ?_
        by_cases he : q.id = p.id <;> simp [he]
      have hnd : (c.peers.map (·.id)).Nodup := by
        refine List.Pairwise.imp (fun {a b} (hab : a < b) => ?_) hs
        omega
      have hpos := h.pos
      have hl := h.load
      refine wp_mono (key c.peers (fun _ => false) _ (by exact hs) (fun _ h => h) hnd
        (HtOk.empty _ _ (by omega)) (fun _ _ => rfl) ?_) ?_
      · simp only [HT.empty, List.length_replicate]
        omega
      · rintro _ c' ⟨hc, ht⟩
        refine ⟨by rw [hc], ht.congr rfl ?_⟩
        intro q hq _
        simp only [Bool.false_or]
        rw [List.contains_iff_mem]
        exact List.mem_map.2 ⟨q, hq, rfl⟩

theorem wp_htRemove {c : Ctx} (hs : Sorted c.peers) {p : Peer} (hp : p ∈ c.peers)
    (h : HtOk (fun _ => true) c.peers c.ht) :
    wp S (htRemove p.id) (fun _ c' => c' = { c with ht := c'.ht } ∧
      HtOk (fun i => i != p.id) c.peers c'.ht) c := by
  rw [htRemove, wp_bind, wp_getP hs hp]
  refine wp_ite (fun hn => ?_) (fun hset => ?_)
  · rw [wp_pure]
    refine ⟨rfl, h.congr rfl ?_⟩
    intro q hq hqs
    by_cases he : q.id = p.id
    · rw [sorted_inj hs hq hp he] at hqs
      simp [hqs] at hn
    · simp [he]
  · simp only [Bool.not_eq_eq_eq_not, Bool.not_true, Bool.not_eq_false] at hset
    rw [wp_bind, wp_get]
    obtain ⟨b, hb⟩ := bucket_isSome (seed := c.ht.seed) (size := c.ht.buckets.length) hset
    simp only [hb]
    rw [wp_modify]
    obtain ⟨hu, hr⟩ := h.remove hs hp hset rfl hb
    rw [if_neg hu]
    refine ⟨rfl, ?_⟩
    simpa using hr

/-- Looking up an address. -/
theorem wp_htScan {c : Ctx} (hs : Sorted c.peers) (a : Addr) (l : List Nat)
    (hl : ∀ i ∈ l, ∃ p ∈ c.peers, p.id = i) :
    wp S (htScan a l) (fun r c' => c' = c ∧ ((∃ p ∈ c.peers, r = some p.id ∧ p.id ∈ l ∧ addrEq p.addr a = true) ∨
      (r = none ∧ ∀ p ∈ c.peers, p.id ∈ l → addrEq p.addr a = false))) c := by
  induction l with
  | nil =>
    rw [htScan, wp_pure]
    exact ⟨rfl, .inr ⟨rfl, by simp⟩⟩
  | cons i is ih =>
    obtain ⟨p, hp, rfl⟩ := hl i List.mem_cons_self
    rw [htScan, wp_bind, wp_getP hs hp]
    refine wp_ite (fun he => ?_) (fun he => ?_)
    · exact ⟨rfl, .inl ⟨p, hp, rfl, List.mem_cons_self, he⟩⟩
    · refine wp_mono (ih fun j hj => hl j (List.mem_cons_of_mem _ hj)) ?_
      rintro r c' ⟨rfl, h⟩
      refine ⟨rfl, ?_⟩
      rcases h with ⟨q, hq, hr, hm, ha⟩ | ⟨hr, hn⟩
      · exact .inl ⟨q, hq, hr, List.mem_cons_of_mem _ hm, ha⟩
      · refine .inr ⟨hr, fun q hq hm => ?_⟩
        rcases List.mem_cons.1 hm with h1 | h1
        · rw [sorted_inj hs hq hp h1]
          simpa using he
        · exact hn q hq h1

theorem wp_htLookup {c : Ctx} (hs : Sorted c.peers) (h : HtOk (fun _ => true) c.peers c.ht) {a : Addr}
    (ha : a.isSet = true) :
    wp S (htLookup a) (fun r c' => c' = c ∧ ((∃ p ∈ c.peers, r = some p.id ∧ addrEq p.addr a = true) ∨
      (r = none ∧ ∀ p ∈ c.peers, addrEq p.addr a = false))) c := by
  rw [htLookup, wp_bind, wp_get]
  obtain ⟨b, hb⟩ := bucket_isSome (seed := c.ht.seed) (size := c.ht.buckets.length) ha
  simp only [hb]
  have hbl := bucket_lt h.pos hb
  have hg : c.ht.buckets[b]? = some c.ht.buckets[b] := List.getElem?_eq_getElem hbl
  have hd : c.ht.buckets.getD b [] = c.ht.buckets[b] := by rw [List.getD_eq_getElem?_getD, hg]; rfl
  rw [hd]
  refine wp_mono (wp_htScan hs a _ ?_) ?_
  · intro i hi
    obtain ⟨p, hp, hi', _⟩ := (h.mem b _ hg i).1 hi
    exact ⟨p, hp, hi'⟩
  · rintro r c' ⟨rfl, h'⟩
    refine ⟨rfl, ?_⟩
    rcases h' with ⟨p, hp, hr, _, he⟩ | ⟨hr, hn⟩
    · exact .inl ⟨p, hp, hr, he⟩
    · refine .inr ⟨hr, fun p hp => ?_⟩
      by_cases he : addrEq p.addr a = true
      · refine hn p hp ((h.mem b _ hg p.id).2 ⟨p, hp, rfl, rfl, ?_, ?_⟩)
        · rw [addrEq_isSet he]; exact ha
        · rw [bucket_congr he]; exact hb
      · simpa using he

end Fastd.Daemon
