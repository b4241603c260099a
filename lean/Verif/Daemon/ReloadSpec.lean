import Verif.Daemon.EventsSpec

/-!
# Loading the configuration keeps the invariant

`fastd_config_load_peer_dirs` and `configure_peers` (src/config.c:630-700).
-/

namespace Fastd.Daemon

set_option linter.unusedSectionVars false

variable [Env] {S : Prop} {x y z : Nat → Prop}

/-! ### Marking -/

theorem reloadMark_id (p : Peer) : (reloadMark p).id = p.id := by
  unfold reloadMark; split <;> [rfl; split <;> [rfl; split <;> rfl]]

theorem reloadMark_eq {p : Peer} (hd : p.isDynamic = false) :
    ∃ s, s ≠ .dynamic ∧ reloadMark p = { p with name := p.name, cfg := s } := by
  unfold reloadMark
  rw [if_neg (by simp [hd])]
  split
  · exact ⟨.new, by simp, rfl⟩
  · split
    · exact ⟨.static, by simp, rfl⟩
    · exact ⟨p.cfg, by simpa [Peer.isDynamic] using hd, rfl⟩

theorem reloadMark_dyn {p : Peer} (hd : p.isDynamic = true) : reloadMark p = p := by
  unfold reloadMark; rw [if_pos hd]

theorem Inv.mark {c : Ctx} (h : Inv S x nobody z c) :
    Inv S x (fun j => ∀ p ∈ c.peers, p.id = j → p.isDynamic = false) z
      { c with peers := c.peers.map reloadMark } := by
  have key : ∀ k, Inv S x (fun j => ∀ p ∈ c.peers, p.id = j → p.isDynamic = false) z
      { c with peers := c.peers.map fun p => if p.id < k then reloadMark p else p } := by
    intro k
    induction k with
    | zero =>
      have : (c.peers.map fun p => if p.id < 0 then reloadMark p else p) = c.peers := by
        have := List.map_congr_left (l := c.peers) (f := fun p => if p.id < 0 then reloadMark p else p) (g := id)
          fun p _ => if_neg (Nat.not_lt_zero p.id)
        rw [this, List.map_id]
      rw [this]
      exact h.mono (fun _ h => h) (fun _ h => h.elim) fun _ h => h
    | succ k ih =>
      by_cases hex : ∃ p ∈ c.peers, p.id = k ∧ p.isDynamic = false
      · obtain ⟨p, hp, hpk, hpd⟩ := hex
        obtain ⟨s, hs, he⟩ := reloadMark_eq hpd
        have hm : p ∈ c.peers.map fun p => if p.id < k then reloadMark p else p :=
          List.mem_map.2 ⟨p, hp, if_neg (by omega)⟩
        have := ih.cfg (p := p) (y' := fun j => ∀ p ∈ c.peers, p.id = j → p.isDynamic = false) hm hpd (n := p.name)
          (s := s) hs (fun _ _ => id) (fun hn => absurd (fun q hq hqi => by rw [sorted_inj h.ids hq hp hqi]; exact hpd) hn)
        refine Eq.mp (congrArg (Inv S x _ z) ?_) this
        simp only []
        congr 1
        unfold updPeers
        rw [List.map_map]
        apply List.map_congr_left
        intro q hq
        simp only [Function.comp_apply]
        by_cases hqk : q.id = k
        · have : q = p := sorted_inj h.ids hq hp (hqk.trans hpk.symm)
          subst this
          have hk1 : ¬ q.id < k := by omega
          have hk2 : q.id < k + 1 := by omega
          rw [if_neg hk1, if_pos hk2, if_pos rfl, he]
        · by_cases hlt : q.id < k
          · rw [if_pos hlt, reloadMark_id, if_neg (by omega), if_pos (by omega)]
          · rw [if_neg hlt, if_neg (by omega), if_neg (by omega)]
      · refine Eq.mp (congrArg (Inv S x _ z) ?_) ih
        congr 1
        apply List.map_congr_left
        intro q hq
        by_cases hqk : q.id = k
        · have hd : q.isDynamic = true := by
            cases hd : q.isDynamic with
            | true => rfl
            | false => exact absurd ⟨q, hq, hqk, hd⟩ hex
          rw [if_neg (by omega), if_pos (by omega), reloadMark_dyn hd]
        · by_cases hlt : q.id < k
          · rw [if_pos hlt, if_pos (by omega)]
          · rw [if_neg hlt, if_neg (by omega)]
  have := key c.nextId
  rwa [List.map_congr_left (g := reloadMark) fun p hp => if_pos (h.idlt p hp)] at this

/-! ### Reading definitions -/

/-- A peer that has been defined more than once: the entry that already existed is disabled, otherwise the first definition makes
one. -/
def Dup (fromDir : Bool) (o : Option Peer) (p : Peer) : Prop :=
  (∃ p0, o = some p0 ∧ (p0.cfg = .new ∨ p0.cfg = .disabled) ∧ p = { p0 with cfg := .disabled }) ∨
  ((∀ p0, o = some p0 → p0.cfg = .static ∨ p0.cfg = .dynamic) ∧
    (p.fromDir = fromDir ∨ ∃ p0, o = some p0 ∧ p0.cfg = .static ∧ p.fromDir = p0.fromDir))

/-- What reading the definitions `ds` of a key does to the peer with that key. -/
def Defd (fromDir : Bool) (o : Option Peer) (ds : List PeerDef) (r : Option Peer) : Prop :=
  match ds with
  | [] => r = o
  | d :: ds' => ∃ p, r = some p ∧
    if ds' = [] ∧ ∀ p0, o = some p0 → p0.cfg = .static ∨ p0.cfg = .dynamic then
      p.cfg = .new ∧ (((∃ n s, p = { d.toPeer fromDir p.key with id := n, lastSerial := s }) ∧
          ∀ p0, o = some p0 → p0.cfg = .static → configsEqual p0 (d.toPeer fromDir p.key) = false) ∨
        ∃ p0, o = some p0 ∧ p0.cfg = .static ∧ configsEqual p0 (d.toPeer fromDir p.key) = true ∧
          p = { p0 with name := d.name, cfg := .new })
    else p.cfg = .disabled ∧ Dup fromDir o p

theorem findKey_append {ps qs : List Peer} {k : Key} : findKey (ps ++ qs) k = (findKey ps k).or (findKey qs k) :=
  List.find?_append

theorem findKey_eq {ps : List Peer} (hn : (ps.map (·.key)).Nodup) {p : Peer} (hp : p ∈ ps) : findKey ps p.key = some p := by
  cases hf : findKey ps p.key with
  | none => exact absurd rfl (findKey_none hf p hp)
  | some q =>
    obtain ⟨hq, hk⟩ := findKey_some hf
    rw [keys_inj hn hq hp hk]

theorem findKey_iff {ps : List Peer} (hn : (ps.map (·.key)).Nodup) {k : Key} {p : Peer} :
    findKey ps k = some p ↔ p ∈ ps ∧ p.key = k :=
  ⟨findKey_some, fun ⟨hp, hk⟩ => hk ▸ findKey_eq hn hp⟩

theorem findKey_none_iff {ps : List Peer} {k : Key} : findKey ps k = none ↔ ∀ p ∈ ps, p.key ≠ k := by
  refine ⟨findKey_none, fun h => List.find?_eq_none.2 fun p hp => by simpa using h p hp⟩

theorem findKey_congr {ps qs : List Peer} (hn : (ps.map (·.key)).Nodup) (hm : (qs.map (·.key)).Nodup) {k : Key}
    (h : ∀ p, p.key = k → (p ∈ ps ↔ p ∈ qs)) : findKey ps k = findKey qs k := by
  cases hf : findKey qs k with
  | none =>
    rw [findKey_none_iff] at hf ⊢
    exact fun p hp hk => hf p ((h p hk).1 hp) hk
  | some q =>
    rw [findKey_iff hm] at hf
    rw [findKey_iff hn]
    exact ⟨(h q hf.2).2 hf.1, hf.2⟩

theorem findKey_addResult_ne {ps : List Peer} {q : Peer} {n s : Nat} {k : Key} (hs : Sorted ps)
    (hn : (ps.map (·.key)).Nodup)
    (hm : ((addResult ps q n s).2.map (·.key)).Nodup) (hk : q.key ≠ k) :
    findKey (addResult ps q n s).2 k = findKey ps k := by
  refine findKey_congr hm hn fun p hp => ?_
  unfold addResult
  have upd : ∀ (o : Peer) (f : Peer → Peer), o ∈ ps → o.key = q.key → (f o).key = o.key → (p ∈ updPeers ps o.id (fun _ => f o) ↔ p ∈ ps) := by
    intro o f ho hok hfk
    rw [mem_updPeers]
    constructor
    · rintro ⟨r, hr, he⟩
      split at he
      · rw [← he, hfk, hok] at hp; exact absurd hp hk
      · rw [← he]; exact hr
    · intro hp'
      refine ⟨p, hp', if_neg fun hi => ?_⟩
      rw [sorted_inj hs hp' ho hi, hok] at hp; exact hk hp
  have app : ∀ l : List Peer, (p ∈ l ↔ p ∈ ps) → (p ∈ l ++ [{ q with id := n, lastSerial := s }] ↔ p ∈ ps) := by
    intro l hl
    rw [List.mem_append, List.mem_singleton, hl]
    refine or_iff_left fun he => hk ?_
    rw [← hp, he]
  have wo : ∀ o, o ∈ ps → o.key = q.key → (p ∈ without' ps o.id ↔ p ∈ ps) := by
    intro o ho hok
    rw [mem_without']
    refine and_iff_left_of_imp fun hp' hi => hk ?_
    rw [← hp, sorted_inj hs hp' ho hi, hok]
  cases hf : findKey ps q.key with
  | none => exact app ps Iff.rfl
  | some o =>
    obtain ⟨ho, hok⟩ := findKey_some hf
    simp only []
    split
    · exact upd o (fun o => { o with cfg := .disabled }) ho hok rfl
    · exact upd o (fun o => { o with cfg := .disabled }) ho hok rfl
    · split
      · exact upd o (fun o => { o with name := q.name, cfg := .new }) ho hok rfl
      · exact app _ (wo o ho hok)
    · exact app _ (wo o ho hok)

/-- The peer with the key of the definition after it has been added. -/
def defOnce (o : Option Peer) (q : Peer) (n s : Nat) : Peer :=
  match o with
  | none => { q with id := n, lastSerial := s }
  | some o =>
    match o.cfg with
    | .new | .disabled => { o with cfg := .disabled }
    | .static => if configsEqual o q then { o with name := q.name, cfg := .new } else { q with id := n, lastSerial := s }
    | .dynamic => { q with id := n, lastSerial := s }

theorem findKey_addResult_eq {ps : List Peer} {q : Peer} {n s : Nat}
    (hm : ((addResult ps q n s).2.map (·.key)).Nodup) :
    findKey (addResult ps q n s).2 q.key = some (defOnce (findKey ps q.key) q n s) := by
  rw [findKey_iff hm]
  unfold addResult defOnce
  have upd : ∀ (o : Peer) (f : Peer → Peer), o ∈ ps → f o ∈ updPeers ps o.id (fun _ => f o) :=
    fun o f ho => mem_updPeers.2 ⟨o, ho, if_pos rfl⟩
  have app : ∀ l : List Peer, { q with id := n, lastSerial := s } ∈ l ++ [{ q with id := n, lastSerial := s }] :=
    fun l => List.mem_append_right _ (List.mem_singleton.2 rfl)
  cases hf : findKey ps q.key with
  | none => exact ⟨app _, rfl⟩
  | some o =>
    obtain ⟨ho, hok⟩ := findKey_some hf
    cases hc : o.cfg with
    | new => simp only [hc]; exact ⟨upd o (fun o => { o with cfg := .disabled }) ho, hok⟩
    | disabled => simp only [hc]; exact ⟨upd o (fun o => { o with cfg := .disabled }) ho, hok⟩
    | static =>
      simp only [hc]
      by_cases he : configsEqual o q = true
      · rw [if_pos he, if_pos he]
        exact ⟨upd o (fun o => { o with name := q.name, cfg := .new }) ho, hok⟩
      · rw [if_neg he, if_neg he]
        exact ⟨app _, rfl⟩
    | dynamic => simp only [hc]; exact ⟨app _, trivial⟩

/-- Definitions of one key. -/
def ofKey (k : Key) (ds : List PeerDef) : List PeerDef := ds.filter fun d => d.key = some k

theorem PeerDef.newOk {d : PeerDef} (h : d.ok) {b : Bool} {k : Key} (hk : d.key = some k) : NewOk (d.toPeer b k) := by
  refine ⟨rfl, rfl, rfl, rfl, rfl, rfl, fun r hr => ?_, fun h => (by cases h), h.2 k hk, rfl, fun h => by cases h⟩
  unfold PeerDef.toPeer at hr
  obtain ⟨s, hs, rfl⟩ := List.mem_map.1 hr
  exact ⟨fun a ha => (by cases ha), h.1 s hs⟩

theorem defOnce_cfg (o : Option Peer) {q : Peer} {n s : Nat} (hq : q.cfg = .new) :
    (defOnce o q n s).cfg = .new ∨ (defOnce o q n s).cfg = .disabled := by
  unfold defOnce
  split
  · exact .inl hq
  · split
    · exact .inr rfl
    · exact .inr rfl
    · split
      · exact .inl rfl
      · exact .inl hq
    · exact .inl hq

theorem Defd.cons {fromDir : Bool} {o r : Option Peer} {d : PeerDef} {ds : List PeerDef} {k : Key} {n s : Nat}
    (ho : ∀ p, o = some p → p.key = k) (h : Defd fromDir (some (defOnce o (d.toPeer fromDir k) n s)) ds r) :
    Defd fromDir o (d :: ds) r := by
  cases ds with
  | nil =>
    change r = _ at h
    refine ⟨_, h, ?_⟩
    cases o with
    | none =>
      rw [if_pos ⟨rfl, fun _ h => (by cases h)⟩]
      exact ⟨rfl, .inl ⟨⟨n, s, rfl⟩, fun _ h => (by cases h)⟩⟩
    | some p0 =>
      have hk := ho p0 rfl
      unfold defOnce
      cases hc : p0.cfg with
      | new =>
        rw [if_neg fun h => ?_]
        · simp only [hc]; exact ⟨trivial, .inl ⟨p0, rfl, by rw [hc]; decide, rfl⟩⟩
        · have := h.2 p0 rfl
          rw [hc] at this
          rcases this with h | h <;> cases h
      | disabled =>
        rw [if_neg fun h => ?_]
        · simp only [hc]; exact ⟨trivial, .inl ⟨p0, rfl, by rw [hc]; decide, rfl⟩⟩
        · have := h.2 p0 rfl
          rw [hc] at this
          rcases this with h | h <;> cases h
      | static =>
        rw [if_pos ⟨rfl, fun p h => (by cases h; exact .inl hc)⟩]
        simp only [hc]
        split
        · rename_i he
          exact ⟨rfl, .inr ⟨p0, rfl, hc, by simp only [hk]; exact he, rfl⟩⟩
        · rename_i he
          exact ⟨rfl, .inl ⟨⟨n, s, rfl⟩, fun _ h _ => (by cases h; exact Bool.eq_false_iff.2 he)⟩⟩
      | dynamic =>
        rw [if_pos ⟨rfl, fun p h => (by cases h; exact .inr hc)⟩]
        simp only [hc]
        exact ⟨rfl, .inl ⟨⟨n, s, rfl⟩, fun _ h h' => (by cases h; rw [hc] at h'; cases h')⟩⟩
  | cons d' ds =>
    obtain ⟨p, hr, hp⟩ := h
    refine ⟨p, hr, ?_⟩
    rw [if_neg fun h => ?_] at hp
    · rw [if_neg (by simp)]
      refine ⟨hp.1, ?_⟩
      have hp2 : p.fromDir = (defOnce o (d.toPeer fromDir k) n s).fromDir ∧
          p = { defOnce o (d.toPeer fromDir k) n s with cfg := .disabled } := by
        rcases hp.2 with ⟨p1, h1, _, h3⟩ | ⟨h1, _⟩
        · cases h1; exact ⟨by rw [h3], h3⟩
        · rcases defOnce_cfg o (q := d.toPeer fromDir k) (n := n) (s := s) rfl with h2 | h2 <;>
            rcases h1 _ rfl with h1 | h1 <;> rw [h2] at h1 <;> cases h1
      cases o with
      | none => exact .inr ⟨fun _ h => (by cases h), .inl hp2.1⟩
      | some p0 =>
        unfold defOnce at hp2
        cases hc : p0.cfg with
        | new => simp only [hc] at hp2; exact .inl ⟨p0, rfl, .inl hc, hp2.2⟩
        | disabled => simp only [hc] at hp2; exact .inl ⟨p0, rfl, .inr hc, hp2.2⟩
        | static =>
          simp only [hc] at hp2
          refine .inr ⟨fun p h => (by cases h; exact .inl hc), ?_⟩
          split at hp2
          · exact .inr ⟨p0, rfl, hc, hp2.1⟩
          · exact .inl hp2.1
        | dynamic =>
          simp only [hc] at hp2
          exact .inr ⟨fun p h => (by cases h; exact .inr hc), .inl hp2.1⟩
    · rcases defOnce_cfg o (q := d.toPeer fromDir k) (n := n) (s := s) rfl with h1 | h1 <;>
        rcases h.2 _ rfl with h2 | h2 <;> rw [h1] at h2 <;> cases h2

theorem mem_addResult {ps : List Peer} {q : Peer} {n s : Nat} {p : Peer} (h : p ∈ (addResult ps q n s).2) :
    p ∈ ps ∨ p = { q with id := n, lastSerial := s } ∨
      ∃ o ∈ ps, o.isDynamic = false ∧ (p = { o with cfg := .disabled } ∨
        o.cfg = .static ∧ p = { o with name := q.name, cfg := .new }) := by
  unfold addResult at h
  cases hf : findKey ps q.key with
  | none =>
    rw [hf] at h
    rcases List.mem_append.1 h with h | h
    · exact .inl h
    · exact .inr (.inl (List.mem_singleton.1 h))
  | some o =>
    rw [hf] at h
    obtain ⟨ho, hok⟩ := findKey_some hf
    have app : p ∈ without' ps o.id ++ [{ q with id := n, lastSerial := s }] → p ∈ ps ∨ p = { q with id := n, lastSerial := s } ∨
      ∃ o ∈ ps, o.isDynamic = false ∧ (p = { o with cfg := .disabled } ∨
        o.cfg = .static ∧ p = { o with name := q.name, cfg := .new }) := by
      intro h
      rcases List.mem_append.1 h with h | h
      · exact .inl (mem_without'.1 h).1
      · exact .inr (.inl (List.mem_singleton.1 h))
    have upd : ∀ r, p ∈ updPeers ps o.id (fun _ => r) → p ∈ ps ∨ p = r := by
      intro r h
      obtain ⟨u, hu, he⟩ := mem_updPeers.1 h
      split at he
      · exact .inr he.symm
      · exact .inl (he ▸ hu)
    have dis : o.isDynamic = false → p ∈ updPeers ps o.id (fun _ => { o with cfg := .disabled }) →
        p ∈ ps ∨ p = { q with id := n, lastSerial := s } ∨ ∃ o ∈ ps, o.isDynamic = false ∧
          (p = { o with cfg := .disabled } ∨ o.cfg = .static ∧ p = { o with name := q.name, cfg := .new }) := by
      intro hd h
      rcases upd _ h with h | h
      · exact .inl h
      · exact .inr (.inr ⟨o, ho, hd, .inl h⟩)
    cases hc : o.cfg with
    | new => simp only [hc] at h; exact dis (by simp [Peer.isDynamic, hc]) h
    | disabled => simp only [hc] at h; exact dis (by simp [Peer.isDynamic, hc]) h
    | dynamic => simp only [hc] at h; exact app h
    | static =>
      simp only [hc] at h
      split at h
      · rcases upd _ h with h | h
        · exact .inl h
        · exact .inr (.inr ⟨o, ho, by simp [Peer.isDynamic, hc], .inr ⟨hc, h⟩⟩)
      · exact app h

/-- What must hold of the definitions in the main configuration while peer directories are loaded at the start. -/
def Steady (dirsOnly : Bool) (ps : List Peer) : Prop :=
  dirsOnly = true → ∀ p ∈ ps, (p.fromDir = false → p.cfg = .new → p.key ≠ Env.ownKey → p.state ≠ .inactive) ∧
    (p.cfg = .static → p.fromDir = true)

theorem wp_addDefs {c : Ctx} (h : Inv S nobody y z c) {ds : List PeerDef} (hds : ∀ d ∈ ds, d.ok) {fromDir dirsOnly : Bool}
    (hy : ∀ p ∈ c.peers, p.isDynamic = false → y p.id) (hyn : ∀ j, c.nextId ≤ j → y j) (hst : Steady dirsOnly c.peers)
    (hfd : dirsOnly = true → fromDir = true)
    {Q : Unit → Ctx → Prop}
    (hQ : ∀ c', Inv S nobody y z c' → (∀ k, Defd fromDir (findKey c.peers k) (ofKey k ds) (findKey c'.peers k)) →
      (∀ p ∈ c'.peers, p.isDynamic = false → y p.id) → Steady dirsOnly c'.peers → c'.keys = c.keys →
      (∀ p ∈ c'.peers, p ∈ c.peers ∨ p.isDynamic = false) →
      (∀ E : Eff → Prop, (∀ e, e.plain = true → E e) → Lg E c c') → Q () c') :
    wp S (forEach (addDef fromDir) ds) Q c := by
  induction ds generalizing c with
  | nil =>
    rw [forEach, wp_pure]
    exact hQ c h (fun k => rfl) hy hst rfl (fun p hp => .inl hp) fun E _ => Lg.refl
  | cons d ds ih =>
    rw [forEach, wp_bind]
    have hds' : ∀ d ∈ ds, d.ok := fun d hd => hds d (List.mem_cons_of_mem _ hd)
    unfold addDef
    cases hk : d.key with
    | none =>
      simp only []
      rw [wp_pure]
      refine ih h hds' hy hyn hst fun c' h1 h2 => hQ c' h1 fun k => ?_
      have : ofKey k (d :: ds) = ofKey k ds := by unfold ofKey; rw [List.filter_cons_of_neg (by simp [hk])]
      rw [this]; exact h2 k
    | some key =>
      simp only []
      rw [wp_bind]
      have hd := hds d List.mem_cons_self
      refine wp_peerAdd (y' := y) h (PeerDef.newOk hd hk) (fun _ => .inr rfl) (fun _ h => h) (hyn _ (Nat.le_refl _))
        (fun o ho hod => hy o (findKey_some ho).1 hod) fun c1 h1 e1 n1 i1 k1 l1 => ?_
      rw [wp_pure]
      have hkeys := h1.keys
      rw [e1] at hkeys
      refine ih h1 hds' (fun p hp hpd => ?_) (fun j hj => hyn j (Nat.le_trans i1 hj)) (fun hdo p hp => ?_)
        fun c' h2 f2 y2 s2 k2 m2 l2 => hQ c' h2 (fun k => ?_) y2 s2 (k2.trans k1) (fun p hp => ?_) fun E hE =>
          Lg.trans ⟨n1, i1, Nat.le_of_eq (by rw [k1]), ?_⟩ (l2 E hE)
      · rw [e1] at hp
        rcases mem_addResult hp with hp | rfl | ⟨o, ho, hod, rfl | ⟨_, rfl⟩⟩
        · exact hy p hp hpd
        · exact hyn _ (Nat.le_refl _)
        · exact hy o ho hod
        · exact hy o ho hod
      · rw [e1] at hp
        rcases mem_addResult hp with hp | rfl | ⟨o, ho, hod, rfl | ⟨hos, rfl⟩⟩
        · exact hst hdo p hp
        · refine ⟨fun hf => ?_, fun _ => ?_⟩
          · change fromDir = false at hf
            rw [hfd hdo] at hf; cases hf
          · exact hfd hdo
        · exact ⟨fun _ hn => (by cases hn), fun hn => by cases hn⟩
        · have hod := (hst hdo o ho).2 hos
          exact ⟨fun hf => absurd (hf : o.fromDir = false) (by rw [hod]; simp), fun hn => hod⟩
      · by_cases hkk : key = k
        · subst hkk
          have : ofKey key (d :: ds) = d :: ofKey key ds := by
            unfold ofKey; rw [List.filter_cons_of_pos (by simp [hk])]
          rw [this]
          have h3 := f2 key
          rw [e1] at h3
          have h4 := findKey_addResult_eq (ps := c.peers) (q := d.toPeer fromDir key) (n := c.nextId) (s := c.keys.cur.serial) hkeys
          change findKey _ key = _ at h4
          rw [h4] at h3
          exact Defd.cons (fun p hp => (findKey_some hp).2) h3
        · have : ofKey k (d :: ds) = ofKey k ds := by
            unfold ofKey; rw [List.filter_cons_of_neg (by simpa [hk] using hkk)]
          rw [this]
          have h3 := f2 k
          rw [e1, findKey_addResult_ne h.ids h.keys hkeys (by exact hkk)] at h3
          exact h3
      · rcases m2 p hp with hp | hp
        · rw [e1] at hp
          rcases mem_addResult hp with hp | rfl | ⟨o, ho, hod, rfl | ⟨hos, rfl⟩⟩
          · exact .inl hp
          · exact .inr rfl
          · exact .inr rfl
          · exact .inr rfl
        · exact .inr hp
      · obtain ⟨l, hl1, hl2⟩ := l1
        exact ⟨l, hl1, fun e he => by obtain ⟨i, rfl⟩ := hl2 e he; exact hE _ rfl⟩

/-! ### Applying definitions -/

/-- The state a peer has after the configuration has been applied. -/
def settle (p : Peer) : CfgState :=
  match p.cfg with
  | .new => if Env.ownKey = p.key then .disabled else .static
  | s => s

/-- What applying the configuration does to a peer that is not deleted. -/
structure Settled (p q : Peer) : Prop where
  stat : q.stat = { p.stat with cfg := settle p }
  name : q.name = p.name
  keep : settle p = .dynamic ∨ (settle p = .static ∧ p.state = .established) → q = { p with cfg := settle p }

theorem wp_configurePeer {c : Ctx} (h : Inv S nobody y nobody c) {dirsOnly : Bool} {p : Peer} (hp : p ∈ c.peers)
    (hyd : p.isDynamic = true → ¬ y p.id)
    (hst : dirsOnly = true → p.fromDir = false → p.cfg = .new → p.key ≠ Env.ownKey → p.state ≠ .inactive)
    {Q : Unit → Ctx → Prop}
    (hQ : ∀ c', Inv S nobody (fun j => y j ∧ j ≠ p.id) nobody c' →
      ((p.cfg = .static ∧ c'.peers = without' c.peers p.id) ∨
        (p.cfg ≠ .static ∧ ∃ q, Settled p q ∧ c'.peers = updPeers c.peers p.id fun _ => q)) → c'.keys = c.keys →
      (∀ E : Eff → Prop, (∀ e, e.plain = true → E e) → Lg E c c') → Q () c') :
    wp S (configurePeer dirsOnly p) Q c := by
  unfold configurePeer
  cases hc : p.cfg with
  | static =>
    simp only []
    refine wp_peerDelete (x' := nobody) (y' := fun j => y j ∧ j ≠ p.id) (z' := nobody) h hp rfl (fun _ _ => id)
      (fun _ hn hj => ⟨hj, hn⟩) (fun _ _ => id) fun c1 ht h1 e1 => ?_
    refine hQ c1 h1 (.inl ⟨hc, by rw [e1]⟩) (by rw [e1]) fun E hE => ?_
    rw [e1]
    refine ⟨rfl, Nat.le_refl _, Nat.le_refl _, _, rfl, fun e he => ?_⟩
    split at he
    · rw [List.mem_singleton] at he; subst he; exact hE _ rfl
    · cases he
  | dynamic =>
    simp only []
    rw [wp_pure]
    have hd : p.isDynamic = true := by simp [Peer.isDynamic, hc]
    have hs : settle p = .dynamic := by unfold settle; rw [hc]
    have hps : ({ p with cfg := .dynamic } : Peer) = p := by rw [← hc]
    refine hQ c { h with act := fun q hq hn => h.act q hq fun hy => hn ⟨hy, fun he => ?_⟩ } (.inr ⟨by simp [hc], p, ?_, ?_⟩) rfl
      fun E _ => Lg.refl
    · rw [sorted_inj h.ids hq hp he] at hy; exact hyd hd hy
    · refine ⟨by rw [hs, ← hc]; rfl, rfl, fun _ => ?_⟩
      rw [hs, hps]
    · have e := updPeers_const h.ids hp (f := fun p => p)
      rw [← e]
      unfold updPeers
      simp
  | disabled =>
    simp only []
    refine wp_peerReset (x' := nobody) (y' := fun j => y j ∧ j ≠ p.id) (z' := nobody) h hp rfl (fun _ => id)
      (fun _ _ => id) (fun _ hn hj => ⟨hj, hn⟩) (fun _ _ => id) fun c1 q h1 hq hcl hrt f1 => ?_
    obtain ⟨ht, r, n, e1⟩ := hrt
    have hs : settle p = .disabled := by unfold settle; rw [hc]
    refine hQ c1 h1 (.inr ⟨by simp [hc], q, ⟨?_, hcl.name, ?_⟩, by rw [e1]⟩) (by rw [e1]) fun E hE => (f1 E (hE _ rfl)).lg
    · rw [hs, hcl.stat, ← hc]; rfl
    · rw [hs]; rintro (h | ⟨h, _⟩) <;> cases h
  | new =>
    have hd : p.isDynamic = false := by simp [Peer.isDynamic, hc]
    -- the reset after changing the state
    have key : ∀ (s : CfgState) (c0 : Ctx), s ≠ .dynamic → settle p = s → (s = .static → p.state ≠ .established) →
        Inv S nobody y nobody c0 → c0.peers = c.peers → c0.keys = c.keys → (∀ E, Lg E c c0) →
        wp S (modP p.id (fun p => { p with cfg := s }) >>= fun _ => peerReset p.id) Q c0 := by
      intro s c0 hs hse hest h0 p0 k0 l0
      have hp0 : p ∈ c0.peers := by rw [p0]; exact hp
      rw [wp_bind]
      refine (wp_modP (p := p) h0.ids hp0 rfl).2 ?_
      have h1 := h0.cfg (y' := fun j => y j ∨ j = p.id) hp0 hd (n := p.name) hs (fun _ _ hy => .inl hy)
        (fun hn => absurd (.inr rfl) hn)
      rw [updPeers_const h0.ids hp0]
      refine wp_opaque fun c1 e1 => ?_
      rw [← e1] at h1
      have hm : ({ p with name := p.name, cfg := s } : Peer) ∈ c1.peers := by
        rw [e1]; exact mem_upd_self (p := p) hp0
      refine wp_peerReset (x' := nobody) (y' := fun j => y j ∧ j ≠ p.id) (z' := nobody) h1 hm rfl (fun _ => id)
        (fun _ _ => id) (fun _ hn hj => ⟨hj.resolve_right hn, hn⟩) (fun _ _ => id) fun c2 q h2 hq hcl hrt f2 => ?_
      obtain ⟨ht, r, n, e2⟩ := hrt
      refine hQ c2 h2 (.inr ⟨by simp [hc], q, ⟨?_, hcl.name, ?_⟩, ?_⟩) (by rw [e2, e1]; exact k0) fun E hE =>
        Lg.trans (l0 E) (Lg.trans ?_ (f2 E (hE _ rfl)).lg)
      · rw [hse, hcl.stat]; rfl
      · rw [hse]
        rintro (h | ⟨h, he⟩)
        · exact absurd h hs
        · exact absurd he (hest h)
      · rw [e2, e1]
        simp only []
        rw [updPeers_updPeers, p0]
        · rfl
        · intro r _ hr; exact hr.symm
      · rw [e1]; exact ⟨rfl, Nat.le_refl _, Nat.le_refl _, [], by simp, by simp⟩
    simp only []
    refine wp_ite (fun ho => ?_) (fun ho => ?_)
    · exact key .disabled c (by simp) (by unfold settle; rw [hc]; exact if_pos ho) (fun h => by cases h) h rfl rfl
        fun _ => Lg.refl
    · have hse : settle p = .static := by unfold settle; rw [hc]; exact if_neg ho
      rw [wp_bind, wp_modify]
      have h0 : Inv S nobody y nobody { c with hasFloating := c.hasFloating || p.isFloating } :=
        h.misc rfl rfl rfl rfl rfl rfl rfl rfl rfl rfl rfl rfl rfl
      refine wp_opaque fun c0 e0 => ?_
      rw [← e0] at h0
      have p0 : c0.peers = c.peers := by rw [e0]
      have l0 : ∀ E, Lg E c c0 := fun E => by rw [e0]; exact ⟨rfl, Nat.le_refl _, Nat.le_refl _, [], by simp, by simp⟩
      by_cases hr : (!p.isEstablished && (p.fromDir || !dirsOnly)) = true
      · simp only [hr, if_true]
        refine key .static c0 (by simp) hse (fun _ he => ?_) h0 p0 (by rw [e0]) l0
        simp [Peer.isEstablished, he] at hr
      · simp only [hr]
        have hp0 : p ∈ c0.peers := by rw [p0]; exact hp
        have hact : p.state ≠ .inactive := by
          by_cases he : p.state = .established
          · rw [he]; simp
          · have : (!p.isEstablished) = true := by simp [Peer.isEstablished, he]
            rw [this] at hr
            cases hd : dirsOnly with
            | false => rw [hd] at hr; simp at hr
            | true =>
              refine hst hd ?_ hc fun h => ho h.symm
              rw [hd] at hr; simpa using hr
        rw [wp_bind]
        refine (wp_modP (p := p) h0.ids hp0 rfl).2 ?_
        have h1 := h0.cfg (y' := fun j => y j ∧ j ≠ p.id) hp0 hd (n := p.name) (s := .static) (by simp) (fun _ hn hy => ⟨hy, hn⟩)
          (fun _ => iff_of_false hact (by simp [Peer.isEnabled]))
        rw [updPeers_const h0.ids hp0]
        rw [if_neg (by simp), wp_pure]
        refine hQ _ h1 (.inr ⟨by simp [hc], { p with cfg := .static }, ⟨by rw [hse]; rfl, rfl, fun _ => by rw [hse]⟩, by simp only [p0]⟩)
          (by rw [e0]) fun E hE => Lg.trans (l0 E) ⟨rfl, Nat.le_refl _, Nat.le_refl _, [], by simp, by simp⟩

theorem updPeers_set {ps : List Peer} (hs : Sorted ps) {k : Nat} {p : Peer} (hk : ps[k]? = some p) (q : Peer) :
    (updPeers ps p.id fun _ => q) = ps.take k ++ q :: ps.drop (k + 1) := by
  have hl := (List.getElem?_eq_some_iff.1 hk).1
  have e := List.set_eq_take_append_cons_drop (l := ps) (i := k) (a := q)
  rw [if_pos hl] at e
  rw [← e]
  apply List.ext_getElem?
  intro j
  unfold updPeers
  rw [List.getElem?_map, List.getElem?_set]
  by_cases hj : k = j
  · subst hj
    rw [hk, if_pos rfl, if_pos hl]
    simp
  · rw [if_neg hj]
    cases hq : ps[j]? with
    | none => rfl
    | some r =>
      simp only [Option.map_some]
      rw [if_neg fun he => hj ?_]
      have : r = p := sorted_inj hs (List.mem_of_getElem? hq) (List.mem_of_getElem? hk) he
      subst this
      have hn : ps.Nodup := List.Pairwise.of_map (S := fun a b => a ≠ b) _ (fun a b h e => h (congrArg Peer.id e)) (hs.imp Nat.ne_of_lt)
      exact (List.getElem?_inj hl hn).1 (hk.trans hq.symm)

theorem wp_configureLoop {dirsOnly : Bool} {k : Nat} {c : Ctx} (h : Inv S nobody y nobody c) (hk : k ≤ c.peers.length)
    (hyd : ∀ p ∈ c.peers, p.isDynamic = true → ¬ y p.id) (hyk : ∀ p ∈ c.peers.drop k, ¬ y p.id)
    (hst : Steady dirsOnly (c.peers.take k)) {Q : Unit → Ctx → Prop}
    (hQ : ∀ c' A, Inv S nobody nobody nobody c' → c'.peers = A ++ c.peers.drop k →
      List.Forall₂ Settled ((c.peers.take k).filter fun p => p.cfg ≠ .static) A → c'.keys = c.keys →
      (∀ E : Eff → Prop, (∀ e, e.plain = true → E e) → Lg E c c') → Q () c') :
    wp S (configureLoop dirsOnly k) Q c := by
  induction k generalizing c y with
  | zero =>
    unfold configureLoop
    rw [wp_pure]
    refine hQ c [] { h with act := fun p hp _ => h.act p hp (hyk p hp) } rfl ?_ rfl fun E _ => Lg.refl
    exact .nil
  | succ k ih =>
    unfold configureLoop
    rw [wp_bind, wp_get, wp_bind]
    obtain ⟨p, hp⟩ : ∃ p, c.peers[k]? = some p := ⟨_, List.getElem?_eq_getElem hk⟩
    have hm := List.mem_of_getElem? hp
    rw [hp]
    refine wp_memIfNone (fun _ => rfl) fun a ha => ?_
    cases ha
    rw [wp_bind]
    have htk : c.peers.take (k + 1) = c.peers.take k ++ [p] := by rw [List.take_add_one, hp]; rfl
    have hdk : c.peers.drop k = p :: c.peers.drop (k + 1) := by
      obtain ⟨hl, rfl⟩ := List.getElem?_eq_some_iff.1 hp
      exact List.drop_eq_getElem_cons hl
    refine wp_configurePeer h hm (hyd p hm) (fun hd => (hst hd p (by rw [htk]; simp)).1) fun c1 h1 e1 k1 l1 => ?_
    obtain ⟨B, hB, e1, hBF⟩ : ∃ B, (∀ q ∈ B, q.id = p.id) ∧ c1.peers = c.peers.take k ++ B ++ c.peers.drop (k + 1) ∧
        List.Forall₂ Settled ([p].filter fun p => p.cfg ≠ .static) B := by
      rcases e1 with ⟨hc, e1⟩ | ⟨hc, q, hq, e1⟩
      · refine ⟨[], by simp, ?_, ?_⟩
        · rw [e1, ← eraseIdx_without' h.ids hp, List.eraseIdx_eq_take_drop_succ, List.append_nil]
        · rw [List.filter_cons_of_neg (by simp [hc])]; exact .nil
      · refine ⟨[q], ?_, ?_, ?_⟩
        · intro r hr
          rw [List.mem_singleton] at hr; subst hr
          exact (congrArg Stat.id hq.stat :)
        · rw [e1, updPeers_set h.ids hp, List.append_assoc]; rfl
        · rw [List.filter_cons_of_pos (by simp [hc])]; exact .cons hq .nil
    have hlen : (c.peers.take k).length = k := by rw [List.length_take]; omega
    have ht1 : c1.peers.take k = c.peers.take k := by
      rw [e1, List.append_assoc, List.take_append_of_le_length (by omega), List.take_take, Nat.min_self]
    have hd1 : c1.peers.drop k = B ++ c.peers.drop (k + 1) := by
      rw [e1, List.append_assoc, List.drop_append_of_le_length (by omega), List.drop_take, Nat.sub_self, List.take_zero, List.nil_append]
    refine ih h1 ?_ ?_ ?_ ?_ fun c2 A h2 e2 f2 k2 l2 => hQ c2 (A ++ B) h2 ?_ ?_ (k2.trans k1) fun E hE =>
      Lg.trans (l1 E hE) (l2 E hE)
    · rw [e1, List.append_assoc, List.length_append, hlen]; omega
    · intro q hq hqd hqy
      rw [e1] at hq
      rcases List.mem_append.1 hq with hq | hq
      · rcases List.mem_append.1 hq with hq | hq
        · exact hyd q (List.mem_of_mem_take hq) hqd hqy.1
        · exact hqy.2 (hB q hq)
      · exact hyd q (List.mem_of_mem_drop hq) hqd hqy.1
    · intro q hq hqy
      rw [hd1] at hq
      rcases List.mem_append.1 hq with hq | hq
      · exact hqy.2 (hB q hq)
      · exact hyk q hq hqy.1
    · intro hd q hq
      rw [ht1] at hq
      exact hst hd q (by rw [htk]; exact List.mem_append_left _ hq)
    · rw [e2, hd1, List.append_assoc]
    · rw [htk, List.filter_append]
      rw [ht1] at f2
      exact List.rel_append f2 hBF

theorem wp_configurePeers {dirsOnly : Bool} {c : Ctx} (h : Inv S nobody y nobody c)
    (hyd : ∀ p ∈ c.peers, p.isDynamic = true → ¬ y p.id) (hst : Steady dirsOnly c.peers) {Q : Unit → Ctx → Prop}
    (hQ : ∀ c', Inv S nobody nobody nobody c' →
      List.Forall₂ Settled (c.peers.filter fun p => p.cfg ≠ .static) c'.peers → c'.keys = c.keys →
      (∀ E : Eff → Prop, (∀ e, e.plain = true → E e) → Lg E c c') → Q () c') :
    wp S (configurePeers dirsOnly) Q c := by
  unfold configurePeers
  rw [wp_bind, wp_modify, wp_bind, wp_get]
  have h0 : Inv S nobody y nobody { c with hasFloating := false } :=
    h.misc rfl rfl rfl rfl rfl rfl rfl rfl rfl rfl rfl rfl rfl
  refine wp_configureLoop h0 (Nat.le_refl _) hyd (fun p hp => ?_) (by rw [List.take_length]; exact hst)
    fun c' A h1 e1 f1 k1 l1 => hQ c' h1 ?_ k1 fun E hE => Lg.trans ?_ (l1 E hE)
  · simp only [List.drop_length, List.not_mem_nil] at hp
  · rw [List.take_length] at f1
    rw [e1, List.drop_length, List.append_nil]
    exact f1
  · exact ⟨rfl, Nat.le_refl _, Nat.le_refl _, [], by simp, by simp⟩

/-- The peers after the definitions `ds` have been loaded: `ps` are those before they are applied. -/
structure Loaded (ds : List PeerDef) (c c' : Ctx) (ps : List Peer) : Prop where
  nodup : (ps.map (·.key)).Nodup
  defd : ∀ k, Defd true (findKey (c.peers.map reloadMark) k) (ofKey k ds) (findKey ps k)
  settled : List.Forall₂ Settled (ps.filter fun p => p.cfg ≠ .static) c'.peers

theorem wp_loadPeerDirs {c : Ctx} (h : Inv S nobody nobody nobody c) {ds : List PeerDef} (hds : ∀ d ∈ ds, d.ok)
    {dirsOnly : Bool} (hst : Steady dirsOnly (c.peers.map reloadMark)) {Q : Unit → Ctx → Prop}
    (hQ : ∀ c' ps, Inv S nobody nobody nobody c' → Loaded ds c c' ps → c'.keys = c.keys →
      (∀ E : Eff → Prop, (∀ e, e.plain = true → E e) → Lg E c c') → Q () c') :
    wp S (loadPeerDirs dirsOnly ds) Q c := by
  unfold loadPeerDirs
  rw [wp_bind, wp_modify, wp_bind]
  have h0 := h.mark
  refine wp_addDefs (fromDir := true) (dirsOnly := dirsOnly) h0 hds ?_ ?_ hst (fun _ => rfl) fun c1 h1 d1 y1 s1 k1 m1 l1 => ?_
  · intro p hp hd q hq hqi
    obtain ⟨r, hr, rfl⟩ := List.mem_map.1 hp
    rw [reloadMark_id] at hqi
    have : q = r := sorted_inj h.ids hq hr hqi
    subst this
    cases hqd : q.isDynamic with
    | false => rfl
    | true => rw [reloadMark_dyn hqd, hqd] at hd; cases hd
  · intro j hj q hq hqi
    exact absurd (h.idlt q hq) (by rw [hqi]; exact Nat.not_lt.2 hj)
  · refine wp_configurePeers h1 ?_ s1 fun c2 h2 f2 k2 l2 =>
      hQ c2 c1.peers h2 ⟨h1.keys, d1, f2⟩ (k2.trans k1) fun E hE => Lg.trans ?_ (Lg.trans (l1 E hE) (l2 E hE))
    · intro p hp hd hy
      rcases m1 p hp with hp | hp
      · obtain ⟨r, hr, rfl⟩ := List.mem_map.1 hp
        have := hy r hr (reloadMark_id r).symm
        obtain ⟨s, hs, he⟩ := reloadMark_eq this
        rw [he] at hd
        exact hs (by simpa [Peer.isDynamic] using hd)
      · rw [hd] at hp; cases hp
    · exact ⟨rfl, Nat.le_refl _, Nat.le_refl _, [], by simp, by simp⟩

/-! ### Start-up -/

theorem inv_initial (now : Time) (seed useed : UInt32) (k0 : Nat) : Inv S nobody nobody nobody (initial now seed useed k0) where
  ids := .nil
  idlt := by simp [initial]
  keys := by simp [initial]
  ht := (HtOk.empty [] seed (by decide)).congr rfl (by intro p hp; cases hp)
  uniq := by intro p hp; cases hp
  socks := ⟨.nil, by simp [initial], by simp [initial], by simp [initial], fun _ => rfl⟩
  refs := ⟨by simp [initial], by simp [initial], by simp [initial]⟩
  eth := ⟨by simp [initial, EthSorted], by simp [initial]⟩
  limits := by intro g m _; simp [initial, countEstablished]
  peer := by simp [initial]
  act := by simp [initial]
  timers := by simp [initial]
  sched := by simp [initial]
  resolves := by simp [initial]
  verifs := by simp [initial]
  serials := ⟨Nat.le_refl _, fun _ => rfl⟩
  caches := by simp [initial]
  log := ⟨by simp [initial, sessLog], by simp [initial, sessLog], by simp [initial, sessLog],
    by simp [initial, sessLog], by simp [initial, sessLog]⟩
  dynv := by simp [initial]

/-- What a definition says. -/
structure Spec where
  key : Option Key
  name : Option Bytes
  group : Nat
  floating : Bool
  ifname : Option Bytes
  mtu : Nat
  rem : List (Option Bytes × Addr)
deriving DecidableEq

def PeerDef.spec (d : PeerDef) : Spec := ⟨d.key, d.name, d.group, d.floating, d.ifname, d.mtu, d.remotes.map fun r => (r.hostname, r.address)⟩

def Peer.spec (p : Peer) : Spec := ⟨some p.key, p.name, p.group, p.floating, p.ifname, p.mtu, p.remotes.map fun r => (r.hostname, r.address)⟩

theorem toPeer_spec {d : PeerDef} {b : Bool} {k : Key} (h : d.key = some k) : (d.toPeer b k).spec = d.spec := by
  simp only [Peer.spec, PeerDef.spec, PeerDef.toPeer, List.map_map, h]
  rfl

theorem Settled.spec {p q : Peer} (h : Settled p q) : q.spec = p.spec := by
  have h1 : q.key = p.key := congrArg Stat.key h.stat
  have h2 : q.group = p.group := congrArg Stat.group h.stat
  have h3 : q.floating = p.floating := congrArg Stat.floating h.stat
  have h4 : q.ifname = p.ifname := congrArg Stat.ifname h.stat
  have h5 : q.mtu = p.mtu := congrArg Stat.mtu h.stat
  have h6 : q.remotes.map (fun r => (r.hostname, r.address)) = p.remotes.map fun r => (r.hostname, r.address) := congrArg Stat.rem h.stat
  unfold Peer.spec
  rw [h.name, h1, h2, h3, h4, h5, h6]

/-- The peers the main configuration file defines. -/
structure MainPeers (static : List PeerDef) (ps : List Peer) : Prop where
  mem : ∀ p ∈ ps, p.cfg = .new ∧ p.fromDir = false
  eq : ps.map Peer.spec = static.map PeerDef.spec

theorem wp_addStatics {c : Ctx} (h : Inv S nobody y nobody c) {pre ds : List PeerDef} (hds : ∀ d ∈ ds, d.ok)
    (hm : MainPeers pre c.peers) (hy : ∀ j, y j) {Q : Unit → Ctx → Prop}
    (hQ : ∀ c', Inv S nobody y nobody c' → MainPeers (pre ++ ds) c'.peers → c'.keys = c.keys →
      (∀ E : Eff → Prop, (∀ e, e.plain = true → E e) → Lg E c c') → Q () c') : wp S (forEach addStatic ds) Q c := by
  induction ds generalizing c pre with
  | nil =>
    rw [forEach, wp_pure]
    exact hQ c h (by rw [List.append_nil]; exact hm) rfl fun E _ => Lg.refl
  | cons d ds ih =>
    rw [forEach, wp_bind]
    unfold addStatic
    cases hk : d.key with
    | none => exact trivial
    | some key =>
      simp only []
      rw [wp_bind]
      refine wp_peerAdd (y' := y) h (PeerDef.newOk (hds d List.mem_cons_self) hk) (fun _ => .inr rfl) (fun _ h => h) (hy _)
        (fun o _ _ => hy _) fun c1 h1 e1 n1 i1 k1 l1 => ?_
      have hkey : (d.toPeer false key).key = key := rfl
      cases hf : findKey c.peers key with
      | none =>
        have ha : addResult c.peers (d.toPeer false key) c.nextId c.keys.cur.serial =
            (.added c.nextId, c.peers ++ [{ d.toPeer false key with id := c.nextId, lastSerial := c.keys.cur.serial }]) := by
          unfold addResult; rw [hkey, hf]; rfl
        rw [ha] at e1 ⊢
        simp only []
        rw [wp_pure]
        refine ih (pre := pre ++ [d]) h1 (fun d hd => hds d (List.mem_cons_of_mem _ hd)) ?_ fun c2 h2 m2 k2 l2 =>
          hQ c2 h2 (by rw [List.append_assoc] at m2; exact m2) (k2.trans k1) fun E hE => Lg.trans ⟨n1, i1, Nat.le_of_eq (by rw [k1]), ?_⟩ (l2 E hE)
        · rw [e1]
          refine ⟨fun p hp => ?_, ?_⟩
          · rcases List.mem_append.1 hp with hp | hp
            · exact hm.mem p hp
            · rw [List.mem_singleton] at hp; subst hp
              exact ⟨rfl, rfl⟩
          · simp only [List.map_append, hm.eq, List.map_cons, List.map_nil]
            rw [← toPeer_spec (b := false) hk]; rfl
        · obtain ⟨l, hl1, hl2⟩ := l1
          exact ⟨l, hl1, fun e he => by obtain ⟨i, rfl⟩ := hl2 e he; exact hE _ rfl⟩
      | some o =>
        have ha : (addResult c.peers (d.toPeer false key) c.nextId c.keys.cur.serial).1 = .failed := by
          unfold addResult; rw [hkey, hf]
          have := (hm.mem o (findKey_some hf).1).1
          simp only [this]
        rw [ha]
        exact trivial

/-- The peers after the main configuration has been loaded. -/
structure Started (static : List PeerDef) (c : Ctx) : Prop where
  mem : ∀ p ∈ c.peers, p.fromDir = false ∧ p.isDynamic = false
  eq : c.peers.map Peer.spec = static.map PeerDef.spec

theorem wp_startup {now : Time} {seed useed : UInt32} {k0 : Nat} {static dirs : List PeerDef} (hs : ∀ d ∈ static, d.ok)
    (hd : ∀ d ∈ dirs, d.ok) {Q : Unit → Ctx → Prop}
    (hQ : ∀ c', Inv S nobody nobody nobody c' →
      (∀ E : Eff → Prop, (∀ e, e.plain = true → E e) → Lg E (initial now seed useed k0) c') →
      (∃ c0 ps, Inv S nobody nobody nobody c0 ∧ Started static c0 ∧ Loaded dirs c0 c' ps) → Q () c') :
    wp S (startup static dirs) Q (initial now seed useed k0) := by
  unfold startup
  have h0 : Inv S nobody (fun _ => True) nobody (initial now seed useed k0) :=
    (inv_initial now seed useed k0).mono (fun _ h => h) (fun _ _ => trivial) fun _ h => h
  rw [wp_bind]
  refine wp_addStatics (pre := []) h0 hs ⟨by simp [initial], by simp [initial]⟩ (fun _ => trivial) fun c1 h1 m1 k1 l1 => ?_
  rw [wp_bind]
  refine wp_configurePeers h1 (fun p hp hpd => ?_) (fun h => by cases h) fun c2 h2 f2 k2 l2 => ?_
  · simp [Peer.isDynamic, (m1.mem p hp).1] at hpd
  have main : ∀ r ∈ c2.peers, ∃ p ∈ c1.peers, Settled p r ∧ r.fromDir = false ∧ r.cfg = (if Env.ownKey = p.key then .disabled else .static) ∧
      r.key = p.key ∧ r.isDynamic = false := by
    intro r hr
    obtain ⟨p, hp, hs⟩ := forall₂_mem' f2 hr
    have hp := (List.mem_filter.1 hp).1
    obtain ⟨hpc, hpf⟩ := m1.mem p hp
    have hrc : r.cfg = settle p := congrArg Stat.cfg hs.stat
    unfold settle at hrc
    rw [hpc] at hrc
    exact ⟨p, hp, hs, (congrArg Stat.fromDir hs.stat).trans hpf, hrc, congrArg Stat.key hs.stat, by
      unfold Peer.isDynamic; rw [hrc]; simp only []; split <;> rfl⟩
  have st : Started static c2 := by
    refine ⟨fun r hr => ?_, ?_⟩
    · obtain ⟨_, _, _, h1, _, _, h2⟩ := main r hr
      exact ⟨h1, h2⟩
    · have : c1.peers.filter (fun p => p.cfg ≠ .static) = c1.peers :=
        List.filter_eq_self.2 fun p hp => by rw [(m1.mem p hp).1]; rfl
      rw [this] at f2
      have e : c2.peers.map Peer.spec = c1.peers.map Peer.spec := by
        clear main h2 this l2 k2 h1 m1
        generalize c1.peers = a at f2
        generalize c2.peers = b at f2
        induction f2 with
        | nil => rfl
        | cons hs _ ih =>
          rw [List.map_cons, List.map_cons, ih]
          congr 1
          exact hs.spec
      rw [e, m1.eq]
      rfl
  refine wp_loadPeerDirs h2 hd ?_ fun c3 ps h3 ld3 _ l3 => hQ c3 h3 (fun E hE =>
    Lg.trans (l1 E hE) (Lg.trans (l2 E hE) (l3 E hE))) ⟨c2, ps, h2, st, ld3⟩
  intro _ q hq
  obtain ⟨r, hr, rfl⟩ := List.mem_map.1 hq
  obtain ⟨p, hp, hs, hrf, hrc, hrk, hrd⟩ := main r hr
  have hrm : reloadMark r = { r with cfg := .new } := by
    unfold reloadMark; rw [if_neg (by simp [hrd]), if_pos (by simp [hrf])]
  rw [hrm]
  refine ⟨fun _ _ hk hi => ?_, fun h => by cases h⟩
  have := (h2.act r hr id).1 hi
  simp only [] at hk
  rw [if_neg (by rw [← hrk]; exact fun h => hk h.symm)] at hrc
  simp [Peer.isEnabled, hrc] at this

end Fastd.Daemon
