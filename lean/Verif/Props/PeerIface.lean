import Verif.Net.PeerIface

/-!
# Property C104: the interface of a peer and the commands for it

Each interface and each offloaded session that is made for a peer is announced by `on up` once it exists, and by `on down` before it is removed; both are told
its name. There are never two at a time, and none is left when the peer is deleted. `on establish` and `on disestablish` are told the interface that is in use.
-/

namespace Fastd.Net.PeerIface

/-- The interface that belongs to the peer only -/
inductive Life
  | nothing
  | made (d : Dev)
  | up (d : Dev)
  | down (d : Dev)
deriving DecidableEq, Repr

/-- The specification: which events may follow each other. The second component says whether the connection is established. -/
def next (shared : Option Dev) : Life × Bool → Ev → Option (Life × Bool)
  | (.nothing, e), .create d => some (.made d, e)
  | (.made d, e), .up n => if n = some d.name then some (.up d, e) else none
  | (.up d, false), .establish n => if n = some d.name then some (.up d, true) else none
  | (.nothing, false), .establish n => if shared.isSome ∧ n = shared.map (·.name) then some (.nothing, true) else none
  | (.up d, true), .disestablish n => if n = some d.name then some (.up d, false) else none
  | (.nothing, true), .disestablish n => if n = shared.map (·.name) then some (.nothing, false) else none
  | (.up d, e), .down n => if n = some d.name then some (.down d, e) else none
  | (.down d, e), .destroy d' => if d' = d then some (.nothing, e) else none
  | _, _ => none

/-- A trace is in order. -/
def run (shared : Option Dev) : Life × Bool → List Ev → Option (Life × Bool)
  | s, [] => some s
  | s, e :: l => (next shared s e).bind fun s => run shared s l

theorem run_append (shared : Option Dev) (s : Life × Bool) (l l' : List Ev) :
    run shared s (l ++ l') = (run shared s l).bind fun s => run shared s l' := by
  induction l generalizing s with
  | nil => rfl
  | cons e l ih =>
    show (next shared s e).bind _ = ((next shared s e).bind _).bind _
    cases next shared s e with
    | none => rfl
    | some s' => exact ih s'

theorem run_down (shared : Option Dev) (d : Dev) (e : Bool) :
    run shared (.up d, e) [.down (some d.name), .destroy d] = some (.nothing, e) := by
  cases e <;> simp [run, next]

/-- The own interface of a peer -/
def life (p : Peer) : Life :=
  match p.offload with
  | some (_, d) => .up d
  | none =>
    match p.iface with
    | some (d, true) => .up d
    | _ => .nothing

/-- The invariant -/
structure Inv (c : Conf) (p : Peer) : Prop where
  trace : run c.shared (.nothing, false) p.trace = some (life p, p.established)
  /-- never both -/
  one : p.offload = none ∨ p.iface = none
  /-- nothing of its own if there is a shared interface; and it is not used by inactive peers only -/
  shared : ∀ d, c.shared = some d → p.offload = none ∧ (p.iface = none ∨ p.iface = some (d, false)) ∧ (p.inactive = false → p.iface = some (d, false))
  /-- no other interface is shared -/
  own : ∀ d, p.iface = some (d, false) → c.shared = some d
  off : p.offload ≠ none → c.offload = true
  est : p.established = true → p.inactive = false

theorem Inv.env {c : Conf} {p : Peer} (h : Inv c p) :
    (∃ d, life p = .up d ∧ p.env = some d.name) ∨ (life p = .nothing ∧ p.offload = none ∧ p.iface = none ∧ p.env = none) ∨
    (life p = .nothing ∧ p.offload = none ∧ ∃ d, c.shared = some d ∧ p.iface = some (d, false) ∧ p.env = some d.name) := by
  unfold life Peer.env
  cases ho : p.offload with
  | some od => exact .inl ⟨od.2, rfl, rfl⟩
  | none =>
    cases hi : p.iface with
    | none => exact .inr (.inl ⟨rfl, rfl, rfl, rfl⟩)
    | some db =>
      obtain ⟨d, b⟩ := db
      cases b with
      | true => exact .inl ⟨d, rfl, rfl⟩
      | false => exact .inr (.inr ⟨rfl, rfl, d, h.own d hi, rfl, rfl⟩)

theorem inv_freeOffload {c : Conf} {p : Peer} (h : Inv c p) (hi : p.established = true → p.inactive = false) :
    Inv c (freeOffload p) ∧ (freeOffload p).offload = none ∧ (freeOffload p).config = p.config ∧ (freeOffload p).inactive = p.inactive ∧
      (freeOffload p).established = p.established := by
  unfold freeOffload
  cases ho : p.offload with
  | none => exact ⟨h, ho, rfl, rfl, rfl⟩
  | some od =>
    obtain ⟨o, d⟩ := od
    have hl : life p = .up d := by unfold life; rw [ho]
    have he : p.env = some d.name := by unfold Peer.env; rw [ho]
    have hif : p.iface = none := by
      rcases h.one with h1 | h1
      · rw [ho] at h1; cases h1
      · exact h1
    refine ⟨⟨?_, .inl rfl, ?_, ?_, ?_, hi⟩, rfl, rfl, rfl, rfl⟩
    · show run c.shared _ (p.trace ++ [.down p.env, .destroy d]) = some (life { p with offload := none, trace := _ }, p.established)
      rw [run_append, h.trace, hl, he]
      have : ∀ t, life { p with offload := none, trace := t } = .nothing := by intro t; unfold life; simp only [hif]
      rw [this]
      exact run_down _ _ _
    · intro d' hd
      exact absurd (h.shared d' hd).1 (by rw [ho]; simp)
    · intro d' hd
      exact h.own d' hd
    · intro hn
      exact absurd rfl hn

theorem inv_closeIface {c : Conf} {p : Peer} (h : Inv c p) (ho : p.offload = none) (hin : c.shared ≠ none → p.inactive = true) :
    Inv c (closeIface p) ∧ (closeIface p).offload = none ∧ (closeIface p).iface = none ∧ (closeIface p).config = p.config ∧
      (closeIface p).inactive = p.inactive ∧ (closeIface p).established = p.established := by
  have fin : ∀ t, run c.shared (.nothing, false) t = some (.nothing, p.established) → Inv c { p with iface := none, trace := t } := by
    intro t ht
    refine ⟨?_, .inr rfl, ?_, ?_, h.off, h.est⟩
    · have : life { p with iface := none, trace := t } = .nothing := by unfold life; simp only [ho]
      rw [this]
      exact ht
    · intro d hd
      refine ⟨ho, .inl rfl, fun hi => ?_⟩
      have := hin (by rw [hd]; simp)
      rw [show p.inactive = false from hi] at this
      cases this
    · intro d hd
      cases hd
  unfold closeIface
  cases hi : p.iface with
  | none =>
    refine ⟨fin p.trace ?_, ho, rfl, rfl, rfl, rfl⟩
    rw [h.trace]
    unfold life
    simp only [ho, hi]
  | some db =>
    obtain ⟨d, b⟩ := db
    cases b with
    | false =>
      refine ⟨fin p.trace ?_, ho, rfl, rfl, rfl, rfl⟩
      rw [h.trace]
      unfold life
      simp only [ho, hi]
    | true =>
      have hl : life p = .up d := by unfold life; simp only [ho, hi]
      have he : p.env = some d.name := by unfold Peer.env; simp only [ho, hi]
      have hr : run c.shared (.nothing, false) (p.trace ++ [Ev.down p.env, Ev.destroy d]) = some (.nothing, p.established) := by
        rw [run_append, h.trace, hl, he]
        exact run_down _ _ _
      exact ⟨fin _ hr, ho, rfl, rfl, rfl, rfl⟩

theorem inv_disestablish {c : Conf} {p : Peer} (h : Inv c p) :
    Inv c { (if p.established then p.log [.disestablish p.env] else p) with inactive := true, established := false } := by
  have base : ∀ t, run c.shared (.nothing, false) t = some (life p, false) →
      Inv c { p with inactive := true, established := false, trace := t } := by
    intro t ht
    refine ⟨ht, h.one, ?_, h.own, h.off, fun hh => by cases hh⟩
    intro d hd
    exact ⟨(h.shared d hd).1, (h.shared d hd).2.1, fun hh => by cases hh⟩
  cases he : p.established with
  | false =>
    refine base p.trace ?_
    rw [h.trace, he]
  | true =>
    refine base (p.trace ++ [.disestablish p.env]) ?_
    rw [run_append, h.trace, he]
    rcases h.env with ⟨d, hl, hv⟩ | ⟨hl, ho, hif, hv⟩ | ⟨hl, ho, d, hs, hif, hv⟩
    · rw [hl, hv]
      show ((if some d.name = some d.name then some (Life.up d, false) else none).bind fun s => run c.shared s []) = _
      rw [if_pos rfl]
      rfl
    · rw [hl, hv]
      have : c.shared = none := by
        cases hs : c.shared with
        | none => rfl
        | some d =>
          have := (h.shared d hs).2.2 (h.est he)
          rw [hif] at this
          cases this
      show ((if none = c.shared.map (·.name) then some (Life.nothing, false) else none).bind fun s => run c.shared s []) = _
      rw [this]
      rfl
    · rw [hl, hv]
      show ((if some d.name = c.shared.map (·.name) then some (Life.nothing, false) else none).bind fun s => run c.shared s []) = _
      rw [hs, if_pos (show some d.name = (some d).map (·.name) from rfl)]
      rfl

theorem inv_resetPeer {c : Conf} {p : Peer} (h : Inv c p) :
    Inv c (resetPeer c p) ∧ (resetPeer c p).offload = none ∧ (resetPeer c p).inactive = true ∧ (resetPeer c p).config = p.config ∧
      (resetPeer c p).established = false := by
  unfold resetPeer
  have h1 := inv_disestablish h
  have hc1 : ({ (if p.established then p.log [.disestablish p.env] else p) with inactive := true, established := false } : Peer).config = p.config := by
    cases p.established <;> rfl
  generalize hq : ({ (if p.established then p.log [.disestablish p.env] else p) with inactive := true, established := false } : Peer) = q at h1 hc1
  have hqi : q.inactive = true := by rw [← hq]
  have hqe : q.established = false := by rw [← hq]
  obtain ⟨h2, ho, hc2, hi2, he2⟩ := inv_freeOffload h1 h1.est
  simp only [hq]
  split
  · obtain ⟨h3, ho3, -, hc3, hi3, he3⟩ := inv_closeIface h2 ho (fun _ => by rw [hi2, hqi])
    exact ⟨h3, ho3, by rw [hi3, hi2, hqi], by rw [hc3, hc2, hc1], by rw [he3, he2, hqe]⟩
  · exact ⟨h2, ho, by rw [hi2, hqi], by rw [hc2, hc1], by rw [he2, hqe]⟩

theorem run_up {shared : Option Dev} {t : List Ev} {e : Bool} (d : Dev) (h : run shared (.nothing, false) t = some (.nothing, e)) :
    run shared (.nothing, false) (t ++ [.create d] ++ [.up (some d.name)]) = some (.up d, e) := by
  rw [run_append, run_append, h]
  show ((if some d.name = some d.name then some (Life.up d, e) else none).bind fun s => run shared s []) = _
  rw [if_pos rfl]
  rfl

theorem inv_setupPeer {c : Conf} {p q : Peer} {opened : Option Dev} {fromDir : Bool} (h : Inv c p) (ho : p.offload = none)
    (hs : setupPeer c opened fromDir p = some q) : Inv c q := by
  unfold setupPeer at hs
  split at hs
  · cases hs; exact h
  · cases hsh : c.shared with
    | some d =>
      rw [hsh] at hs
      cases hs
      have hl : ∀ b, life { p with iface := some (d, false), inactive := b } = .nothing := by intro b; unfold life; simp only [ho]
      have hl' : life p = .nothing := by
        unfold life
        rw [ho]
        rcases (h.shared d hsh).2.1 with h1 | h1 <;> rw [h1]
      refine ⟨?_, .inl ho, ?_, ?_, h.off, fun hh => by rfl⟩
      · rw [hl]
        show run c.shared _ p.trace = some (.nothing, p.established)
        rw [h.trace, hl']
      · intro d' hd
        rw [hsh] at hd
        cases hd
        exact ⟨ho, .inr rfl, fun _ => rfl⟩
      · intro d' hd
        cases hd
        exact hsh
    | none =>
      rw [hsh] at hs
      have nosh : ∀ d, c.shared = some d → False := by intro d hd; rw [hsh] at hd; cases hd
      have keep : Inv c { p with inactive := false } :=
        ⟨h.trace, h.one, fun d hd => (nosh d hd).elim, h.own, h.off, fun _ => rfl⟩
      by_cases hc : c.persist = true ∧ p.iface = none ∧ p.config ≠ .dynamic
      · simp only [if_pos hc] at hs
        cases opened with
        | none =>
          cases fromDir with
          | false => cases hs
          | true => cases hs; exact keep
        | some d =>
          cases hs
          have hl : life p = .nothing := by unfold life; rw [ho, hc.2.1]
          refine ⟨?_, .inl ho, fun d hd => (nosh d hd).elim, ?_, h.off, fun _ => rfl⟩
          · have hv : Peer.env { p with iface := some (d, true), trace := p.trace ++ [.create d] } = some d.name := by
              unfold Peer.env
              simp only [ho]
            have hl2 : ∀ t b, life { p with iface := some (d, true), trace := t, inactive := b } = .up d := by
              intro t b
              unfold life
              simp only [ho]
            show run c.shared _ (p.trace ++ [.create d] ++ [.up (Peer.env { p with iface := some (d, true), trace := p.trace ++ [.create d] })]) =
              some (life { p with iface := some (d, true), trace := _, inactive := false }, p.established)
            rw [hv, hl2]
            exact run_up d (by rw [h.trace, hl])
          · intro d' hd
            cases hd
      · simp only [if_neg hc] at hs
        cases hs
        exact keep

theorem inv_peerReset {c : Conf} {p q : Peer} {opened : Option Dev} {fromDir : Bool} (h : Inv c p) (hoff : p.inactive = true → p.offload = none)
    (hs : peerReset c opened fromDir p = some q) : Inv c q := by
  unfold peerReset at hs
  cases hi : p.inactive with
  | true =>
    rw [hi] at hs
    exact inv_setupPeer h (hoff hi) hs
  | false =>
    rw [hi] at hs
    obtain ⟨h1, h2, -, -, -⟩ := inv_resetPeer h
    exact inv_setupPeer h1 h2 hs

theorem inv_newOffload {c : Conf} {p : Peer} (h : Inv c p) (ho : p.offload = none) (hif : p.iface = none) (hc : c.offload = true)
    (hsh : c.shared = none) (o : Nat) (d : Dev) :
    Inv c (({ p.log [.create d] with offload := some (o, d) } : Peer).log [.up ({ p.log [.create d] with offload := some (o, d) } : Peer).env]) := by
  have hl : life p = .nothing := by unfold life; rw [ho, hif]
  refine ⟨?_, .inr hif, ?_, h.own, fun _ => hc, h.est⟩
  · show run c.shared _ (p.trace ++ [.create d] ++ [.up (some d.name)]) = some (.up d, p.established)
    exact run_up d (by rw [h.trace, hl])
  · intro d' hd
    rw [hsh] at hd
    cases hd

theorem inv_newIface {c : Conf} {p : Peer} (h : Inv c p) (ho : p.offload = none) (hif : p.iface = none) (hsh : c.shared = none) (d : Dev) :
    Inv c (({ p.log [.create d] with iface := some (d, true) } : Peer).log [.up ({ p.log [.create d] with iface := some (d, true) } : Peer).env]) := by
  have hl : life p = .nothing := by unfold life; rw [ho, hif]
  have hv : Peer.env { p.log [.create d] with iface := some (d, true) } = some d.name := by
    show (match p.offload with | some (_, d) => some d.name | none => some d.name) = _
    rw [ho]
  have hl2 : ∀ t, life { p with iface := some (d, true), trace := t } = .up d := by
    intro t
    unfold life
    simp only [ho]
  refine ⟨?_, .inl ho, ?_, ?_, h.off, h.est⟩
  · rw [hv]
    show run c.shared _ (p.trace ++ [.create d] ++ [.up (some d.name)]) = some (life { p with iface := some (d, true), trace := _ }, p.established)
    rw [hl2]
    exact run_up d (by rw [h.trace, hl])
  · intro d' hd
    rw [hsh] at hd
    cases hd
  · intro d' hd
    cases hd

theorem inv_establish {c : Conf} {p : Peer} (h : Inv c p) (hi : p.inactive = false) (he : p.established = false)
    (hn : ¬ (p.iface = none ∧ p.offload = none)) :
    Inv c (({ p with established := true, inactive := false } : Peer).log [.establish ({ p with established := true, inactive := false } : Peer).env]) := by
  refine ⟨?_, h.one, ?_, h.own, h.off, fun _ => rfl⟩
  · show run c.shared _ (p.trace ++ [.establish p.env]) = some (life p, true)
    rw [run_append, h.trace, he]
    rcases h.env with ⟨d, hl, hv⟩ | ⟨hl, ho, hif, hv⟩ | ⟨hl, ho, d, hs, hif, hv⟩
    · rw [hl, hv]
      simp [run, next]
    · exact absurd ⟨hif, ho⟩ hn
    · rw [hl, hv, hs]
      simp [run, next]
  · intro d hd
    exact ⟨(h.shared d hd).1, (h.shared d hd).2.1, fun _ => (h.shared d hd).2.2 hi⟩

theorem inv_dropOffload {c : Conf} {p : Peer} (h : Inv c p) (hi : p.inactive = false) (offload : Option Nat) (updated : Bool) :
    Inv c (dropOffload offload updated p) ∧ (dropOffload offload updated p).inactive = false ∧
      ((dropOffload offload updated p).offload = none ∨ (dropOffload offload updated p).offload.map (·.1) = offload) := by
  unfold dropOffload
  cases ho : p.offload with
  | none => exact ⟨h, hi, .inl ho⟩
  | some od =>
    obtain ⟨o, d⟩ := od
    have hf := inv_freeOffload h h.est
    by_cases he : some o = offload
    · cases updated with
      | true => simp only [if_pos he]; exact ⟨h, hi, .inr (by rw [← he, show ((if (!true) = true then freeOffload p else p) : Peer) = p from rfl, ho]; rfl)⟩
      | false => simp only [if_pos he]; exact ⟨hf.1, hf.2.2.2.1.trans hi, .inl hf.2.1⟩
    · simp only [if_neg he]
      exact ⟨hf.1, hf.2.2.2.1.trans hi, .inl hf.2.1⟩

theorem inv_startOffload {c : Conf} (hok : c.Ok) {p : Peer} (h : Inv c p) (hi : p.inactive = false) {offload : Option Nat}
    (hoff : offload ≠ none → c.offload = true) (ho : p.offload = none ∨ p.offload.map (·.1) = offload) (session : Option Dev) :
    Inv c (startOffload offload session p).2 ∧ (startOffload offload session p).2.inactive = false ∧
      ((startOffload offload session p).1 = true → (startOffload offload session p).2.offload.map (·.1) = offload) := by
  unfold startOffload
  cases offload with
  | none =>
    refine ⟨h, hi, fun _ => ?_⟩
    rcases ho with ho | ho
    · rw [ho]; rfl
    · exact ho
  | some o =>
    have hco := hoff (by simp)
    have hsh := (hok hco).1
    by_cases hn : p.offload = none
    · simp only [if_pos hn]
      obtain ⟨h2, o2, f2, -, i2, -⟩ := inv_closeIface h hn (fun hn => absurd hsh hn)
      cases session with
      | none => exact ⟨h2, i2.trans hi, fun hh => by cases hh⟩
      | some d => exact ⟨inv_newOffload h2 o2 f2 hco hsh o d, i2.trans hi, fun _ => rfl⟩
    · simp only [if_neg hn]
      refine ⟨h, hi, fun _ => ?_⟩
      rcases ho with ho | ho
      · exact absurd ho hn
      · exact ho

theorem inv_startIface {c : Conf} {p : Peer} (h : Inv c p) (hi : p.inactive = false) (opened : Option Dev) :
    Inv c (startIface opened p).2 ∧ (startIface opened p).2.inactive = false ∧ (startIface opened p).2.offload = p.offload ∧
      ((startIface opened p).1 = true → ¬ ((startIface opened p).2.iface = none ∧ (startIface opened p).2.offload = none)) := by
  unfold startIface
  by_cases hn : p.iface = none ∧ p.offload = none
  · simp only [if_pos hn]
    have hsh : c.shared = none := by
      cases hs : c.shared with
      | none => rfl
      | some d =>
        have := (h.shared d hs).2.2 hi
        rw [hn.1] at this
        cases this
    cases opened with
    | none => exact ⟨h, hi, rfl, fun hh => by cases hh⟩
    | some d => exact ⟨inv_newIface h hn.2 hn.1 hsh d, hi, (by rfl), fun _ hh => by cases hh.1⟩
  · simp only [if_neg hn]
    exact ⟨h, hi, trivial, fun _ => hn⟩

theorem inv_startSession {c : Conf} {p : Peer} (h : Inv c p) (hi : p.inactive = false) (hn : ¬ (p.iface = none ∧ p.offload = none)) :
    Inv c (startSession p) ∧ (startSession p).inactive = false ∧ (startSession p).established = true ∧ (startSession p).iface = p.iface ∧
      (startSession p).offload = p.offload := by
  unfold startSession
  cases he : p.established with
  | true => exact ⟨h, hi, he, rfl, rfl⟩
  | false => exact ⟨inv_establish h hi he hn, rfl, rfl, rfl, rfl⟩

theorem inv_setEstablished {c : Conf} (hok : c.Ok) {p : Peer} (h : Inv c p) (hi : p.inactive = false) {offload : Option Nat}
    (hoff : offload ≠ none → c.offload = true) (updated : Bool) (session opened : Option Dev) {ok : Bool} {q : Peer}
    (he : setEstablished offload updated session opened p = (ok, q)) :
    Inv c q ∧ q.inactive = false ∧
      (ok = true → q.established = true ∧ q.offload.map (·.1) = offload ∧ ¬ (q.iface = none ∧ q.offload = none)) := by
  unfold setEstablished at he
  obtain ⟨h1, i1, o1⟩ := inv_dropOffload h hi offload updated
  generalize dropOffload offload updated p = p1 at h1 i1 o1 he
  obtain ⟨h2, i2, o2⟩ := inv_startOffload hok h1 i1 hoff o1 session
  simp only at he
  generalize startOffload offload session p1 = r at h2 i2 o2 he
  obtain ⟨b, p2⟩ := r
  cases b with
  | false => cases he; exact ⟨h2, i2, fun hh => by cases hh⟩
  | true =>
    obtain ⟨h3, i3, o3, n3⟩ := inv_startIface h2 i2 opened
    simp only at he
    generalize startIface opened p2 = r at h3 i3 o3 n3 he
    obtain ⟨b, p3⟩ := r
    cases b with
    | false => cases he; exact ⟨h3, i3, fun hh => by cases hh⟩
    | true =>
      cases he
      obtain ⟨h4, i4, e4, f4, o4⟩ := inv_startSession h3 i3 (n3 rfl)
      refine ⟨h4, i4, fun _ => ⟨e4, ?_, ?_⟩⟩
      · rw [o4]
        exact (congrArg _ o3).trans (o2 rfl)
      · rw [f4, o4]
        exact n3 rfl

/-- The invariant between operations -/
structure Good (c : Conf) (p : Peer) : Prop where
  inv : Inv c p
  idle : p.inactive = true → p.offload = none

theorem setupPeer_inactive {c : Conf} {p q : Peer} {opened : Option Dev} {fromDir : Bool} (ho : p.offload = none)
    (hs : setupPeer c opened fromDir p = some q) : q.offload = none := by
  unfold setupPeer at hs
  split at hs
  · cases hs; exact ho
  · cases hsh : c.shared with
    | some d => rw [hsh] at hs; cases hs; exact ho
    | none =>
      rw [hsh] at hs
      by_cases hc : c.persist = true ∧ p.iface = none ∧ p.config ≠ .dynamic
      · simp only [if_pos hc] at hs
        cases opened with
        | none =>
          cases fromDir with
          | false => cases hs
          | true => cases hs; exact ho
        | some d => cases hs; exact ho
      · simp only [if_neg hc] at hs
        cases hs
        exact ho

theorem good_reset {c : Conf} {p q : Peer} {opened : Option Dev} {fromDir : Bool} (h : Inv c p) (hi : p.inactive = true → p.offload = none)
    (hs : peerReset c opened fromDir p = some q) : Good c q := by
  refine ⟨inv_peerReset h hi hs, fun _ => ?_⟩
  unfold peerReset at hs
  cases hin : p.inactive with
  | true => rw [hin] at hs; exact setupPeer_inactive (hi hin) hs
  | false => rw [hin] at hs; exact setupPeer_inactive (inv_resetPeer h).2.1 hs

theorem good_apply {c : Conf} (hok : c.Ok) {p q : Peer} (h : Good c p) {o : Op} (ha : apply c p o = some q) : Good c q := by
  cases o with
  | config s =>
    cases ha
    exact ⟨⟨h.inv.trace, h.inv.one, h.inv.shared, h.inv.own, h.inv.off, h.inv.est⟩, h.idle⟩
  | reset opened fromDir => exact good_reset h.inv h.idle ha
  | establish offload updated session opened opened' fromDir =>
    unfold apply at ha
    simp only at ha
    split at ha
    · cases ha; exact h
    · rename_i hn
      have hi : p.inactive = false := by
        cases hb : p.inactive with
        | false => rfl
        | true => exact absurd (.inl hb) hn
      have hoff : offload ≠ none → c.offload = true := by
        intro hne
        cases hb : c.offload with
        | true => rfl
        | false => exact absurd (.inr ⟨hb, hne⟩) hn
      generalize he : setEstablished offload updated session opened p = r at ha
      obtain ⟨ok, q'⟩ := r
      obtain ⟨h1, h2, -⟩ := inv_setEstablished hok h.inv hi hoff updated session opened he
      cases ok with
      | true =>
        cases ha
        exact ⟨h1, fun hh => by rw [h2] at hh; cases hh⟩
      | false => exact good_reset h1 (fun hh => by rw [h2] at hh; cases hh) ha

theorem good_all {c : Conf} (hok : c.Ok) {p q : Peer} (h : Good c p) {l : List Op} (ha : applyAll c p l = some q) : Good c q := by
  induction l generalizing p with
  | nil => cases ha; exact h
  | cons o l ih =>
    unfold applyAll at ha
    cases hp : apply c p o with
    | none => rw [hp] at ha; cases ha
    | some p' =>
      rw [hp] at ha
      exact ih (good_apply hok h hp) ha

theorem good_fresh (c : Conf) (s : ConfigState) : Good c (Peer.fresh s) :=
  ⟨⟨rfl, .inl rfl, fun _ _ => ⟨rfl, .inl rfl, (fun hh => by cases hh)⟩, (fun _ hh => by cases hh), (fun hh => absurd rfl hh), (fun hh => by cases hh)⟩,
    fun _ => rfl⟩

/-- **C104, events in order**: whatever happens to a peer, its interfaces are made, announced, and removed in the right order, one at a time, and commands are
told the interface in use. In between, the peer either has an interface of its own that has been announced, or has none. -/
theorem C104_order {c : Conf} (hok : c.Ok) (s : ConfigState) (l : List Op) {p : Peer} (h : applyAll c (Peer.fresh s) l = some p) :
    ∃ life, run c.shared (.nothing, false) p.trace = some (life, p.established) ∧ (life = .nothing ∨ ∃ d, life = .up d) := by
  have g := (good_all hok (good_fresh c s) h).inv
  refine ⟨life p, g.trace, ?_⟩
  rcases g.env with ⟨d, hl, -⟩ | ⟨hl, -⟩ | ⟨hl, -⟩
  · exact .inr ⟨d, hl⟩
  · exact .inl hl
  · exact .inl hl

/-- **C104, nothing is left**: when a peer is deleted, everything has been taken down and removed. -/
theorem C104_delete {c : Conf} (hok : c.Ok) (s : ConfigState) (l : List Op) {p : Peer} (h : applyAll c (Peer.fresh s) l = some p) :
    run c.shared (.nothing, false) (peerDelete c p).trace = some (.nothing, false) := by
  have g := good_all hok (good_fresh c s) h
  obtain ⟨h1, h2, h3, -, h4⟩ := inv_resetPeer g.inv
  obtain ⟨h5, h6, h7, -, -, h8⟩ := inv_closeIface h1 h2 (fun _ => h3)
  have := h5.trace
  unfold peerDelete
  rw [this, h8, h4]
  unfold life
  rw [h6, h7]

/-- **C104, where packets go**: when a session has been set up, there is an interface: the shared one if there is one; one in the kernel if the method of the
session is offloaded, also if that of the last session was not; otherwise one of fastd's own. -/
theorem C104_iface {c : Conf} (hok : c.Ok) (s : ConfigState) (l : List Op) {p : Peer} (h : applyAll c (Peer.fresh s) l = some p)
    {offload : Option Nat} {updated : Bool} {session opened : Option Dev} (hi : p.inactive = false) (hoff : offload ≠ none → c.offload = true)
    {q : Peer} (he : setEstablished offload updated session opened p = (true, q)) :
    q.established = true ∧ (∀ d, c.shared = some d → q.iface = some (d, false) ∧ q.offload = none) ∧
    q.offload.map (·.1) = offload ∧ (q.offload = none ↔ q.iface ≠ none) ∧ (c.shared = none → ∀ d own, q.iface = some (d, own) → own = true) := by
  have g := (good_all hok (good_fresh c s) h).inv
  obtain ⟨h1, h2, h3⟩ := inv_setEstablished hok g hi hoff updated session opened he
  obtain ⟨h3, h4, h5⟩ := h3 rfl
  refine ⟨h3, fun d hd => ⟨(h1.shared d hd).2.2 h2, (h1.shared d hd).1⟩, h4, ⟨fun hn hf => h5 ⟨hf, hn⟩, fun hf => ?_⟩, ?_⟩
  · rcases h1.one with ho | ho
    · exact ho
    · exact absurd ho hf
  · intro hsh d own ho
    cases own with
    | true => rfl
    | false =>
      have := h1.own d ho
      rw [hsh] at this
      cases this

/-! A connection with an offloaded method, then with another one, then the peer is deleted. -/

def exConf : Conf := { shared := none, persist := false, offload := true }

example : (applyAll exConf (Peer.fresh .static)
    [.reset none false, .establish (some 0) true (some ⟨[1], 1⟩) none none false, .establish (some 0) true none none none false,
     .establish none true none (some ⟨[2], 2⟩) none false]).map (fun p => (peerDelete exConf p).trace) =
    some [.create ⟨[1], 1⟩, .up (some [1]), .establish (some [1]), .down (some [1]), .destroy ⟨[1], 1⟩, .create ⟨[2], 2⟩, .up (some [2]),
      .disestablish (some [2]), .down (some [2]), .destroy ⟨[2], 2⟩] := by decide +kernel

end Fastd.Net.PeerIface
