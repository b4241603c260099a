import Verif.Protocol.Keys

/-!
# C34: handshake keys expire on time
-/

namespace Fastd.Protocol

variable {κ : Type}

/-- What happens to the handshake keys. `handshake_init` (src/protocols/ec25519_fhmqvc/handshake.c:468-471) and
`handshake_handle` (lines 627-630) begin with maintenance; the response after an asynchronous verification
(lines 600-613) does not. -/
inductive Ev (κ : Type)
  | start (now : Time) (fresh : κ)
  | receive (now : Time) (fresh : κ)
  | verified (now : Time)

def Ev.time : Ev κ → Time
  | .start t _ => t
  | .receive t _ => t
  | .verified t => t

/-- The state after an event, and the key used if a handshake is sent (lines 222-226, 481-491: always
the current one). -/
def step (s : HKeys κ) : Ev κ → HKeys κ
  | .start t k => s.maintenance t k
  | .receive t k => s.maintenance t k
  | .verified _ => s

/-- Ghost: the list of key pairs generated, newest first, with the time of generation. -/
structure Gen (κ : Type) where
  serial : Nat
  time : Time
  key : κ

/-- The key pairs generated by a history; a new one is generated by an event whose state changes. -/
def gens (s : HKeys κ) : List (Ev κ) → List (Gen κ)
  | [] => []
  | e :: es =>
    let s' := step s e
    gens s' es ++ (if s'.cur.serial ≠ s.cur.serial then [⟨s'.cur.serial, e.time, s'.cur.key⟩] else [])

def run (s : HKeys κ) (es : List (Ev κ)) : HKeys κ := es.foldl step s

/-- Times do not decrease. -/
def Ordered : Time → List (Ev κ) → Prop
  | _, [] => True
  | t, e :: es => t ≤ e.time ∧ Ordered e.time es

def lastTime : Time → List (Ev κ) → Time
  | t, [] => t
  | _, e :: es => lastTime e.time es

/-! ## Invariant -/

/-- A slot holds the generated key `g`. -/
def Slot (k : HKey κ) (g : Gen κ) : Prop :=
  k.serial = g.serial ∧ k.key = g.key ∧ k.preferredTill = g.time + 15000 ∧ k.validTill = g.time + 30000

/-- The slots hold the newest two keys and all older ones have expired at time `t`; serial numbers count
down from the newest. -/
def KInv (s : HKeys κ) (gs : List (Gen κ)) (t : Time) : Prop :=
  match gs with
  | [] => s.cur.serial = 0 ∧ s.cur.preferredTill ≤ t ∧ s.cur.validTill ≤ t ∧ s.prev.validTill ≤ t
  | g :: rest => Slot s.cur g ∧ g.time ≤ t ∧ g.serial = rest.length + 1 ∧
    match rest with
    | [] => s.prev.validTill ≤ t
    | g2 :: older => Slot s.prev g2 ∧ g2.time + 15000 ≤ g.time ∧ (∀ x ∈ older, x.time + 30000 ≤ g.time)

theorem kinv_mono {s : HKeys κ} {gs : List (Gen κ)} {t t' : Time} (h : KInv s gs t) (ht : t ≤ t') : KInv s gs t' := by
  cases gs with
  | nil => obtain ⟨h1, h2, h3, h4⟩ := h; exact ⟨h1, by omega, by omega, by omega⟩
  | cons g rest =>
    obtain ⟨h1, h2, h3, h4⟩ := h
    refine ⟨h1, by omega, h3, ?_⟩
    cases rest with
    | nil => simp only [] at h4 ⊢; omega
    | cons g2 older => exact h4

/-- Serial numbers of the history: the newest has the largest, all different. -/
def Serials : List (Gen κ) → Prop
  | [] => True
  | g :: rest => g.serial = rest.length + 1 ∧ Serials rest

theorem maintenance_inv {s : HKeys κ} {gs : List (Gen κ)} {t : Time} (h : KInv s gs t) (hs : Serials gs) (fresh : κ) :
    ∃ gs', KInv (s.maintenance t fresh) gs' t ∧ Serials gs' ∧ (s.maintenance t fresh).cur.preferred t = true ∧
      gs' = (if (s.maintenance t fresh).cur.serial ≠ s.cur.serial then
        [⟨(s.maintenance t fresh).cur.serial, t, (s.maintenance t fresh).cur.key⟩] else []) ++ gs := by
  unfold HKeys.maintenance
  by_cases hp : s.cur.preferred t = true
  · rw [if_neg (by simp [hp])]
    exact ⟨gs, h, hs, hp, by simp⟩
  · rw [if_pos (by simpa using hp)]
    have hp' : s.cur.preferredTill ≤ t := by simpa [HKey.preferred] using hp
    have hne : s.cur.serial + 1 ≠ s.cur.serial := by omega
    refine ⟨⟨s.cur.serial + 1, t, fresh⟩ :: gs, ?_, ?_, ?_, by rw [if_pos hne]; rfl⟩
    · cases gs with
      | nil =>
        obtain ⟨h1, h2, h3, h4⟩ := h
        exact ⟨⟨rfl, rfl, rfl, rfl⟩, Int.le_refl _, by simp [h1], h3⟩
      | cons g rest =>
        obtain ⟨h1, h2, h3, h4⟩ := h
        obtain ⟨k1, k2, k3, k4⟩ := h1
        refine ⟨⟨rfl, rfl, rfl, rfl⟩, Int.le_refl _, by simp [k1, h3], ⟨k1, k2, k3, k4⟩, by simp only []; omega, ?_⟩
        intro x hx
        cases rest with
        | nil => simp at hx
        | cons g2 older =>
          obtain ⟨-, m2, m3⟩ := h4
          simp only [List.mem_cons] at hx
          simp only []
          rcases hx with rfl | hx
          · omega
          · have := m3 x hx; omega
    · refine ⟨?_, hs⟩
      cases gs with
      | nil => simp only [KInv] at h; simp [h.1]
      | cons g rest => obtain ⟨h1, h2, h3, h4⟩ := h; simp [h1.1, h3]
    · simp [HKey.preferred]; omega

theorem step_inv {s : HKeys κ} {gs : List (Gen κ)} {t : Time} (h : KInv s gs t) (hs : Serials gs) (e : Ev κ)
    (ht : t ≤ e.time) :
    ∃ gs', KInv (step s e) gs' e.time ∧ Serials gs' ∧
      gs' = (if (step s e).cur.serial ≠ s.cur.serial then
        [⟨(step s e).cur.serial, e.time, (step s e).cur.key⟩] else []) ++ gs := by
  cases e with
  | start t' k =>
    obtain ⟨gs', h1, h2, -, h3⟩ := maintenance_inv (kinv_mono h ht) hs k
    exact ⟨gs', h1, h2, h3⟩
  | receive t' k =>
    obtain ⟨gs', h1, h2, -, h3⟩ := maintenance_inv (kinv_mono h ht) hs k
    exact ⟨gs', h1, h2, h3⟩
  | verified t' => exact ⟨gs, kinv_mono h ht, hs, by simp [step]⟩

theorem run_inv {s : HKeys κ} {gs : List (Gen κ)} {t : Time} (es : List (Ev κ)) (h : KInv s gs t) (hs : Serials gs)
    (ho : Ordered t es) : KInv (run s es) (gens s es ++ gs) (lastTime t es) ∧ Serials (gens s es ++ gs) := by
  induction es generalizing s gs t with
  | nil => exact ⟨h, hs⟩
  | cons e es ih =>
    obtain ⟨gs', h1, h2, h3⟩ := step_inv h hs e ho.1
    have := ih h1 h2 ho.2
    rw [h3, ← List.append_assoc] at this
    exact this

theorem init_inv (zero : κ) (now : Time) (hn : 0 ≤ now) : KInv (HKeys.init zero now) [] now :=
  ⟨rfl, Int.le_refl _, hn, hn⟩

/-! ## The property -/

/-- The state and the generated keys after a history beginning with an empty state. -/
def after (zero : κ) (t0 : Time) (es : List (Ev κ)) : HKeys κ := run (.init zero t0) es
def generated (zero : κ) (t0 : Time) (es : List (Ev κ)) : List (Gen κ) := gens (.init zero t0) es

theorem after_inv (zero : κ) (t0 : Time) (es : List (Ev κ)) (h0 : 0 ≤ t0) (ho : Ordered t0 es) :
    KInv (after zero t0 es) (generated zero t0 es) (lastTime t0 es) ∧ Serials (generated zero t0 es) := by
  have := run_inv es (init_inv zero t0 h0) (by trivial) ho
  rw [List.append_nil] at this
  exact this

/-- C34: the key used for handshakes begun or answered directly was generated less than 15 s ago. (Missing
for the full claim: responses after asynchronous verification, for which it is wrong, see
`C34_verified_false`.) -/
theorem C34_fresh_partial (zero : κ) (t0 : Time) (es : List (Ev κ)) (h0 : 0 ≤ t0) (e : Ev κ)
    (ho : Ordered t0 (es ++ [e])) (he : ∀ t, e ≠ .verified t) :
    ∃ g rest, generated zero t0 (es ++ [e]) = g :: rest ∧ (after zero t0 (es ++ [e])).cur.key = g.key ∧
      (after zero t0 (es ++ [e])).cur.serial = g.serial ∧ g.time ≤ e.time ∧ e.time < g.time + 15000 := by
  obtain ⟨h1, h2⟩ := after_inv zero t0 (es ++ [e]) h0 ho
  have hl : ∀ t (l : List (Ev κ)), lastTime t (l ++ [e]) = e.time := by
    intro t l
    induction l generalizing t with
    | nil => rfl
    | cons x xs ih => exact ih x.time
  rw [hl] at h1
  have hp : (after zero t0 (es ++ [e])).cur.preferred e.time = true := by
    have hr : after zero t0 (es ++ [e]) = step (after zero t0 es) e := by simp [after, run]
    rw [hr]
    cases e with
    | verified t => exact absurd rfl (he t)
    | start t k =>
      simp only [step, HKeys.maintenance, Ev.time]
      split
      · simp [HKey.preferred]; omega
      · rename_i h; simpa using h
    | receive t k =>
      simp only [step, HKeys.maintenance, Ev.time]
      split
      · simp [HKey.preferred]; omega
      · rename_i h; simpa using h
  have hp' : e.time < (after zero t0 (es ++ [e])).cur.preferredTill := by simpa [HKey.preferred] using hp
  generalize generated zero t0 (es ++ [e]) = gs at *
  cases gs with
  | nil => obtain ⟨-, k2, -⟩ := h1; omega
  | cons g rest =>
    obtain ⟨⟨k1, k2, k3, k4⟩, m2, -⟩ := h1
    exact ⟨g, rest, rfl, k2, k1, m2, by omega⟩

/-- C34: after any history, a reply referring to a handshake key is accepted by the key lookup exactly if a
key matching the reply was generated less than 30 s ago, and the one found is such a key. -/
theorem C34_accept (zero : κ) (t0 : Time) (es : List (Ev κ)) (h0 : 0 ≤ t0) (ho : Ordered t0 es) (now : Time)
    (hn : lastTime t0 es ≤ now) (isKey : κ → Bool) :
    match (after zero t0 es).find now isKey with
    | some k => isKey k.key = true ∧ ∃ g ∈ generated zero t0 es, k.serial = g.serial ∧ k.key = g.key ∧
        g.time ≤ now ∧ now < g.time + 30000
    | none => ∀ g ∈ generated zero t0 es, now < g.time + 30000 → isKey g.key = false := by
  obtain ⟨h1, h2⟩ := after_inv zero t0 es h0 ho
  have h1 := kinv_mono h1 hn
  generalize after zero t0 es = s at *
  generalize generated zero t0 es = gs at *
  unfold HKeys.find
  cases gs with
  | nil =>
    obtain ⟨k1, k2, k3, k4⟩ := h1
    have hc : s.cur.valid now = false := by simp [HKey.valid, k3]
    have hp : s.prev.valid now = false := by simp [HKey.valid, k4]
    simp [hc, hp]
  | cons g rest =>
    obtain ⟨⟨k1, k2, k3, k4⟩, m2, m3, m4⟩ := h1
    by_cases hc : (s.cur.valid now && isKey s.cur.key) = true
    · rw [if_pos hc]
      simp only [Bool.and_eq_true] at hc
      have hv : now < s.cur.validTill := by simpa [HKey.valid] using hc.1
      exact ⟨hc.2, g, by simp, k1, k2, m2, by omega⟩
    · rw [if_neg hc]
      have hcf : now < g.time + 30000 → isKey g.key = false := by
        intro hl
        have hv : s.cur.valid now = true := by simp [HKey.valid]; omega
        rw [hv, k2] at hc
        simpa using hc
      cases rest with
      | nil =>
        have hp : s.prev.valid now = false := by simp only [] at m4; simp [HKey.valid, m4]
        rw [if_neg (by simp [hp])]
        intro g' hg'
        simp only [List.mem_cons, List.not_mem_nil, or_false] at hg'
        subst hg'
        exact hcf
      | cons g2 older =>
        obtain ⟨⟨p1, p2, p3, p4⟩, q2, q3⟩ := m4
        by_cases hp : (s.prev.valid now && isKey s.prev.key) = true
        · rw [if_pos hp]
          simp only [Bool.and_eq_true] at hp
          have hv : now < s.prev.validTill := by simpa [HKey.valid] using hp.1
          exact ⟨hp.2, g2, by simp, p1, p2, by omega, by omega⟩
        · rw [if_neg hp]
          intro g' hg' hl
          simp only [List.mem_cons] at hg'
          rcases hg' with rfl | rfl | hg'
          · exact hcf hl
          · have hv : s.prev.valid now = true := by simp [HKey.valid]; omega
            rw [hv, p2] at hp
            simpa using hp
          · have := q3 g' hg'; omega

/-- C34: at most two keys are younger than 30 s at any time. -/
theorem C34_two (zero : κ) (t0 : Time) (es : List (Ev κ)) (h0 : 0 ≤ t0) (ho : Ordered t0 es) :
    ((generated zero t0 es).filter (fun g => lastTime t0 es < g.time + 30000)).length ≤ 2 := by
  obtain ⟨h1, -⟩ := after_inv zero t0 es h0 ho
  generalize after zero t0 es = s at *
  generalize generated zero t0 es = gs at *
  generalize lastTime t0 es = t at *
  cases gs with
  | nil => simp
  | cons g rest =>
    cases rest with
    | nil => exact Nat.le_trans (List.length_filter_le _ _) (by simp)
    | cons g2 older =>
      obtain ⟨-, m2, -, -, -, q3⟩ := h1
      have : older.filter (fun g => t < g.time + 30000) = [] := by
        rw [List.filter_eq_nil_iff]
        intro x hx
        have := q3 x hx
        simp only [decide_eq_true_eq]; omega
      simp only [List.filter_cons, this]
      split <;> split <;> simp

/-- C34: the keys generated are numbered 1, 2, 3, … -/
theorem C34_serial (zero : κ) (t0 : Time) (es : List (Ev κ)) (h0 : 0 ≤ t0) (ho : Ordered t0 es) :
    (generated zero t0 es).reverse.map Gen.serial = (List.range (generated zero t0 es).length).map (· + 1) := by
  obtain ⟨-, h⟩ := after_inv zero t0 es h0 ho
  generalize generated zero t0 es = gs at *
  induction gs with
  | nil => rfl
  | cons g rest ih =>
    simp only [List.reverse_cons, List.map_append, List.map_cons, List.map_nil, List.length_cons,
      List.range_succ, ih h.2, h.1]

/-- C34 is wrong for responses sent after an asynchronous verification: the key in use may have been generated
any time ago, so that the answer to the response will not be accepted. -/
theorem C34_verified_false :
    ¬ ∀ (es : List (Ev Nat)) (t : Time), Ordered 0 (es ++ [.verified t]) →
      ∃ g rest, generated 0 0 (es ++ [.verified t]) = g :: rest ∧ t < g.time + 30000 := by
  intro h
  obtain ⟨g, rest, h1, h2⟩ := h [.receive 0 7] 40000 (by simp [Ordered, Ev.time])
  have : generated 0 0 [.receive 0 7, .verified 40000] = [⟨1, 0, 7⟩] := rfl
  simp only [List.cons_append, List.nil_append, this, List.cons.injEq] at h1
  obtain ⟨rfl, -⟩ := h1
  simp at h2

/-! ## Examples -/

example : after 0 100 [.start 100 (1 : Nat), .receive 10000 2, .receive 15100 3, .start 20000 4] =
    ⟨⟨1, 15100, 30100, 1⟩, ⟨2, 30100, 45100, 3⟩⟩ := by decide

example : (after 0 100 [.start 100 (1 : Nat), .receive 15100 3]).find 30099 (· == 1) =
    some ⟨1, 15100, 30100, 1⟩ := by decide
example : (after 0 100 [.start 100 (1 : Nat), .receive 15100 3]).find 30100 (· == 1) = none := by decide

end Fastd.Protocol
