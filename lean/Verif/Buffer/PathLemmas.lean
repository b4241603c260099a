import Verif.Buffer.Path

/-! Helper lemmas about the packet path: a small program logic and a specification of every function. -/

namespace Fastd.Path

open Fastd.Buffer (blockCount alignto)

/-- Exactly the buffers in `m` are in use and `f` buffers are in the pool. -/
def Own (m : BufId → Option (Nat × Nat)) (f : Nat) (s : St) : Prop :=
  s.held = m ∧ s.free = f ∧ ∀ i, s.next ≤ i → m i = none

/-- Errors of buffer management, as opposed to errors of buffer sizes. -/
def Err.pool (e : Err) : Prop := e = .outOfBuffers ∨ e = .badHandle

/-- From a state in `P`, `m` ends in `Q`, or with a size error, the latter only if not `S`. -/
def Triple (S : Prop) (P : St → Prop) {α : Type} (m : M α) (Q : α → St → Prop) : Prop :=
  ∀ s, P s → match m s with
    | .ok a s' => Q a s'
    | .err e => ¬ S ∧ ¬ e.pool

variable {S : Prop} {α β : Type}

theorem t_bind {P : St → Prop} {m : M α} {Q : α → St → Prop} {f : α → M β} {R : β → St → Prop}
    (h1 : Triple S P m Q) (h2 : ∀ a, Triple S (Q a) (f a) R) : Triple S P (m >>= f) R := by
  intro s hs
  have h := h1 s hs
  show (match M.bind m f s with | .ok a s' => R a s' | .err e => ¬ S ∧ ¬ e.pool)
  unfold M.bind
  cases hm : m s with
  | ok a s' => rw [hm] at h; exact h2 a s' h
  | err e => rw [hm] at h; exact h

theorem t_pure {P : St → Prop} {Q : α → St → Prop} {a : α} (h : ∀ s, P s → Q a s) :
    Triple S P (pure a : M α) Q := fun s hs => h s hs

theorem t_weaken {P P' : St → Prop} {m : M α} {Q Q' : α → St → Prop} (h : Triple S P m Q)
    (hp : ∀ s, P' s → P s) (hq : ∀ a s, Q a s → Q' a s) : Triple S P' m Q' := by
  intro s hs
  have := h s (hp s hs)
  cases hm : m s with
  | ok a s' => rw [hm] at this; exact hq _ _ this
  | err e => rw [hm] at this; exact this

theorem t_post {P : St → Prop} {m : M α} {Q Q' : α → St → Prop} (h : Triple S P m Q)
    (hq : ∀ a s, Q a s → Q' a s) : Triple S P m Q' := t_weaken h (fun _ h => h) hq

/-- Pull a fact out of a precondition. -/
theorem t_pre {P : St → Prop} {m : M α} {Q : α → St → Prop} {X : Prop}
    (h : X → Triple S P m Q) : Triple S (fun s => X ∧ P s) m Q := fun s hs => h hs.1 s hs.2

theorem t_ex {ι : Type} {P : ι → St → Prop} {m : M α} {Q : α → St → Prop}
    (h : ∀ i, Triple S (P i) m Q) : Triple S (fun s => ∃ i, P i s) m Q :=
  fun s ⟨i, hi⟩ => h i s hi

theorem t_ite {P : St → Prop} {m m' : M α} {Q : α → St → Prop} {X : Prop} [Decidable X]
    (h1 : X → Triple S P m Q) (h2 : ¬ X → Triple S P m' Q) :
    Triple S P (if X then m else m') Q := by
  by_cases h : X
  · rw [if_pos h]; exact h1 h
  · rw [if_neg h]; exact h2 h

theorem upd_same (m : BufId → Option (Nat × Nat)) (i v) : upd m i v i = v := if_pos rfl
theorem upd_ne {m : BufId → Option (Nat × Nat)} {i j : BufId} {v} (h : j ≠ i) : upd m i v j = m j := if_neg h
theorem upd_upd (m : BufId → Option (Nat × Nat)) (i v w) : upd (upd m i v) i w = upd m i w := by
  funext j; unfold upd; split <;> rfl
theorem upd_comm {m : BufId → Option (Nat × Nat)} {i j : BufId} (h : i ≠ j) (v w) :
    upd (upd m i v) j w = upd (upd m j w) i v := by
  funext k; unfold upd; split <;> split <;> first | rfl | (exfalso; apply h; omega)
theorem upd_none {m : BufId → Option (Nat × Nat)} {i : BufId} (h : m i = none) : upd m i none = m := by
  funext j; unfold upd; split
  · rename_i hj; rw [hj, h]
  · rfl
theorem upd_some {m : BufId → Option (Nat × Nat)} {i : BufId} {v} (h : m i = v) : upd m i v = m := by
  funext j; unfold upd; split
  · rename_i hj; rw [hj, h]
  · rfl

variable {m : BufId → Option (Nat × Nat)} {f : Nat} {b : BufId} {c : Cfg}

theorem t_pick : Triple S (Own m f) pick (fun _ => Own m f) := fun _ h => h

theorem t_pickBool : Triple S (Own m f) pickBool (fun _ => Own m f) := fun _ h => h

/-- The storage of a buffer is a multiple of 16 bytes and `len` bytes fit. -/
theorem align_le {x n : Nat} (h : n % 16 = 0) : alignto x 16 ≤ n ↔ x ≤ n := by
  unfold alignto blockCount; omega

theorem align_mod (x : Nat) : alignto x 16 % 16 = 0 := by unfold alignto; omega

theorem align_ge (x : Nat) : x ≤ alignto x 16 ∧ alignto x 16 < x + 16 := by
  unfold alignto blockCount; omega

theorem t_alloc {len hr : Nat} (hf : 1 ≤ f) (hs : S → hr + len ≤ c.maxBuffer) :
    Triple S (Own m f) (alloc c len hr)
      (fun i s => m i = none ∧ hr + len ≤ c.maxBuffer ∧ Own (upd m i (some (hr, len))) (f - 1) s) := by
  intro s h
  obtain ⟨rfl, rfl, h3⟩ := h
  unfold alloc
  by_cases ho : alignto (hr + len) 16 > c.maxBuffer
  · rw [if_pos ho]
    refine ⟨fun h => ?_, ?_⟩
    · have := (align_le (x := hr + len) (n := c.maxBuffer) (align_mod _)).2 (hs h)
      omega
    · simp [Err.pool]
  · rw [if_neg ho]
    have hle := (align_le (x := hr + len) (n := c.maxBuffer) (align_mod _)).1 (by omega)
    cases hfr : s.free with
    | zero => omega
    | succ n =>
      refine ⟨h3 s.next (Nat.le_refl _), hle, rfl, by simp, ?_⟩
      intro i hi
      have hi : s.next + 1 ≤ i := hi
      rw [upd_ne (by omega)]
      exact h3 i (by omega)

theorem t_free {x} (hb : m b = some x) : Triple S (Own m f) (free b) (fun _ => Own (upd m b none) (f + 1)) := by
  intro s h
  obtain ⟨rfl, rfl, h3⟩ := h
  unfold free
  rw [hb]
  refine ⟨rfl, rfl, ?_⟩
  intro i hi
  unfold upd; split
  · rfl
  · exact h3 i hi

theorem t_get {x} (hb : m b = some x) : Triple S (Own m f) (get b) (fun r s => r = x ∧ Own m f s) := by
  intro s h
  obtain ⟨rfl, rfl, h3⟩ := h
  unfold get
  rw [hb]
  exact ⟨rfl, rfl, rfl, h3⟩

theorem t_set {x y} (hb : m b = some x) : Triple S (Own m f) (set b y) (fun _ => Own (upd m b (some y)) f) := by
  intro s h
  obtain ⟨rfl, rfl, h3⟩ := h
  unfold set
  rw [hb]
  refine ⟨rfl, rfl, ?_⟩
  intro i hi
  unfold upd; split
  · rename_i h; subst h; rw [h3 _ hi] at hb; cases hb
  · exact h3 i hi

/-- Rules for a `get` at the beginning. -/
theorem t_get_bind {x} {k : Nat × Nat → M β} {R} (hb : m b = some x)
    (h : Triple S (Own m f) (k x) R) : Triple S (Own m f) (get b >>= k) R :=
  t_bind (t_get hb) (fun _ => t_pre (fun e => e ▸ h))

theorem t_fail {P : St → Prop} {e : Err} {Q : α → St → Prop} (hs : ¬ S) (he : ¬ e.pool) :
    Triple S P (fail e : M α) Q := fun _ _ => ⟨hs, he⟩

theorem t_bytes {lo n off len} (hb : m b = some (off, len)) (hs : S → off + lo + n ≤ c.cap) :
    Triple S (Own m f) (bytes c b lo n) (fun _ => Own m f) := by
  refine t_get_bind hb (t_ite (fun h => ?_) (fun h => t_pure (fun _ h => h)))
  exact t_fail (fun h' => by have := hs h'; omega) (by simp [Err.pool])

theorem t_blocks {lo n off len} (hb : m b = some (off, len))
    (hs : S → n ≠ 0 → (off + lo) % 16 = 0 ∧ off + lo + n * 16 ≤ c.cap) :
    Triple S (Own m f) (blocks c b lo n) (fun _ => Own m f) := by
  refine t_get_bind hb (t_ite (fun _ => t_pure (fun _ h => h)) (fun h0 => t_ite (fun h => ?_) (fun h1 => t_ite (fun h => ?_) (fun h => t_pure (fun _ h => h)))))
  · exact t_fail (fun h' => by have := hs h' h0; omega) (by simp [Err.pool])
  · exact t_fail (fun h' => by have := hs h' h0; omega) (by simp [Err.pool])

theorem t_push {n off len} (hb : m b = some (off, len)) (hs : S → n ≤ off) :
    Triple S (Own m f) (push b n) (fun _ s => n ≤ off ∧ Own (upd m b (some (off - n, len + n))) f s) := by
  refine t_get_bind hb (t_ite (fun h => ?_) (fun h => t_post (t_set hb) (fun _ _ h' => ⟨by omega, h'⟩)))
  exact t_fail (fun h' => by have := hs h'; omega) (by simp [Err.pool])

theorem t_pushFrom {n off len} (hb : m b = some (off, len)) (hs : S → n ≤ off ∧ off ≤ c.cap) :
    Triple S (Own m f) (pushFrom c b n)
      (fun _ s => n ≤ off ∧ Own (upd m b (some (off - n, len + n))) f s) := by
  refine t_bind (t_push hb (fun h => (hs h).1)) (fun _ => t_pre (fun hn => ?_))
  exact t_post (t_bytes (upd_same _ _ _) (fun h => by have := hs h; omega)) (fun _ _ h => ⟨hn, h⟩)

theorem t_pull {n off len} (hb : m b = some (off, len)) (hs : S → n ≤ len) :
    Triple S (Own m f) (pull b n) (fun _ s => n ≤ len ∧ Own (upd m b (some (off + n, len - n))) f s) := by
  refine t_get_bind hb (t_ite (fun h => ?_) (fun h => t_post (t_set hb) (fun _ _ h' => ⟨by omega, h'⟩)))
  exact t_fail (fun h' => by have := hs h'; omega) (by simp [Err.pool])

theorem t_pullTo {n off len} (hb : m b = some (off, len)) (hs : S → n ≤ len ∧ off + len ≤ c.cap) :
    Triple S (Own m f) (pullTo c b n)
      (fun _ s => n ≤ len ∧ Own (upd m b (some (off + n, len - n))) f s) := by
  refine t_bind (t_bytes hb (fun h => by have := hs h; omega)) (fun _ => ?_)
  exact t_pull hb (fun h => (hs h).1)

theorem t_zeroPad {off len} (hb : m b = some (off, len)) (hc : S → c.cap % 16 = 0)
    (hs : S → off + len ≤ c.cap) : Triple S (Own m f) (zeroPad c b) (fun _ => Own m f) := by
  refine t_get_bind hb (t_bytes hb (fun h => ?_))
  have h1 := (align_le (x := off + len) (hc h)).2 (hs h)
  have h2 := align_ge (off + len)
  omega

theorem t_setLen {n off len} (hb : m b = some (off, len)) :
    Triple S (Own m f) (setLen b n) (fun _ => Own (upd m b (some (off, n))) f) :=
  t_get_bind hb (t_set hb)

theorem ne_of_none {x i j} (hi : m i = some x) (hj : m j = none) : i ≠ j := by
  intro h; rw [h, hj] at hi; cases hi

/-- The buffers were allocated with `ctx.max_buffer` bytes. -/
structure Sound (S : Prop) (c : Cfg) : Prop where
  cap : S → c.maxBuffer ≤ c.cap
  mod : S → c.cap % 16 = 0

variable (hc : Sound S c)
include hc

theorem t_dup {off len hr} (hb : m b = some (off, len)) (hf : 1 ≤ f)
    (hs : S → off + len ≤ c.cap ∧ hr + len ≤ c.maxBuffer) :
    Triple S (Own m f) (dup c b hr)
      (fun i s => m i = none ∧ hr + len ≤ c.maxBuffer ∧ Own (upd m i (some (hr, len))) (f - 1) s) := by
  refine t_get_bind hb (t_bind (t_alloc hf (fun h => (hs h).2)) (fun i => t_pre (fun hi => t_pre (fun hle => ?_))))
  have hb' : upd m i (some (hr, len)) b = some (off, len) := by
    rw [upd_ne (ne_of_none hb hi)]; exact hb
  refine t_bind (t_bytes hb' (fun h => by have := hs h; omega)) (fun _ => ?_)
  refine t_bind (t_bytes (upd_same _ _ _) (fun h => by have := hc.cap h; omega)) (fun _ => ?_)
  exact t_pure (fun s h => ⟨hi, hle, h⟩)

/-- The result of a function that consumes `b` and returns another buffer. -/
def Moved (m : BufId → Option (Nat × Nat)) (f : Nat) (b : BufId) (R : Nat → Nat → Prop) (i : BufId) (s : St) : Prop :=
  ∃ off len, R off len ∧ (i = b ∨ m i = none) ∧ Own (upd (upd m b none) i (some (off, len))) f s

theorem t_align {off len hr} (hb : m b = some (off, len)) (hf : 1 ≤ f) (hhr : hr % 16 = 0)
    (hs : S → off + len ≤ c.cap ∧ hr + len ≤ c.maxBuffer) :
    Triple S (Own m f) (align c b hr)
      (Moved m f b (fun o l => l = len ∧ o % 16 = 0 ∧ hr ≤ o ∧ (S → o + l ≤ c.cap))) := by
  refine t_get_bind hb (t_ite (fun h => t_pure (fun s hs' => ?_)) (fun h => ?_))
  · refine ⟨off, len, ⟨rfl, by omega, by omega, fun h => (hs h).1⟩, .inl rfl, ?_⟩
    rw [upd_upd, upd_some hb]; exact hs'
  · refine t_bind (t_dup hc hb hf hs) (fun i => t_pre (fun hi => t_pre (fun hle => ?_)))
    have hne := ne_of_none hb hi
    have hb' : upd m i (some (hr, len)) b = some (off, len) := by rw [upd_ne hne]; exact hb
    refine t_bind (t_free hb') (fun _ => t_pure (fun s h => ?_))
    refine ⟨hr, len, ⟨rfl, hhr, Nat.le_refl _, fun h => by have := hc.cap h; omega⟩, .inr hi, ?_⟩
    have : f - 1 + 1 = f := by omega
    rw [this, upd_comm (Ne.symm hne)] at h
    exact h

omit hc

/-! ### Methods -/

theorem maxOf_le {l : List Nat} {x : Nat} (h : x ∈ l) : x ≤ maxOf l := by
  have key : ∀ (l : List Nat) (a : Nat), a ≤ l.foldl max a ∧ ∀ x ∈ l, x ≤ l.foldl max a := by
    intro l
    induction l with
    | nil => intro a; simp
    | cons y ys ih =>
      intro a
      have := ih (max a y)
      simp only [List.foldl_cons, List.mem_cons]
      refine ⟨by omega, ?_⟩
      rintro x (rfl | hx)
      · omega
      · exact this.2 x hx
  exact (key l 0).2 x h

/-- Relations between the sizes that follow from how they are computed. -/
structure Facts (c : Cfg) : Prop where
  enc16 : c.enc % 16 = 0
  dec16 : c.dec % 16 = 8
  h1 : c.enc + 16 ≤ c.headroom
  h2 : c.dec + c.overhead ≤ c.headroom
  h3 : c.headroom + c.payload ≤ c.maxBuffer
  h4 : 1232 ≤ c.maxBuffer
  h5 : c.maxBuffer % 16 = 0
  over : c.overhead ≤ 24
  enc32 : c.enc ≤ c.dec + 8
  enc32' : c.enc ≤ 32
  meth : ∀ p ∈ c.methods, p.enc ≤ c.enc ∧ p.dec + 8 ≤ c.dec ∧ p.overhead ≤ c.overhead

theorem maxOf_ge {l : List Nat} {n : Nat} (h : ∀ x ∈ l, x ≤ n) : maxOf l ≤ n := by
  have key : ∀ (l : List Nat) (a : Nat), a ≤ n → (∀ x ∈ l, x ≤ n) → l.foldl max a ≤ n := by
    intro l
    induction l with
    | nil => intro a ha _; exact ha
    | cons y ys ih =>
      intro a ha h
      exact ih _ (by have := h y (by simp); omega) (fun x hx => h x (by simp [hx]))
  exact key l 0 (by omega) h

theorem facts (c : Cfg) : Facts c := by
  have e1 := align_ge (maxOf (c.methods.map Prov.enc))
  have d1 := align_ge (maxOf (c.methods.map Prov.dec))
  have e2 := align_mod (maxOf (c.methods.map Prov.enc))
  have d2 := align_mod (maxOf (c.methods.map Prov.dec))
  have hm := align_ge (max (c.headroom + c.payload) 1232)
  refine ⟨e2, ?_, ?_, ?_, ?_, ?_, align_mod _, ?_, ?_, ?_, ?_⟩
  · unfold Cfg.dec; omega
  · unfold Cfg.headroom; omega
  · unfold Cfg.headroom; omega
  · unfold Cfg.maxBuffer; omega
  · unfold Cfg.maxBuffer; omega
  · apply maxOf_ge; intro x hx
    obtain ⟨p, _, rfl⟩ := List.mem_map.1 hx
    cases p <;> decide
  · unfold Cfg.enc Cfg.dec
    by_cases hp : .poly1305 ∈ c.methods
    · have : maxOf (c.methods.map Prov.enc) ≤ 32 := by
        apply maxOf_ge; intro x hx
        obtain ⟨p, _, rfl⟩ := List.mem_map.1 hx
        cases p <;> decide
      have h2 : Prov.dec .poly1305 ≤ maxOf (c.methods.map Prov.dec) :=
        maxOf_le (List.mem_map.2 ⟨_, hp, rfl⟩)
      have h3 : Prov.dec .poly1305 = 16 := rfl
      have := (align_le (x := maxOf (c.methods.map Prov.enc)) (n := 32) rfl).2 this
      omega
    · have : maxOf (c.methods.map Prov.enc) ≤ 16 := by
        apply maxOf_ge; intro x hx
        obtain ⟨p, hp', rfl⟩ := List.mem_map.1 hx
        cases p <;> first | decide | exact absurd hp' hp
      have := (align_le (x := maxOf (c.methods.map Prov.enc)) (n := 16) rfl).2 this
      omega
  · have : maxOf (c.methods.map Prov.enc) ≤ 32 := by
      apply maxOf_ge; intro x hx
      obtain ⟨p, _, rfl⟩ := List.mem_map.1 hx
      cases p <;> decide
    exact (align_le (x := maxOf (c.methods.map Prov.enc)) (n := 32) rfl).2 this
  · intro p hp
    have a1 : p.enc ≤ _ := maxOf_le (List.mem_map.2 ⟨p, hp, rfl⟩)
    have a2 : p.dec ≤ _ := maxOf_le (List.mem_map.2 ⟨p, hp, rfl⟩)
    have a3 : p.overhead ≤ _ := maxOf_le (List.mem_map.2 ⟨p, hp, rfl⟩)
    refine ⟨?_, ?_, a3⟩
    · unfold Cfg.enc; omega
    · unfold Cfg.dec; omega

/-- Does the method process whole blocks? -/
def Prov.blocky : Prov → Bool
  | .null | .nullL2tp => false
  | _ => true

theorem blocks_le {c : Cfg} (h : c.cap % 16 = 0) {o n : Nat} (h1 : o % 16 = 0) (h2 : o + n ≤ c.cap) :
    o + blockCount n 16 * 16 ≤ c.cap := by
  unfold blockCount; omega

include hc

omit hc in
theorem t_crypt {o l o' l' lo lo' n i} (hb : m b = some (o, l)) (hi : m i = some (o', l'))
    (hs : S → n ≠ 0 → ((o + lo) % 16 = 0 ∧ o + lo + n * 16 ≤ c.cap) ∧
      (o' + lo') % 16 = 0 ∧ o' + lo' + n * 16 ≤ c.cap) :
    Triple S (Own m f) (crypt c i lo' b lo n) (fun _ => Own m f) := by
  refine t_bind (t_blocks hb (fun h h0 => (hs h h0).1)) (fun _ => ?_)
  exact t_bind (t_blocks hi (fun h h0 => (hs h h0).2)) (fun _ => t_pickBool)

theorem t_digest {o l lo n} (hb : m b = some (o, l))
    (hs : S → (o + lo) % 16 = 0 ∧ o + lo + n ≤ c.cap) :
    Triple S (Own m f) (digest c b lo n) (fun _ => Own m f) :=
  t_bind (t_blocks hb (fun h _ => ⟨(hs h).1, blocks_le (hc.mod h) (hs h).1 (hs h).2⟩)) (fun _ => t_pickBool)

omit hc in
theorem t_putHeader {o l} (hb : m b = some (o, l)) (hs : S → 8 ≤ o ∧ o ≤ c.cap) :
    Triple S (Own m f) (putHeader c b) (fun _ => Own (upd m b (some (o - 8, l + 8))) f) := by
  refine t_bind (t_pushFrom hb (fun h => by have := hs h; omega)) (fun _ => t_pre (fun h1 => ?_))
  refine t_bind (t_pushFrom (upd_same _ _ _) (fun h => by have := hs h; omega)) (fun _ => t_pre (fun h2 => ?_))
  refine t_post (t_pushFrom (upd_same _ _ _) (fun h => by have := hs h; omega)) (fun _ s h => ?_)
  have h := h.2
  simp only [upd_upd, Nat.sub_sub, Nat.add_assoc] at h
  exact h

/-- What `encrypt` leaves: on failure the input buffer is still there. -/
def EncRes (S : Prop) (c : Cfg) (m : BufId → Option (Nat × Nat)) (f : Nat) (b : BufId) :
    Option BufId → St → Prop
  | none => fun s => ∃ x, Own (upd m b (some x)) f s
  | some i => Moved m f b (fun o l => S → o + l ≤ c.cap) i

theorem t_sealEnd {x l i} (hb : m b = some x) (hi : m i = some (16, l)) (hne : b ≠ i)
    (hs : S → 16 ≤ l ∧ 16 + l ≤ c.cap) :
    Triple S (Own m f) (sealEnd c b i) (fun r s => match r with
      | none => Own (upd m i none) (f + 1) s
      | some j => j = i ∧ Own (upd (upd m b none) i (some (8, l + 8))) (f + 1) s) := by
  refine t_bind (t_zeroPad hi hc.mod (fun h => (hs h).2)) (fun _ => t_get_bind hi ?_)
  refine t_bind (t_digest hc hi (fun h => by have := hs h; omega)) (fun r => t_ite (fun _ => ?_) (fun _ => ?_))
  · refine t_bind (t_blocks hi (fun h _ => by have := hs h; omega)) (fun _ => t_bind (t_free hb) (fun _ => ?_))
    refine t_bind (t_putHeader (by rw [upd_ne (Ne.symm hne)]; exact hi) (fun h => by have := hs h; omega)) (fun _ => ?_)
    exact t_pure (fun s h => ⟨rfl, h⟩)
  · exact t_bind (t_free hi) (fun _ => t_pure (fun s h => h))

omit hc in
theorem moved_new {m : BufId → Option (Nat × Nat)} {b i : BufId} {o l} (hi : m i = none)
    {R : Nat → Nat → Prop} (hR : R o l) {s : St} {f : Nat}
    (h : Own (upd (upd m b none) i (some (o, l))) f s) : Moved m f b R i s :=
  ⟨o, l, hR, .inr hi, h⟩

theorem t_encrypt {p : Prov} {o l} (hp : p ∈ c.methods) (hb : m b = some (o, l)) (hf : 1 ≤ f)
    (hs : S → (p.blocky = true → o % 16 = 0) ∧ o + l ≤ c.cap ∧ p.enc ≤ o ∧ c.headroom + l ≤ c.maxBuffer) :
    Triple S (Own m f) (encrypt c p b) (EncRes S c m f b) := by
  have F := facts c
  have fm := F.meth p hp
  have F1 := F.h1; have F2 := F.h2; have F4 := F.h4; have Fd := F.dec16
  have back : ∀ {i v x}, m i = none → i ≠ b →
      upd (upd (upd m b x) i v) i none = upd m b x := by
    intro i v x hi hne
    rw [upd_upd, upd_none]; rw [upd_ne hne]; exact hi
  have fwd : ∀ {i : BufId} {x v w : Option (Nat × Nat)}, i ≠ b →
      upd (upd (upd (upd m b x) i v) b none) i w = upd (upd m b none) i w := by
    intro i x v w hne
    rw [upd_comm hne, upd_upd, upd_upd]
  have fwd' : ∀ {i : BufId} {v w : Option (Nat × Nat)}, i ≠ b →
      upd (upd (upd m i v) b none) i w = upd (upd m b none) i w := by
    intro i v w hne
    rw [upd_comm hne, upd_upd]
  cases p with
  | null =>
    have : Prov.enc .null = 1 := rfl
    refine t_bind (t_pushFrom hb (fun h => by have := hs h; omega)) (fun _ => t_pre (fun h1 => t_pure (fun s h => ?_)))
    refine ⟨_, _, fun hS => ?_, .inl rfl, by rw [upd_upd]; exact h⟩
    have := hs hS; omega
  | nullL2tp =>
    have e8 : Prov.enc .nullL2tp = 8 := rfl
    refine t_get_bind hb (t_ite (fun _ => ?_) (fun _ => ?_))
    · refine t_bind (t_free hb) (fun _ => t_bind (t_alloc (by omega) (fun h => by omega)) (fun i => t_pre (fun hi => t_pre (fun hle => ?_))))
      refine t_bind (t_pushFrom (upd_same _ _ _) (fun h => by have := hc.cap h; omega)) (fun _ => t_pre (fun _ => ?_))
      refine t_bind (t_pushFrom (upd_same _ _ _) (fun h => by have := hc.cap h; omega)) (fun _ => t_pre (fun _ => t_pure (fun s h => ?_)))
      simp only [upd_upd, Nat.add_sub_cancel] at h
      refine ⟨_, _, fun hS => ?_, ?_, h⟩
      · have := hc.cap hS; omega
      · by_cases hib : i = b
        · exact .inl hib
        · rw [upd_ne hib] at hi; exact .inr hi
    · refine t_bind (t_pushFrom hb (fun h => by have := hs h; omega)) (fun _ => t_pre (fun h1 => t_pure (fun s h => ?_)))
      refine ⟨_, _, fun hS => ?_, .inl rfl, by rw [upd_upd]; exact h⟩
      have := hs hS; omega
  | poly1305 =>
    have e32 : Prov.enc .poly1305 = 32 := rfl
    refine t_bind (t_pushFrom hb (fun h => by have := hs h; omega)) (fun _ => t_pre (fun h1 => ?_))
    refine t_get_bind (upd_same _ _ _) (t_bind (t_alloc hf (fun h => by have := hs h; omega)) (fun i => t_pre (fun hi => t_pre (fun hle => ?_))))
    have hib : i ≠ b := by intro h; rw [h, upd_same] at hi; cases hi
    have hi' : m i = none := by rw [upd_ne hib] at hi; exact hi
    have hbb : upd (upd m b (some (o - 32, l + 32))) i (some (16, l + 32)) b = some (o - 32, l + 32) := by
      rw [upd_ne (Ne.symm hib), upd_same]
    simp only []
    refine t_bind (t_crypt hbb (upd_same _ _ _) (fun h _ => ?_)) (fun r => t_ite (fun _ => ?_) (fun _ => ?_))
    · have hh := hs h; have hcap := hc.cap h
      have hal := hh.1 rfl
      have a1 := blocks_le (hc.mod h) (o := o - 32 + 0) (n := l + 32) (by omega) (by omega)
      have a2 := blocks_le (hc.mod h) (o := 16 + 0) (n := l + 32) (by omega) (by omega)
      exact ⟨⟨by omega, a1⟩, by omega, a2⟩
    · refine t_bind (t_bytes (upd_same _ _ _) (fun h => by have := hs h; have := hc.cap h; omega)) (fun _ => ?_)
      refine t_bind (t_pull (upd_same _ _ _) (fun h => by omega)) (fun _ => t_pre (fun _ => ?_))
      rw [upd_upd]
      refine t_get_bind (upd_same _ _ _) ?_
      simp only []
      refine t_bind (t_bytes (upd_same _ _ _) (fun h => by have := hs h; have := hc.cap h; omega)) (fun _ => ?_)
      refine t_bind (t_pushFrom (upd_same _ _ _) (fun h => by have := hs h; have := hc.cap h; omega)) (fun _ => t_pre (fun _ => ?_))
      rw [upd_upd]
      refine t_bind (t_free (by rw [upd_ne (Ne.symm hib)]; exact upd_same _ _ _)) (fun _ => ?_)
      refine t_bind (t_putHeader (by rw [upd_ne hib]; exact upd_same _ _ _) (fun h => by have := hs h; have := hc.cap h; omega)) (fun _ => t_pure (fun s h => ?_))
      rw [fwd hib, show f - 1 + 1 = f by omega] at h
      refine moved_new hi' (fun hS => ?_) h
      have := hs hS; have := hc.cap hS; omega
    · refine t_bind (t_free (upd_same _ _ _)) (fun _ => t_pure (fun s h => ?_))
      rw [back hi' hib, show f - 1 + 1 = f by omega] at h
      exact ⟨_, h⟩
  | cipherTest =>
    have e8 : Prov.overhead .cipherTest = 8 := rfl
    refine t_get_bind hb ?_
    simp only []
    refine t_bind (t_alloc hf (fun h => by have := hs h; omega)) (fun i => t_pre (fun hi' => t_pre (fun hle => ?_)))
    have hib : i ≠ b := Ne.symm (ne_of_none hb hi')
    have hbb : upd m i (some (16, l)) b = some (o, l) := by rw [upd_ne (Ne.symm hib)]; exact hb
    refine t_bind (t_crypt hbb (upd_same _ _ _) (fun h _ => ?_)) (fun r => t_ite (fun _ => ?_) (fun _ => ?_))
    · have hh := hs h; have hcap := hc.cap h
      have hal := hh.1 rfl
      have a1 := blocks_le (hc.mod h) (o := o + 0) (n := l) (by omega) (by omega)
      have a2 := blocks_le (hc.mod h) (o := 16 + 0) (n := l) (by omega) (by omega)
      exact ⟨⟨by omega, a1⟩, by omega, a2⟩
    · refine t_bind (t_free hbb) (fun _ => ?_)
      refine t_bind (t_putHeader (by rw [upd_ne hib]; exact upd_same _ _ _) (fun h => by have := hs h; have := hc.cap h; omega)) (fun _ => t_pure (fun s h => ?_))
      rw [fwd' hib, show f - 1 + 1 = f by omega] at h
      refine moved_new hi' (fun hS => ?_) h
      have := hs hS; have := hc.cap hS; omega
    · refine t_bind (t_free (upd_same _ _ _)) (fun _ => t_pure (fun s h => ?_))
      rw [upd_upd, upd_none hi', show f - 1 + 1 = f by omega] at h
      exact ⟨(o, l), by rw [upd_some hb]; exact h⟩
  | composedGmac | composedUmac =>
    have e8 : Prov.overhead .composedGmac = 24 := rfl
    have e8' : Prov.overhead .composedUmac = 24 := rfl
    refine t_get_bind hb ?_
    simp only []
    refine t_bind (t_alloc hf (fun h => by have := hs h; omega)) (fun i => t_pre (fun hi' => t_pre (fun hle => ?_)))
    have hib : i ≠ b := Ne.symm (ne_of_none hb hi')
    have hbb : upd m i (some (16, 16 + l)) b = some (o, l) := by rw [upd_ne (Ne.symm hib)]; exact hb
    have hfail : Triple S (Own (upd m i (some (16, 16 + l))) (f - 1)) (do free i; pure none)
        (EncRes S c m f b) := by
      refine t_bind (t_free (upd_same _ _ _)) (fun _ => t_pure (fun s h => ?_))
      rw [upd_upd, upd_none hi', show f - 1 + 1 = f by omega] at h
      exact ⟨(o, l), by rw [upd_some hb]; exact h⟩
    refine t_bind (t_blocks (upd_same _ _ _) (fun h _ => by have := hc.cap h; omega)) (fun _ => ?_)
    refine t_bind t_pickBool (fun r => t_ite (fun _ => ?_) (fun _ => hfail))
    refine t_bind (t_crypt hbb (upd_same _ _ _) (fun h _ => ?_)) (fun r => t_ite (fun _ => ?_) (fun _ => hfail))
    · have hh := hs h; have hcap := hc.cap h
      have hal := hh.1 rfl
      have a1 := blocks_le (hc.mod h) (o := o + 0) (n := l) (by omega) (by omega)
      have a2 := blocks_le (hc.mod h) (o := 16 + 16) (n := l) (by omega) (by omega)
      exact ⟨⟨by omega, a1⟩, by omega, a2⟩
    · refine t_post (t_sealEnd hc hbb (upd_same _ _ _) (Ne.symm hib) (fun h => by have := hc.cap h; omega)) (fun r s h => ?_)
      cases r with
      | none =>
        simp only [] at h
        rw [upd_upd, upd_none hi', show f - 1 + 1 = f by omega] at h
        exact ⟨(o, l), by rw [upd_some hb]; exact h⟩
      | some j =>
        obtain ⟨rfl, h⟩ := h
        rw [fwd' hib, show f - 1 + 1 = f by omega] at h
        refine moved_new hi' (fun hS => ?_) h
        have := hs hS; have := hc.cap hS; omega
  | genericGmac | genericUmac =>
    have e16 : Prov.enc .genericGmac = 16 := rfl
    have e16' : Prov.enc .genericUmac = 16 := rfl
    refine t_bind (t_pushFrom hb (fun h => by have := hs h; omega)) (fun _ => t_pre (fun h1 => ?_))
    refine t_get_bind (upd_same _ _ _) ?_
    simp only []
    refine t_bind (t_alloc hf (fun h => by have := hs h; omega)) (fun i => t_pre (fun hi => t_pre (fun hle => ?_)))
    have hib : i ≠ b := by intro h; rw [h, upd_same] at hi; cases hi
    have hi' : m i = none := by rw [upd_ne hib] at hi; exact hi
    have hbb : upd (upd m b (some (o - 16, l + 16))) i (some (16, l + 16)) b = some (o - 16, l + 16) := by
      rw [upd_ne (Ne.symm hib), upd_same]
    refine t_bind (t_crypt hbb (upd_same _ _ _) (fun h _ => ?_)) (fun r => t_ite (fun _ => ?_) (fun _ => ?_))
    · have hh := hs h; have hcap := hc.cap h
      have hal := hh.1 rfl
      have a1 := blocks_le (hc.mod h) (o := o - 16 + 0) (n := l + 16) (by omega) (by omega)
      have a2 := blocks_le (hc.mod h) (o := 16 + 0) (n := l + 16) (by omega) (by omega)
      exact ⟨⟨by omega, a1⟩, by omega, a2⟩
    · refine t_post (t_sealEnd hc hbb (upd_same _ _ _) (Ne.symm hib) (fun h => by have := hc.cap h; omega)) (fun r s h => ?_)
      cases r with
      | none =>
        simp only [] at h
        rw [back hi' hib, show f - 1 + 1 = f by omega] at h
        exact ⟨_, h⟩
      | some j =>
        obtain ⟨rfl, h⟩ := h
        rw [fwd hib, show f - 1 + 1 = f by omega] at h
        refine moved_new hi' (fun hS => ?_) h
        have := hs hS; have := hc.cap hS; omega
    · refine t_bind (t_free (upd_same _ _ _)) (fun _ => t_pure (fun s h => ?_))
      rw [back hi' hib, show f - 1 + 1 = f by omega] at h
      exact ⟨_, h⟩

omit hc in
theorem t_finish {o l i} (hi : m i = some (o, l)) :
    Triple S (Own m f) (finish i) (fun r s => r = some i ∧ ∃ l', l' ≤ l ∧ Own (upd m i (some (o, l'))) f s) := by
  refine t_bind t_pickBool (fun r => ?_)
  cases r
  · exact t_pure (fun s h => ⟨rfl, l, Nat.le_refl _, by rw [upd_some hi]; exact h⟩)
  · exact t_bind (t_setLen hi) (fun _ => t_pure (fun s h => ⟨rfl, 0, by omega, h⟩))

theorem t_openEnd {o l ho n i} (hb : m b = some (o, l)) (hi : m i = some (ho, n)) (hne : b ≠ i)
    (hn : n + 8 = l) (hn' : 16 ≤ n)
    (hs : S → o % 16 = 8 ∧ o + l ≤ c.cap ∧ ho % 16 = 0 ∧ ho + n ≤ c.cap) :
    Triple S (Own m f) (openEnd c b n i) (fun r s => match r with
      | none => Own (upd m i none) (f + 1) s
      | some j => j = i ∧ ∃ l', l' ≤ n - 16 ∧ Own (upd (upd m b none) i (some (ho + 16, l'))) (f + 1) s) := by
  have hfail : Triple S (Own m f) (do free i; pure none : M (Option BufId)) (fun r s => match r with
      | none => Own (upd m i none) (f + 1) s
      | some j => j = i ∧ ∃ l', l' ≤ n - 16 ∧ Own (upd (upd m b none) i (some (ho + 16, l'))) (f + 1) s) :=
    t_bind (t_free hi) (fun _ => t_pure (fun s h => h))
  refine t_bind (t_digest hc hb (fun h => by have := hs h; omega)) (fun r => t_ite (fun _ => ?_) (fun _ => hfail))
  refine t_bind (t_blocks hi (fun h _ => by have := hs h; omega)) (fun _ => t_bind t_pickBool (fun r => t_ite (fun _ => ?_) (fun _ => hfail)))
  refine t_bind (t_free hb) (fun _ => t_bind (t_pull (by rw [upd_ne (Ne.symm hne)]; exact hi) (fun h => by omega)) (fun _ => t_pre (fun _ => ?_)))
  refine t_post (t_finish (upd_same _ _ _)) (fun r s h => ?_)
  obtain ⟨rfl, l', hl, h⟩ := h
  rw [upd_upd] at h
  exact ⟨rfl, l', hl, h⟩

omit hc in
theorem t_headerOk {o l n} (hb : m b = some (o, l)) (hn : 8 ≤ n) (hs : S → o + l ≤ c.cap) :
    Triple S (Own m f) (headerOk c b n) (fun r s => (r = true → n ≤ l) ∧ Own m f s) := by
  refine t_get_bind hb (t_ite (fun _ => t_pure (fun s h => ⟨fun h => (by cases h), h⟩)) (fun h0 => ?_))
  refine t_bind (t_bytes hb (fun h => by have := hs h; omega)) (fun _ => t_post t_pickBool (fun _ _ h => ⟨fun _ => by omega, h⟩))

/-- What `decrypt` leaves: on failure the input buffer is unchanged. -/
def DecRes (S : Prop) (c : Cfg) (m : BufId → Option (Nat × Nat)) (f : Nat) (b : BufId) (p : Prov) (l : Nat) :
    Option BufId → St → Prop
  | none => Own m f
  | some i => Moved m f b (fun o' l' => l' ≤ l - p.overhead ∧ (S → o' + l' ≤ c.cap ∧
      (p = .cipherTest → c.enc ≤ o') ∧ (p ≠ .cipherTest → 4 ≤ o'))) i

theorem t_decrypt {p : Prov} {o l} (hp : p ∈ c.methods) (hb : m b = some (o, l)) (hf : 1 ≤ f)
    (hs : S → 1 ≤ l ∧ (p.blocky = true → o % 16 = 8) ∧ c.dec ≤ o ∧ o + l ≤ c.cap ∧ l ≤ c.recvLen ∧
      c.dec + c.recvLen ≤ c.maxBuffer) :
    Triple S (Own m f) (decrypt c p b) (DecRes S c m f b p l) := by
  have F := facts c
  have fm := F.meth p hp
  have F1 := F.h1; have F2 := F.h2; have F4 := F.h4; have Fd := F.dec16; have Fe := F.enc16
  have E1 := F.enc32; have E2 := F.enc32'
  have hbad : ∀ {P : St → Prop}, (∀ s, P s → Own m f s) → Triple S P (pure none) (DecRes S c m f b p l) :=
    fun hP => t_pure (fun s h => hP s h)
  cases p with
  | null =>
    have : Prov.overhead .null = 1 := rfl
    refine t_bind (t_pull hb (fun h => by have := hs h; omega)) (fun _ => t_pre (fun h1 => t_pure (fun s h => ?_)))
    refine ⟨o + 1, l - 1, ⟨by omega, fun hS => ?_⟩, .inl rfl, by rw [upd_upd]; exact h⟩
    have := hs hS
    exact ⟨by omega, by simp, fun _ => by omega⟩
  | nullL2tp =>
    have e8 : Prov.overhead .nullL2tp = 8 := rfl
    refine t_bind (t_headerOk hb (by omega) (fun h => by have := hs h; omega)) (fun r => t_pre (fun hr => t_ite (fun hrt => ?_) (fun _ => hbad (fun _ h => h))))
    have hl := hr hrt
    refine t_bind (t_pull hb (fun h => by have := hs h; omega)) (fun _ => t_pre (fun h1 => t_pure (fun s h => ?_)))
    refine ⟨o + 8, l - 8, ⟨by omega, fun hS => ?_⟩, .inl rfl, by rw [upd_upd]; exact h⟩
    have := hs hS
    exact ⟨by omega, by simp, fun _ => by omega⟩
  | cipherTest =>
    have e8 : Prov.overhead .cipherTest = 8 := rfl
    refine t_bind (t_headerOk hb (by omega) (fun h => by have := hs h; omega)) (fun r => t_pre (fun hr => t_ite (fun hrt => ?_) (fun _ => hbad (fun _ h => h))))
    have hl := hr hrt
    refine t_get_bind hb ?_
    simp only []
    refine t_bind (t_alloc hf (fun h => by have := hs h; omega)) (fun i => t_pre (fun hi => t_pre (fun hle => ?_)))
    have hib : i ≠ b := Ne.symm (ne_of_none hb hi)
    have hbb : upd m i (some (c.enc, l - 8)) b = some (o, l) := by rw [upd_ne (Ne.symm hib)]; exact hb
    refine t_bind (t_crypt hbb (upd_same _ _ _) (fun h _ => ?_)) (fun r => t_ite (fun _ => ?_) (fun _ => ?_))
    · have hh := hs h; have hcap := hc.cap h
      have hal := hh.2.1 rfl
      have a1 := blocks_le (hc.mod h) (o := o + 8) (n := l - 8) (by omega) (by omega)
      have a2 := blocks_le (hc.mod h) (o := c.enc + 0) (n := l - 8) (by omega) (by omega)
      exact ⟨⟨by omega, a1⟩, by omega, a2⟩
    · refine t_bind (t_free hbb) (fun _ => t_post (t_finish (by rw [upd_ne hib]; exact upd_same _ _ _)) (fun r s h => ?_))
      obtain ⟨rfl, l', hl', h⟩ := h
      rw [upd_comm hib, upd_upd, show f - 1 + 1 = f by omega] at h
      refine moved_new hi ⟨by omega, fun hS => ?_⟩ h
      have := hc.cap hS
      exact ⟨by omega, fun _ => Nat.le_refl _, by simp⟩
    · refine t_bind (t_free (upd_same _ _ _)) (fun _ => hbad (fun s h => ?_))
      rw [upd_upd, upd_none hi, show f - 1 + 1 = f by omega] at h
      exact h
  | genericGmac | genericUmac =>
    have e24 : Prov.overhead .genericGmac = 24 := rfl
    have e24' : Prov.overhead .genericUmac = 24 := rfl
    refine t_bind (t_headerOk hb (by omega) (fun h => by have := hs h; omega)) (fun r => t_pre (fun hr => t_ite (fun hrt => ?_) (fun _ => hbad (fun _ h => h))))
    have hl := hr hrt
    refine t_get_bind hb ?_
    simp only []
    refine t_bind (t_alloc hf (fun h => by have := hs h; omega)) (fun i => t_pre (fun hi => t_pre (fun hle => ?_)))
    have hib : i ≠ b := Ne.symm (ne_of_none hb hi)
    have hbb : upd m i (some (c.enc - 16, l - 8)) b = some (o, l) := by rw [upd_ne (Ne.symm hib)]; exact hb
    refine t_bind (t_crypt hbb (upd_same _ _ _) (fun h _ => ?_)) (fun r => t_ite (fun _ => ?_) (fun _ => ?_))
    · have hh := hs h; have hcap := hc.cap h
      have hal := hh.2.1 rfl
      have a1 := blocks_le (hc.mod h) (o := o + 8) (n := l - 8) (by omega) (by omega)
      have a2 := blocks_le (hc.mod h) (o := c.enc - 16 + 0) (n := l - 8) (by omega) (by omega)
      exact ⟨⟨by omega, a1⟩, by omega, a2⟩
    · refine t_post (t_openEnd hc hbb (upd_same _ _ _) (Ne.symm hib) (by omega) (by omega) (fun h => ?_)) (fun r s h => ?_)
      · have hh := hs h; have hcap := hc.cap h
        exact ⟨hh.2.1 rfl, by omega, by omega, by omega⟩
      · cases r with
        | none =>
          simp only [] at h
          rw [upd_upd, upd_none hi, show f - 1 + 1 = f by omega] at h
          exact h
        | some j =>
          obtain ⟨rfl, l', hl', h⟩ := h
          rw [upd_comm hib, upd_upd, show f - 1 + 1 = f by omega] at h
          refine moved_new hi ⟨by omega, fun hS => ?_⟩ h
          have := hc.cap hS
          exact ⟨by omega, by simp, fun _ => by omega⟩
    · refine t_bind (t_free (upd_same _ _ _)) (fun _ => hbad (fun s h => ?_))
      rw [upd_upd, upd_none hi, show f - 1 + 1 = f by omega] at h
      exact h
  | composedGmac | composedUmac =>
    have e24 : Prov.overhead .composedGmac = 24 := rfl
    have e24' : Prov.overhead .composedUmac = 24 := rfl
    refine t_bind (t_headerOk hb (by omega) (fun h => by have := hs h; omega)) (fun r => t_pre (fun hr => t_ite (fun hrt => ?_) (fun _ => hbad (fun _ h => h))))
    have hl := hr hrt
    refine t_get_bind hb ?_
    simp only []
    refine t_bind (t_alloc hf (fun h => by have := hs h; omega)) (fun i => t_pre (fun hi => t_pre (fun hle => ?_)))
    have hib : i ≠ b := Ne.symm (ne_of_none hb hi)
    have hbb : upd m i (some (c.enc - 16, l - 8)) b = some (o, l) := by rw [upd_ne (Ne.symm hib)]; exact hb
    refine t_bind (t_crypt hbb (upd_same _ _ _) (fun h _ => ?_)) (fun r => t_ite (fun _ => ?_) (fun _ => ?_))
    · have hh := hs h; have hcap := hc.cap h
      have hal := hh.2.1 rfl
      omega
    · refine t_bind (t_crypt hbb (upd_same _ _ _) (fun h _ => ?_)) (fun r => t_ite (fun _ => ?_) (fun _ => ?_))
      · have hh := hs h; have hcap := hc.cap h
        have hal := hh.2.1 rfl
        have a1 := blocks_le (hc.mod h) (o := o + 8) (n := l - 8) (by omega) (by omega)
        have a2 := blocks_le (hc.mod h) (o := c.enc - 16 + 0) (n := l - 8) (by omega) (by omega)
        omega
      · refine t_post (t_openEnd hc hbb (upd_same _ _ _) (Ne.symm hib) (by omega) (by omega) (fun h => ?_)) (fun r s h => ?_)
        · have hh := hs h; have hcap := hc.cap h
          exact ⟨hh.2.1 rfl, by omega, by omega, by omega⟩
        · cases r with
          | none =>
            simp only [] at h
            rw [upd_upd, upd_none hi, show f - 1 + 1 = f by omega] at h
            exact h
          | some j =>
            obtain ⟨rfl, l', hl', h⟩ := h
            rw [upd_comm hib, upd_upd, show f - 1 + 1 = f by omega] at h
            refine moved_new hi ⟨by omega, fun hS => ?_⟩ h
            have := hc.cap hS
            exact ⟨by omega, by simp, fun _ => by omega⟩
      · refine t_bind (t_free (upd_same _ _ _)) (fun _ => hbad (fun s h => ?_))
        rw [upd_upd, upd_none hi, show f - 1 + 1 = f by omega] at h
        exact h
    · refine t_bind (t_free (upd_same _ _ _)) (fun _ => hbad (fun s h => ?_))
      rw [upd_upd, upd_none hi, show f - 1 + 1 = f by omega] at h
      exact h
  | poly1305 =>
    have e24 : Prov.overhead .poly1305 = 24 := rfl
    have e32 : Prov.enc .poly1305 = 32 := rfl
    have d16 : Prov.dec .poly1305 = 16 := rfl
    refine t_bind (t_headerOk hb (by omega) (fun h => by have := hs h; omega)) (fun r => t_pre (fun hr => t_ite (fun hrt => ?_) (fun _ => hbad (fun _ h => h))))
    have hl := hr hrt
    refine t_bind (t_pull hb (fun h => by omega)) (fun _ => t_pre (fun _ => ?_))
    refine t_bind (t_pullTo (upd_same _ _ _) (fun h => by have := hs h; omega)) (fun _ => t_pre (fun _ => ?_))
    rw [upd_upd]
    refine t_bind (t_pushFrom (upd_same _ _ _) (fun h => by have := hs h; omega)) (fun _ => t_pre (fun h32 => ?_))
    rw [upd_upd, show o + 8 + 16 - 32 = o - 8 by omega, show l - 8 - 16 + 32 = l + 8 by omega]
    refine t_get_bind (upd_same _ _ _) (t_bind (t_alloc hf (fun h => by have := hs h; omega)) (fun i => t_pre (fun hi0 => t_pre (fun hle => ?_))))
    have hib : i ≠ b := by intro h; rw [h, upd_same] at hi0; cases hi0
    have hi : m i = none := by rw [upd_ne hib] at hi0; exact hi0
    have hbb : upd (upd m b (some (o - 8, l + 8))) i (some (c.enc - 32, l + 8)) b = some (o - 8, l + 8) := by
      rw [upd_ne (Ne.symm hib), upd_same]
    refine t_bind (t_crypt hbb (upd_same _ _ _) (fun h _ => ?_)) (fun ok => ?_)
    · have hh := hs h; have hcap := hc.cap h
      have hal := hh.2.1 rfl
      have a1 := blocks_le (hc.mod h) (o := o - 8 + 0) (n := l + 8) (by omega) (by omega)
      have a2 := blocks_le (hc.mod h) (o := c.enc - 32 + 0) (n := l + 8) (by omega) (by omega)
      exact ⟨⟨by omega, a1⟩, by omega, a2⟩
    refine t_bind (t_pull hbb (fun h => by omega)) (fun _ => t_pre (fun _ => ?_))
    rw [upd_comm hib, upd_upd, show o - 8 + 32 = o + 24 by omega, show l + 8 - 32 = l - 24 by omega]
    have hii : upd (upd m b (some (o + 24, l - 24))) i (some (c.enc - 32, l + 8)) b = some (o + 24, l - 24) := by
      rw [upd_ne (Ne.symm hib), upd_same]
    have hfail : Triple S (Own (upd (upd m b (some (o + 24, l - 24))) i (some (c.enc - 32, l + 8))) (f - 1))
        (polyFail c b i) (DecRes S c m f b .poly1305 l) := by
      refine t_bind (t_free (upd_same _ _ _)) (fun _ => ?_)
      rw [upd_upd, upd_comm (Ne.symm hib), upd_none hi, show f - 1 + 1 = f by omega]
      refine t_bind (t_pushFrom (upd_same _ _ _) (fun h => by have := hs h; omega)) (fun _ => t_pre (fun _ => ?_))
      rw [upd_upd]
      refine t_bind (t_putHeader (upd_same _ _ _) (fun h => by have := hs h; omega)) (fun _ => hbad (fun s h => ?_))
      rw [upd_upd, show o + 24 - 16 - 8 = o by omega, show l - 24 + 16 + 8 = l by omega, upd_some hb] at h
      exact h
    refine t_ite (fun _ => ?_) (fun _ => hfail)
    refine t_bind (t_bytes (upd_same _ _ _) (fun h => by have := hs h; have := hc.cap h; omega)) (fun _ => ?_)
    refine t_get_bind hii ?_
    simp only []
    refine t_bind (t_bytes hii (fun h => by have := hs h; omega)) (fun _ => ?_)
    refine t_bind t_pickBool (fun r => t_ite (fun _ => ?_) (fun _ => hfail))
    refine t_bind (t_free hii) (fun _ => ?_)
    rw [upd_comm hib, upd_upd]
    refine t_bind (t_pull (upd_same _ _ _) (fun h => by omega)) (fun _ => t_pre (fun _ => ?_))
    rw [upd_upd]
    refine t_post (t_finish (upd_same _ _ _)) (fun r s h => ?_)
    obtain ⟨rfl, l', hl', h⟩ := h
    rw [upd_upd, show f - 1 + 1 = f by omega] at h
    refine moved_new hi ⟨by omega, fun hS => ?_⟩ h
    have := hc.cap hS
    exact ⟨by omega, by simp, fun _ => by omega⟩

/-! ### Sending -/

omit hc in
theorem upd_moved {i : BufId} {v : Option (Nat × Nat)} (h : i = b ∨ m i = none) :
    upd (upd (upd m b none) i v) i none = upd m b none := by
  rw [upd_upd]
  rcases h with rfl | h
  · rw [upd_upd]
  · apply upd_none
    unfold upd; split
    · rfl
    · exact h

omit hc in
theorem t_pickMethod (hm : c.methods ≠ []) :
    Triple S (Own m f) (pickMethod c) (fun p s => p ∈ c.methods ∧ Own m f s) := by
  refine t_bind t_pick (fun n => t_pure (fun s h => ⟨?_, h⟩))
  have hl : 0 < c.methods.length := List.length_pos_iff.2 hm
  rw [List.getD_eq_getElem?_getD, List.getElem?_eq_getElem (Nat.mod_lt _ hl)]
  exact List.getElem_mem _

theorem t_sessionSend {p : Prov} {o l} (hp : p ∈ c.methods) (hb : m b = some (o, l)) (hf : 1 ≤ f)
    (hs : S → (p.blocky = true → o % 16 = 0) ∧ o + l ≤ c.cap ∧ p.enc ≤ o ∧ c.headroom + l ≤ c.maxBuffer) :
    Triple S (Own m f) (sessionSend c p b) (fun _ => Own (upd m b none) (f + 1)) := by
  refine t_bind (t_zeroPad hb hc.mod (fun h => (hs h).2.1)) (fun _ => t_bind (t_encrypt hc hp hb hf hs) (fun r => ?_))
  cases r with
  | none =>
    refine t_ex (fun x => t_post (t_free (upd_same _ _ _)) (fun _ s h => ?_))
    rw [upd_upd] at h; exact h
  | some i =>
    refine t_ex (fun o' => t_ex (fun l' => t_pre (fun hle => t_pre (fun hi => ?_))))
    refine t_get_bind (upd_same _ _ _) (t_bind (t_bytes (upd_same _ _ _) (fun h => by have := hle h; omega)) (fun _ => ?_))
    refine t_post (t_free (upd_same _ _ _)) (fun _ s h => ?_)
    rw [upd_moved hi] at h; exact h

variable (hm : c.methods ≠ [])
include hm

theorem t_protocolSend {o l} (hb : m b = some (o, l)) (hf : 1 ≤ f)
    (hs : S → o % 16 = 0 ∧ o + l ≤ c.cap ∧ c.enc ≤ o ∧ c.headroom + l ≤ c.maxBuffer) :
    Triple S (Own m f) (protocolSend c b) (fun _ => Own (upd m b none) (f + 1)) := by
  refine t_bind t_pickBool (fun r => t_ite (fun _ => t_free hb) (fun _ => ?_))
  refine t_bind (t_pickMethod hm) (fun p => t_pre (fun hp => t_sessionSend hc hp hb hf (fun h => ?_)))
  have := (facts c).meth p hp
  have := hs h
  exact ⟨fun _ => this.1, this.2.1, by omega, this.2.2.2⟩

omit hm in
theorem t_sendEmpty {p : Prov} (hp : p ∈ c.methods) (hf : 2 ≤ f) :
    Triple S (Own m f) (sendEmpty c p) (fun _ => Own m f) := by
  have F := facts c
  have F1 := F.h1; have F2 := F.h2; have F3 := F.h3; have F4 := F.h4; have Fd := F.dec16; have Fe := F.enc16
  have hal : p.enc ≤ alignto p.enc 8 ∧ alignto p.enc 8 ≤ 32 ∧ (p.blocky = true → alignto p.enc 8 % 16 = 0) := by
    cases p <;> decide
  refine t_bind (t_alloc (by omega) (fun h => by omega)) (fun i => t_pre (fun hi => t_pre (fun hle => ?_)))
  refine t_post (t_sessionSend hc hp (upd_same _ _ _) (by omega) (fun h => ⟨hal.2.2, ?_, hal.1, by omega⟩)) (fun _ s h => ?_)
  · have := hc.cap h; omega
  · rw [upd_upd, upd_none hi, show f - 1 + 1 = f by omega] at h; exact h

theorem t_keepalive (hf : 2 ≤ f) : Triple S (Own m f) (keepalive c) (fun _ => Own m f) := by
  have F := facts c
  have F1 := F.h1; have F2 := F.h2; have F3 := F.h3; have F4 := F.h4; have Fd := F.dec16; have Fe := F.enc16
  refine t_bind (t_alloc (by omega) (fun h => by omega)) (fun i => t_pre (fun hi => t_pre (fun hle => ?_)))
  refine t_post (t_protocolSend hc hm (upd_same _ _ _) (by omega) (fun h => ?_)) (fun _ s h => ?_)
  · have := hc.cap h; omega
  · rw [upd_upd, upd_none hi, show f - 1 + 1 = f by omega] at h; exact h

omit hm in
theorem t_sendHandshake {n : Nat} (hf : 1 ≤ f) (hn : 12 ≤ n ∧ n ≤ 1232) :
    Triple S (Own m f) (sendHandshake c n) (fun _ => Own m f) := by
  have F4 := (facts c).h4
  refine t_bind (t_alloc hf (fun h => by omega)) (fun i => t_pre (fun hi => t_pre (fun hle => ?_)))
  refine t_bind (t_pull (upd_same _ _ _) (fun h => by omega)) (fun _ => t_pre (fun _ => ?_))
  rw [upd_upd]
  refine t_get_bind (upd_same _ _ _) (t_bind (t_bytes (upd_same _ _ _) (fun h => by have := hc.cap h; omega)) (fun _ => ?_))
  have hfin : ∀ x, Triple S (Own (upd m i (some x)) (f - 1)) (free i) (fun _ => Own m f) := fun x =>
    t_post (t_free (upd_same _ _ _)) (fun _ s h => by
      rw [upd_upd, upd_none hi, show f - 1 + 1 = f by omega] at h; exact h)
  refine t_bind t_pickBool (fun r => ?_)
  cases r
  · exact hfin _
  · refine t_bind (t_pushFrom (upd_same _ _ _) (fun h => by have := hc.cap h; omega)) (fun _ => t_pre (fun _ => ?_))
    rw [upd_upd]
    refine t_get_bind (upd_same _ _ _) (t_bind (t_bytes (upd_same _ _ _) (fun h => by have := hc.cap h; omega)) (fun _ => hfin _))

theorem t_sendAll {o l} (n : Nat) (hb : m b = some (o, l)) (hf : 2 ≤ f)
    (hs : S → o % 16 = 0 ∧ o + l ≤ c.cap ∧ c.enc ≤ o ∧ c.headroom + l ≤ c.maxBuffer) :
    Triple S (Own m f) (sendAll c b n) (fun _ => Own (upd m b none) (f + 1)) := by
  have F := facts c
  have F1 := F.h1; have Fe := F.enc16
  induction n with
  | zero => exact t_free hb
  | succ n ih =>
    refine t_bind t_pickBool (fun r => t_ite (fun _ => ih) (fun _ => t_ite (fun _ => ?_) (fun _ => ?_)))
    · exact t_protocolSend hc hm hb (by omega) hs
    · refine t_bind (t_dup hc hb (by omega) (fun h => by have := hs h; omega)) (fun i => t_pre (fun hi => t_pre (fun hle => ?_)))
      refine t_bind (t_protocolSend hc hm (upd_same _ _ _) (by omega) (fun h => ?_)) (fun _ => ?_)
      · have := hs h; have := hc.cap h; omega
      · rw [upd_upd, upd_none hi, show f - 1 + 1 = f by omega]
        exact ih

theorem t_sendTapSingle {o l} (hb : m b = some (o, l)) (hf : 2 ≤ f)
    (hs : S → o % 16 = 0 ∧ o + l ≤ c.cap ∧ c.enc ≤ o ∧ c.headroom + l ≤ c.maxBuffer) :
    Triple S (Own m f) (sendTapSingle c b)
      (fun r => if r then Own (upd m b none) (f + 1) else Own m f) := by
  refine t_ite (fun _ => t_pure (fun s h => h)) (fun _ => t_get_bind hb (t_ite (fun _ => ?_) (fun hl => ?_)))
  · exact t_bind (t_free hb) (fun _ => t_pure (fun s h => h))
  · refine t_bind (t_bytes hb (fun h => by have := hs h; omega)) (fun _ => t_bind t_pick (fun n => ?_))
    split
    · exact t_pure (fun s h => h)
    · exact t_bind (t_free hb) (fun _ => t_pure (fun s h => h))
    · exact t_bind (t_protocolSend hc hm hb (by omega) hs) (fun _ => t_pure (fun s h => h))

theorem t_sendData {o l} (dest : Bool) (hb : m b = some (o, l)) (hf : 2 ≤ f)
    (hs : S → o % 16 = 0 ∧ o + l ≤ c.cap ∧ c.enc ≤ o ∧ c.headroom + l ≤ c.maxBuffer) :
    Triple S (Own m f) (sendData c b dest) (fun _ => Own (upd m b none) (f + 1)) := by
  refine t_ite (fun _ => t_protocolSend hc hm hb (by omega) hs) (fun _ => ?_)
  refine t_bind (t_sendTapSingle hc hm hb hf hs) (fun r => ?_)
  cases r
  · exact t_bind t_pick (fun n => t_sendAll hc hm n hb hf hs)
  · exact t_pure (fun s h => h)

theorem t_ifaceHandle (len : Nat) (hf : 3 ≤ f) (hs : S → len ≤ c.payload ∧ (c.multiaf = true → 4 ≤ len)) :
    Triple S (Own m f) (ifaceHandle c len) (fun _ => Own m f) := by
  have F := facts c
  have F1 := F.h1; have F3 := F.h3; have Fe := F.enc16
  unfold ifaceHandle
  cases haf : c.multiaf with
  | false =>
    refine t_bind (t_alloc (by omega) (fun h => by omega)) (fun i => t_pre (fun hi => t_pre (fun hle => ?_)))
    refine t_bind (t_bytes (upd_same _ _ _) (fun h => by have := hs h; have := hc.cap h; omega)) (fun _ => ?_)
    refine t_bind (t_setLen (upd_same _ _ _)) (fun _ => ?_)
    rw [upd_upd]
    refine t_bind t_pickBool (fun d => t_post (t_sendData hc hm d (upd_same _ _ _) (by omega) (fun h => ?_)) (fun _ s h => ?_))
    · have := hs h; have := hc.cap h; omega
    · rw [upd_upd, upd_none hi, show f - 1 + 1 = f by omega] at h; exact h
  | true =>
    refine t_bind (t_alloc (by omega) (fun h => by omega)) (fun i => t_pre (fun hi => t_pre (fun hle => ?_)))
    refine t_bind (t_bytes (upd_same _ _ _) (fun h => by have := hs h; have := hc.cap h; omega)) (fun _ => ?_)
    refine t_bind (t_setLen (upd_same _ _ _)) (fun _ => ?_)
    rw [upd_upd]
    refine t_bind (t_pull (upd_same _ _ _) (fun h => (hs h).2 haf)) (fun _ => t_pre (fun h4 => ?_))
    rw [upd_upd]
    refine t_bind t_pickBool (fun d => t_post (t_sendData hc hm d (upd_same _ _ _) (by omega) (fun h => ?_)) (fun _ s h => ?_))
    · have := hs h; have := hc.cap h; omega
    · rw [upd_upd, upd_none hi, show f - 1 + 1 = f by omega] at h; exact h

/-! ### Receiving -/

/-- The conditions on the configuration. -/
structure Roomy (c : Cfg) : Prop where
  recv : c.dec + c.recvLen ≤ c.maxBuffer
  fwd : c.tap = true → c.forward = true → ∀ p ∈ c.methods, c.headroom + (c.recvLen - p.overhead) ≤ c.maxBuffer
  maf : c.multiaf = true → c.tap = false ∧ (.cipherTest ∈ c.methods → 4 ≤ c.enc)

omit hc hm in
theorem t_ifaceWrite {o l} (hb : m b = some (o, l))
    (hs : S → o + l ≤ c.cap ∧ (c.multiaf = true → 4 ≤ o)) :
    Triple S (Own m f) (ifaceWrite c b)
      (fun _ s => ∃ x : Nat × Nat, (c.multiaf = false → x = (o, l)) ∧ Own (upd m b (some x)) f s) := by
  have hid : ∀ s, Own m f s → ∃ x : Nat × Nat, (c.multiaf = false → x = (o, l)) ∧ Own (upd m b (some x)) f s :=
    fun s h => ⟨(o, l), fun _ => rfl, by rw [upd_some hb]; exact h⟩
  refine t_get_bind hb (t_ite (fun _ => t_pure hid) (fun h0 => t_ite (fun haf => ?_) (fun _ => ?_)))
  · refine t_bind (t_bytes hb (fun h => by have := hs h; have : l ≠ 0 := h0; omega)) (fun _ => t_bind t_pickBool (fun r => t_ite (fun _ => ?_) (fun _ => t_pure hid)))
    refine t_bind (t_pushFrom hb (fun h => ?_)) (fun _ => t_pre (fun _ => ?_))
    · have := hs h
      exact ⟨this.2 haf, by omega⟩
    · refine t_post (t_bytes (upd_same _ _ _) (fun h => by have := hs h; omega)) (fun _ s h => ⟨_, fun h => ?_, h⟩)
      rw [haf] at h; cases h
  · exact t_post (t_bytes hb (fun h => by have := hs h; omega)) (fun _ s h => hid s h)

theorem t_handleReceive {o l} (hb : m b = some (o, l)) (hf : 2 ≤ f)
    (hs : S → o + l ≤ c.cap ∧ (c.multiaf = true → 4 ≤ o ∧ c.tap = false) ∧
      (c.tap = true → c.forward = true → c.headroom + l ≤ c.maxBuffer)) :
    Triple S (Own m f) (handleReceive c b) (fun _ => Own (upd m b none) (f + 1)) := by
  have F := facts c
  have F1 := F.h1; have Fe := F.enc16
  refine t_bind t_pickBool (fun r => t_ite (fun _ => t_free hb) (fun _ => t_get_bind hb (t_ite (fun _ => t_free hb) (fun hl => ?_))))
  refine t_bind (t_bytes hb (fun h => ?_)) (fun _ => t_bind (t_ifaceWrite hb (fun h => ⟨(hs h).1, fun h' => ((hs h).2.1 h').1⟩)) (fun _ => ?_))
  · have := hs h
    have hl : ¬ (c.tap = true ∧ l < 14) := hl
    split
    · rename_i ht
      have : ¬ l < 14 := fun h => hl ⟨ht, h⟩
      omega
    · omega
  · refine t_ex (fun x => t_pre (fun hx => t_ite (fun htf => ?_) (fun _ => ?_)))
    · have hS : S → x = (o, l) := by
        intro h
        apply hx
        cases haf : c.multiaf with
        | false => rfl
        | true => have := ((hs h).2.1 haf).2; rw [htf.1] at this; cases this
      obtain ⟨o', l'⟩ := x
      refine t_bind (t_align hc (upd_same _ _ _) (by omega) Fe (fun h => ?_)) (fun i => ?_)
      · have := hS h
        simp only [Prod.mk.injEq] at this
        have h2 := hs h
        have h3 := h2.2.2 htf.1 htf.2
        omega
      · refine t_ex (fun o2 => t_ex (fun l2 => t_pre (fun hR => t_pre (fun hi => ?_))))
        obtain ⟨rfl, ho2, henc, hcap⟩ := hR
        rw [upd_upd]
        refine t_post (t_sendData hc hm false (upd_same _ _ _) hf (fun h => ?_)) (fun _ s h => ?_)
        · have := hS h
          simp only [Prod.mk.injEq] at this
          have h2 := hs h
          have h3 := h2.2.2 htf.1 htf.2
          have := hcap h
          omega
        · rw [upd_moved] at h
          · exact h
          · rcases hi with h | h
            · exact .inl h
            · by_cases hib : i = b
              · exact .inl hib
              · rw [upd_ne hib] at h; exact .inr h
    · refine t_post (t_free (upd_same _ _ _)) (fun _ s h => ?_)
      rw [upd_upd] at h; exact h

theorem t_recvFinish {o l} (hb : m b = some (o, l)) (hf : 2 ≤ f)
    (hs : S → o + l ≤ c.cap ∧ (c.multiaf = true → 4 ≤ o ∧ c.tap = false) ∧
      (c.tap = true → c.forward = true → c.headroom + l ≤ c.maxBuffer)) :
    Triple S (Own m f) (recvFinish c b) (fun _ => Own (upd m b none) (f + 1)) :=
  t_get_bind hb (t_ite (fun _ => t_handleReceive hc hm hb hf hs) (fun _ => t_free hb))

theorem t_protocolRecv {o l} (hb : m b = some (o, l)) (hf : 2 ≤ f) (hr : S → Roomy c)
    (hs : S → 1 ≤ l ∧ (∀ p ∈ c.methods, p.blocky = true → o % 16 = 8) ∧ c.dec ≤ o ∧ o + l ≤ c.cap ∧ l ≤ c.recvLen) :
    Triple S (Own m f) (protocolRecv c b) (fun _ => Own (upd m b none) (f + 1)) := by
  have hdec : ∀ p ∈ c.methods, Triple S (Own m f) (decrypt c p b) (DecRes S c m f b p l) := fun p hp =>
    t_decrypt hc hp hb (by omega) (fun h => by
      have h1 := hs h
      exact ⟨h1.1, h1.2.1 p hp, h1.2.2.1, h1.2.2.2.1, h1.2.2.2.2, (hr h).recv⟩)
  have hfin : ∀ p ∈ c.methods, ∀ (i : BufId) (o' l' : Nat), (l' ≤ l - p.overhead ∧ (S → o' + l' ≤ c.cap ∧
      (p = .cipherTest → c.enc ≤ o') ∧ (p ≠ .cipherTest → 4 ≤ o'))) → (i = b ∨ m i = none) →
      Triple S (Own (upd (upd m b none) i (some (o', l'))) f) (recvFinish c i)
        (fun _ => Own (upd m b none) (f + 1)) := by
    intro p hp i o' l' hR hi
    refine t_post (t_recvFinish hc hm (upd_same _ _ _) hf (fun h => ?_)) (fun _ s h => ?_)
    · obtain ⟨hl, hR⟩ := hR
      have hR := hR h
      have hr := hr h
      have hs := hs h
      refine ⟨hR.1, fun haf => ?_, fun ht hfw => ?_⟩
      · have hma := hr.maf haf
        refine ⟨?_, hma.1⟩
        by_cases hct : p = .cipherTest
        · have := hR.2.1 hct
          have := hma.2 (hct ▸ hp)
          omega
        · exact hR.2.2 hct
      · have := hr.fwd ht hfw p hp
        omega
    · rw [upd_moved hi] at h; exact h
  refine t_bind t_pickBool (fun r => t_ite (fun _ => t_free hb) (fun _ => ?_))
  refine t_bind (t_zeroPad hb hc.mod (fun h => by have := hs h; omega)) (fun _ => ?_)
  have hold : Triple S (Own m f) (tryOld c b) (fun r s => ∃ p, p ∈ c.methods ∧ DecRes S c m f b p l r s) := by
    refine t_bind t_pickBool (fun r => t_ite (fun _ => ?_) (fun _ => t_pure (fun s h => ?_)))
    · exact t_bind (t_pickMethod hm) (fun p => t_pre (fun hp => t_post (hdec p hp) (fun _ _ h => ⟨p, hp, h⟩)))
    · obtain ⟨p, hp⟩ := List.exists_mem_of_ne_nil _ hm
      exact ⟨p, hp, h⟩
  refine t_bind hold (fun r => t_ex (fun p => t_pre (fun hp => ?_)))
  cases r with
  | some i =>
    exact t_ex (fun o' => t_ex (fun l' => t_pre (fun hR => t_pre (fun hi => hfin p hp i o' l' hR hi))))
  | none =>
    refine t_bind (t_pickMethod hm) (fun p => t_pre (fun hp => t_bind (hdec p hp) (fun r => ?_)))
    cases r with
    | none => exact t_free hb
    | some i =>
      refine t_ex (fun o' => t_ex (fun l' => t_pre (fun hR => t_pre (fun hi => t_bind t_pickBool (fun r => ?_)))))
      cases r
      · exact hfin p hp i o' l' hR hi
      · exact t_bind (t_sendEmpty hc hp hf) (fun _ => hfin p hp i o' l' hR hi)

theorem t_sendSome (n : Nat) (hf : 2 ≤ f) : Triple S (Own m f) (sendSome c n) (fun _ => Own m f) := by
  induction n with
  | zero => exact t_pure (fun _ h => h)
  | succ n ih =>
    refine t_bind t_pickBool (fun r => ?_)
    cases r
    · exact t_bind (t_pickMethod hm) (fun p => t_pre (fun hp => t_bind (t_sendEmpty hc hp hf) (fun _ => ih)))
    · exact t_bind t_pick (fun k => t_bind (t_sendHandshake hc (by omega) (by omega)) (fun _ => ih))

theorem t_dispatch {o l} (kind : Kind) (hb : m b = some (o, l)) (hf : 2 ≤ f) (hr : S → Roomy c)
    (hs : S → 1 ≤ l ∧ (kind = .data → ∀ p ∈ c.methods, p.blocky = true → o % 16 = 8) ∧ c.dec ≤ o ∧ o + l ≤ c.cap ∧
      l ≤ c.recvLen) :
    Triple S (Own m f) (dispatch c b kind) (fun _ => Own (upd m b none) (f + 1)) := by
  cases kind with
  | data =>
    exact t_protocolRecv hc hm hb hf hr (fun h => by
      have := hs h; exact ⟨this.1, this.2.1 rfl, this.2.2⟩)
  | handshake =>
    refine t_get_bind hb (t_bind (t_bytes hb (fun h => by have := hs h; omega)) (fun _ => ?_))
    exact t_bind t_pick (fun n => t_bind (t_sendSome hc hm n hf) (fun _ => t_free hb))
  | other =>
    exact t_bind t_pick (fun n => t_bind (t_sendSome hc hm _ hf) (fun _ => t_free hb))

theorem t_receive (len : Nat) (ctl : Bool) (kind : Kind) (hf : 3 ≤ f) (hr : S → Roomy c)
    (hs : S → ctl = true → kind = .data → ∀ p ∈ c.methods, p.blocky = false) :
    Triple S (Own m f) (receive c len ctl kind) (fun _ => Own m f) := by
  have Fd := (facts c).dec16
  refine t_bind (t_alloc (by omega) (fun h => (hr h).recv)) (fun i => t_pre (fun hi => t_pre (fun hle => ?_)))
  refine t_bind (t_bytes (upd_same _ _ _) (fun h => by have := hc.cap h; omega)) (fun _ => ?_)
  have hback : ∀ {α : Type} {k : M α} {x : Nat × Nat}, Triple S (Own (upd m i (some x)) (f - 1)) k
      (fun _ => Own (upd (upd m i (some x)) i none) (f - 1 + 1)) →
      Triple S (Own (upd m i (some x)) (f - 1)) k (fun _ => Own m f) := fun h => t_post h (fun _ s h => by
        rw [upd_upd, upd_none hi, show f - 1 + 1 = f by omega] at h; exact h)
  refine t_ite (fun _ => hback (t_free (upd_same _ _ _))) (fun h0 => ?_)
  refine t_bind (t_setLen (upd_same _ _ _)) (fun _ => ?_)
  rw [upd_upd]
  refine t_bind t_pickBool (fun r => t_ite (fun _ => hback (t_free (upd_same _ _ _))) (fun _ => ?_))
  refine t_bind t_pickBool (fun r => t_ite (fun _ => hback (t_free (upd_same _ _ _))) (fun _ => ?_))
  refine t_bind (t_bytes (upd_same _ _ _) (fun h => by have := hc.cap h; omega)) (fun _ => ?_)
  cases ctl with
  | false =>
    refine hback (t_dispatch hc hm kind (upd_same _ _ _) (by omega) hr (fun h => ⟨by omega, fun _ p hp hbl => Fd, by omega, ?_, by omega⟩))
    have := hc.cap h; omega
  | true =>
    refine t_get_bind (upd_same _ _ _) (t_ite (fun _ => hback (t_free (upd_same _ _ _))) (fun h13 => ?_))
    have h13 : ¬ min len c.recvLen < 13 := h13
    refine t_bind (t_pullTo (upd_same _ _ _) (fun h => by have := hc.cap h; omega)) (fun _ => t_pre (fun _ => ?_))
    rw [upd_upd]
    refine t_bind (t_bytes (upd_same _ _ _) (fun h => by have := hc.cap h; omega)) (fun _ => ?_)
    refine t_bind t_pickBool (fun r => t_ite (fun _ => hback (t_free (upd_same _ _ _))) (fun _ => ?_))
    refine hback (t_dispatch hc hm kind (upd_same _ _ _) (by omega) hr (fun h => ⟨by omega, fun hk p hp hbl => ?_, by omega, ?_, by omega⟩))
    · rw [hs h rfl hk p hp] at hbl; cases hbl
    · have := hc.cap h; omega

/-- The conditions on the environment. -/
def EvOk (c : Cfg) : Event → Prop
  | .tunnel len => len ≤ c.payload ∧ (c.multiaf = true → 4 ≤ len)
  | .udp _ ctl kind => ctl = true → kind = .data → ∀ p ∈ c.methods, p.blocky = false
  | .timer _ => True

theorem t_handle (e : Event) (hf : 3 ≤ f) (hr : S → Roomy c) (he : S → EvOk c e) :
    Triple S (Own m f) (handle c e) (fun _ => Own m f) := by
  cases e with
  | tunnel len => exact t_ifaceHandle hc hm len hf he
  | udp len ctl kind => exact t_receive hc hm len ctl kind hf hr he
  | timer n =>
    refine t_bind t_pickBool (fun r => ?_)
    cases r
    · exact t_sendSome hc hm n (by omega)
    · exact t_bind (t_keepalive hc hm (by omega)) (fun _ => t_sendSome hc hm n (by omega))

theorem t_run (es : List Event) (hf : 3 ≤ f) (hr : S → Roomy c) (he : S → ∀ e ∈ es, EvOk c e) :
    Triple S (Own m f) (run c es) (fun _ => Own m f) := by
  induction es with
  | nil => exact t_pure (fun _ h => h)
  | cons e es ih =>
    exact t_bind (t_handle hc hm e hf hr (fun h => he h e (by simp)))
      (fun _ => ih (fun h e he' => he h e (by simp [he'])))

end Fastd.Path
