import Verif.Daemon.Events

/-!
# Reasoning about the daemon model: weakest preconditions

`wp S m Q c` says: if `m` returns from state `c`, the result satisfies `Q`; `m` never runs out of fuel; and if `S`
holds, `m` neither calls `exit_bug` nor makes an invalid memory access; and if neither sockets nor interfaces have to be
opened for single peers (`Equipped`), `m` does not end the process because of a failing system call. With `S := False` it is about successful
executions only, with `S := True` it includes that there are no aborts.
-/

namespace Fastd.Daemon

set_option linter.unusedSectionVars false

variable [Env]

attribute [ext] Ctx

/-- There is one interface for all peers, and the sockets for packets sent to them are open all the time. -/
def Equipped : Prop := Env.sharedIface = true ∧ Env.sockV4.isSome = true ∧ Env.sockV6.isSome = true

def wp {α : Type} (S : Prop) (m : M α) (Q : α → Ctx → Prop) (c : Ctx) : Prop :=
  match m c with
  | .ok (a, c') => Q a c'
  | .error .exit => ¬ Equipped
  | .error .config => True
  | .error .fuel => False
  | .error .bug => ¬ S
  | .error .mem => ¬ S

variable {S : Prop} {α β : Type}

theorem wp_mono {m : M α} {Q R : α → Ctx → Prop} {c : Ctx} (h : wp S m Q c) (hqr : ∀ a c', Q a c' → R a c') :
    wp S m R c := by
  unfold wp at *
  cases hm : m c with
  | ok v => rw [hm] at h; exact hqr _ _ h
  | error e => rw [hm] at h; cases e <;> exact h

/-- Specifications may refer to the result of the computation. -/
theorem wp_imp {m : M α} {Q R : α → Ctx → Prop} {c : Ctx} (h : wp S m Q c)
    (hqr : ∀ a c', m c = .ok (a, c') → Q a c' → R a c') : wp S m R c := by
  unfold wp at *
  cases hm : m c with
  | ok v => rw [hm] at h; exact hqr _ _ hm h
  | error e => rw [hm] at h; cases e <;> exact h

/-- Giving the state a name. -/
theorem wp_opaque {m : M α} {Q : α → Ctx → Prop} {c : Ctx} (h : ∀ c', c' = c → wp S m Q c') : wp S m Q c := h c rfl

theorem wp_ok {m : M α} {Q : α → Ctx → Prop} {c c' : Ctx} {a : α} (h : wp S m Q c) (hm : m c = .ok (a, c')) :
    Q a c' := by
  unfold wp at h
  rw [hm] at h
  exact h

theorem wp_and {m : M α} {Q R : α → Ctx → Prop} {c : Ctx} (h : wp S m Q c) (h' : wp S m R c) :
    wp S m (fun a c' => Q a c' ∧ R a c') c := by
  unfold wp at *
  cases hm : m c with
  | ok v => rw [hm] at h h'; exact ⟨h, h'⟩
  | error e => rw [hm] at h; cases e <;> exact h

theorem bind_def (m : M α) (f : α → M β) (c : Ctx) : (m >>= f) c =
    match m c with
    | .ok (a, c') => f a c'
    | .error e => .error e := rfl

theorem pure_def (a : α) (c : Ctx) : (pure a : M α) c = .ok (a, c) := rfl

theorem wp_bind {m : M α} {f : α → M β} {Q : β → Ctx → Prop} {c : Ctx} :
    wp S (m >>= f) Q c ↔ wp S m (fun a c' => wp S (f a) Q c') c := by
  unfold wp
  rw [bind_def]
  cases hm : m c with
  | ok v => rfl
  | error e => cases e <;> rfl

theorem wp_seq {m : M α} {f : α → M β} {P : α → Ctx → Prop} {Q : β → Ctx → Prop} {c : Ctx} (h : wp S m P c)
    (h' : ∀ a c', P a c' → wp S (f a) Q c') : wp S (m >>= f) Q c :=
  wp_bind.2 (wp_mono h h')

theorem wp_pure {a : α} {Q : α → Ctx → Prop} {c : Ctx} : wp S (pure a) Q c ↔ Q a c := Iff.rfl

theorem wp_get {Q : Ctx → Ctx → Prop} {c : Ctx} : wp S get Q c ↔ Q c c := Iff.rfl

theorem wp_modify {f : Ctx → Ctx} {Q : Unit → Ctx → Prop} {c : Ctx} : wp S (modify f) Q c ↔ Q () (f c) := Iff.rfl

theorem wp_emit {e : Eff} {Q : Unit → Ctx → Prop} {c : Ctx} :
    wp S (emit e) Q c ↔ Q () { c with log := c.log ++ [e] } := Iff.rfl

theorem wp_draw {Q : Nat → Ctx → Prop} {c : Ctx} :
    wp S draw Q c ↔ Q (Env.tape c.pos) { c with pos := c.pos + 1 } := Iff.rfl

theorem wp_drawBool {Q : Bool → Ctx → Prop} {c : Ctx} :
    wp S drawBool Q c ↔ Q (decide (Env.tape c.pos % 2 = 1)) { c with pos := c.pos + 1 } := Iff.rfl

theorem wp_rand {a b : Time} {Q : Time → Ctx → Prop} {c : Ctx} :
    wp S (rand a b) Q c ↔ Q (a + (Env.tape c.pos : Int) % (b - a)) { c with pos := c.pos + 1 } := Iff.rfl

theorem wp_bug {Q : α → Ctx → Prop} {c : Ctx} : wp S (fail .bug) Q c ↔ ¬ S := Iff.rfl
theorem wp_mem {Q : α → Ctx → Prop} {c : Ctx} : wp S (fail .mem) Q c ↔ ¬ S := Iff.rfl
theorem wp_exit {Q : α → Ctx → Prop} {c : Ctx} : wp S (fail .exit) Q c ↔ ¬ Equipped := Iff.rfl
theorem wp_fuel {Q : α → Ctx → Prop} {c : Ctx} : wp S (fail .fuel) Q c ↔ False := Iff.rfl

theorem wp_ite {b : Prop} [Decidable b] {m m' : M α} {Q : α → Ctx → Prop} {c : Ctx} (h : b → wp S m Q c)
    (h' : ¬ b → wp S m' Q c) : wp S (if b then m else m') Q c := by
  by_cases hb : b
  · rw [if_pos hb]; exact h hb
  · rw [if_neg hb]; exact h' hb

theorem wp_when {b : Bool} {m : M Unit} {Q : Unit → Ctx → Prop} {c : Ctx} (h : b = true → wp S m Q c)
    (h' : b = false → Q () c) : wp S (when b m) Q c := by
  unfold when
  cases b with
  | true => exact h rfl
  | false => exact h' rfl

theorem wp_memIfNone {o : Option α} {Q : α → Ctx → Prop} {c : Ctx} (h : S → o.isSome = true)
    (h' : ∀ a, o = some a → Q a c) : wp S (memIfNone o) Q c := by
  cases o with
  | none => exact fun hs => by simpa using h hs
  | some a => exact h' a rfl

theorem wp_bugIfNone {o : Option α} {Q : α → Ctx → Prop} {c : Ctx} (h : S → o.isSome = true)
    (h' : ∀ a, o = some a → Q a c) : wp S (bugIfNone o) Q c := by
  cases o with
  | none => exact fun hs => by simpa using h hs
  | some a => exact h' a rfl

/-- A loop with an invariant. -/
theorem wp_forEach {f : α → M Unit} {I : Ctx → Prop} (l : List α) {c : Ctx} (h : I c)
    (hf : ∀ a ∈ l, ∀ c, I c → wp S (f a) (fun _ c' => I c') c) : wp S (forEach f l) (fun _ c' => I c') c := by
  induction l generalizing c with
  | nil => exact h
  | cons a as ih =>
    rw [forEach]
    refine wp_seq (hf a List.mem_cons_self c h) fun _ c' hc' => ?_
    exact ih hc' fun b hb => hf b (List.mem_cons_of_mem _ hb)

/-! ### Peers by id -/

/-- Ids are strictly increasing along the vector. -/
def Sorted (ps : List Peer) : Prop := (ps.map (·.id)).Pairwise (· < ·)

theorem sorted_inj {ps : List Peer} (hs : Sorted ps) {p q : Peer} (hp : p ∈ ps) (hq : q ∈ ps) (h : p.id = q.id) :
    p = q := by
  induction ps with
  | nil => cases hp
  | cons a as ih =>
    simp only [Sorted, List.map_cons, List.pairwise_cons, List.mem_map, forall_exists_index, and_imp,
      forall_apply_eq_imp_iff₂] at hs
    rcases List.mem_cons.1 hp with rfl | hp' <;> rcases List.mem_cons.1 hq with rfl | hq'
    · rfl
    · have := hs.1 _ hq'; omega
    · have := hs.1 _ hp'; omega
    · exact ih hs.2 hp' hq'

theorem find_of_mem {ps : List Peer} (hs : Sorted ps) {p : Peer} (hp : p ∈ ps) :
    ps.find? (·.id = p.id) = some p := by
  cases h : ps.find? (·.id = p.id) with
  | none =>
    have := List.find?_eq_none.1 h p hp
    simp at this
  | some q =>
    have h1 := List.find?_some h
    have h2 := List.mem_of_find?_eq_some h
    rw [sorted_inj hs h2 hp (by simpa using h1)]

theorem wp_getP {c : Ctx} (hs : Sorted c.peers) {p : Peer} (hp : p ∈ c.peers) {Q : Peer → Ctx → Prop} :
    wp S (getP p.id) Q c ↔ Q p c := by
  unfold getP wp
  rw [bind_def]
  simp only [get, find_of_mem hs hp]
  rfl

theorem wp_getP' {c : Ctx} (hs : Sorted c.peers) {p : Peer} (hp : p ∈ c.peers) {i : Nat} (hi : p.id = i)
    {Q : Peer → Ctx → Prop} : wp S (getP i) Q c ↔ Q p c := by
  subst hi
  exact wp_getP hs hp

/-- If it is not known whether a peer exists, it exists in case of success. -/
theorem wp_getP_any {c : Ctx} {i : Nat} {Q : Peer → Ctx → Prop} (h : S → ∃ p ∈ c.peers, p.id = i)
    (h' : ∀ p ∈ c.peers, p.id = i → Q p c) : wp S (getP i) Q c := by
  unfold getP wp
  rw [bind_def]
  simp only [get]
  cases hf : c.peers.find? (·.id = i) with
  | none =>
    simp only [fail]
    intro hS
    obtain ⟨p, hp, hi⟩ := h hS
    have := List.find?_eq_none.1 hf p hp
    simp [hi] at this
  | some q =>
    exact h' q (List.mem_of_find?_eq_some hf) (by simpa using List.find?_some hf)

theorem wp_modP {c : Ctx} (hs : Sorted c.peers) {p : Peer} (hp : p ∈ c.peers) {i : Nat} (hi : p.id = i)
    {f : Peer → Peer} {Q : Unit → Ctx → Prop} :
    wp S (modP i f) Q c ↔ Q () { c with peers := updPeers c.peers i f } := by
  unfold modP
  rw [wp_bind, wp_getP' hs hp hi]
  rfl

theorem mem_updPeers {ps : List Peer} {i : Nat} {f : Peer → Peer} {q : Peer} :
    q ∈ updPeers ps i f ↔ ∃ p ∈ ps, (if p.id = i then f p else p) = q := by
  unfold updPeers
  rw [List.mem_map]

theorem updPeers_id {ps : List Peer} {i : Nat} {f : Peer → Peer} (hf : ∀ p ∈ ps, p.id = i → (f p).id = p.id) :
    (updPeers ps i f).map (·.id) = ps.map (·.id) := by
  unfold updPeers
  rw [List.map_map]
  refine List.map_congr_left fun p hp => ?_
  simp only [Function.comp_apply]
  split
  · exact hf p hp (by assumption)
  · rfl

/-- Projections unchanged by an update. -/
theorem updPeers_map {γ : Type} {ps : List Peer} {i : Nat} {f : Peer → Peer} {g : Peer → γ}
    (hf : ∀ p ∈ ps, p.id = i → g (f p) = g p) : (updPeers ps i f).map g = ps.map g := by
  unfold updPeers
  rw [List.map_map]
  refine List.map_congr_left fun p hp => ?_
  simp only [Function.comp_apply]
  split
  · exact hf p hp (by assumption)
  · rfl

theorem updPeers_updPeers {ps : List Peer} {i : Nat} {f g : Peer → Peer} (hf : ∀ p ∈ ps, p.id = i → (f p).id = p.id) :
    updPeers (updPeers ps i f) i g = updPeers ps i (g ∘ f) := by
  unfold updPeers
  rw [List.map_map]
  refine List.map_congr_left fun p hp => ?_
  simp only [Function.comp_apply]
  by_cases h : p.id = i
  · rw [if_pos h, if_pos (by rw [hf p hp h, h])]
    simp [h]
  · simp [h]

theorem mem_updPeers_self {ps : List Peer} {p : Peer} (hp : p ∈ ps) {f : Peer → Peer} :
    f p ∈ updPeers ps p.id f := mem_updPeers.2 ⟨p, hp, if_pos rfl⟩

theorem mem_updPeers_self' {ps : List Peer} {p : Peer} (hp : p ∈ ps) {i : Nat} (hi : p.id = i) {f : Peer → Peer} :
    f p ∈ updPeers ps i f := mem_updPeers.2 ⟨p, hp, if_pos hi⟩

theorem mem_updPeers_other {ps : List Peer} {q : Peer} (hq : q ∈ ps) {i : Nat} (h : q.id ≠ i) {f : Peer → Peer} :
    q ∈ updPeers ps i f := mem_updPeers.2 ⟨q, hq, if_neg h⟩

end Fastd.Daemon
