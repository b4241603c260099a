import Verif.Config.Check
import Verif.Config.ExecConf
import Mathlib.Data.List.Perm.Basic
import Mathlib.Data.List.Nodup
import Mathlib.Data.List.Range

/-!
# The tree of groups: lemmas
-/

namespace Fastd.Config.Spec

open Fastd.Config (Bytes lit collectLoop)
open Fastd.Config.Gram
open Fastd.Config.Exec
open Fastd.Config.Start

variable {D : Type}

/-! ## Order of the groups -/

/-- The groups in the order in which they are visited -/
def orderAll (f : Nat → Option (List Nat)) : List Nat → Option (List Nat)
  | [] => some []
  | c :: cs => match f c, orderAll f cs with
    | some a, some b => some (a ++ b)
    | _, _ => none

def order (gs : List Exec.Group) : Nat → Nat → Option (List Nat)
  | 0, _ => none
  | k + 1, g => match gs[g]? with
    | none => none
    | some gr => (orderAll (order gs k) gr.children).map (g :: ·)

structure Tree (gs : List Exec.Group) : Prop where
  pos : 0 < gs.length
  child : ∀ {g c : Nat} {gr : Exec.Group}, gs[g]? = some gr → c ∈ gr.children → g < c ∧ c < gs.length
  nodup : ∀ {g : Nat} {gr : Exec.Group}, gs[g]? = some gr → gr.children.Nodup
  cover : ∀ {n}, 1 ≤ n → n < gs.length → ∃ (p : Nat) (gr : Exec.Group), gs[p]? = some gr ∧ n ∈ gr.children
  uniq : ∀ {p q c : Nat} {gr gr' : Exec.Group}, gs[p]? = some gr → gs[q]? = some gr' → c ∈ gr.children → c ∈ gr'.children → p = q
  parent : ∀ {g p : Nat} {gr : Exec.Group}, gs[g]? = some gr → gr.parent = some p → p < g

/-- `x` is in the part of the tree below `a` -/
inductive Below (gs : List Exec.Group) (a : Nat) : Nat → Prop
  | refl : Below gs a a
  | step {x y : Nat} {gr : Exec.Group} : Below gs a x → gs[x]? = some gr → y ∈ gr.children → Below gs a y

theorem Below.le {gs} (T : Tree gs) {a x} (h : Below gs a x) : a ≤ x := by
  induction h with
  | refl => exact Nat.le_refl _
  | step _ hx hy ih => have := T.child hx hy; omega

/-- Two groups above `x` are comparable. -/
theorem Below.linear {gs} (T : Tree gs) {a b x} (h : Below gs a x) (h' : Below gs b x) : Below gs a b ∨ Below gs b a := by
  induction h with
  | refl => exact .inr h'
  | step hb hx hy ih =>
    cases h' with
    | refl => exact .inl (.step hb hx hy)
    | step hb' hx' hy' =>
      obtain rfl := T.uniq hx hx' hy hy'
      exact ih hb'

/-- Parts below different children of a group are disjoint. -/
theorem Below.disjoint {gs} (T : Tree gs) {g a b x : Nat} {gr : Exec.Group} (hg : gs[g]? = some gr) (ha : a ∈ gr.children) (hb : b ∈ gr.children) (h : Below gs a x) (h' : Below gs b x) :
    a = b := by
  have key : ∀ {a b}, a ∈ gr.children → b ∈ gr.children → Below gs a b → a = b := by
    intro a b ha hb h
    cases h with
    | refl => rfl
    | step h1 hx hy =>
      obtain rfl := T.uniq hx hg hy hb
      have h2 := h1.le T
      have := T.child hg ha
      omega
  rcases h.linear T h' with h | h
  · exact key ha hb h
  · exact (key hb ha h).symm

theorem orderAll_some {f : Nat → Option (List Nat)} {P : Nat → List Nat → Prop} : ∀ cs, (∀ c ∈ cs, ∃ l, f c = some l ∧ P c l) →
    ∃ ls : List (List Nat), orderAll f cs = some ls.flatten ∧ List.Forall₂ P cs ls := by
  intro cs
  induction cs with
  | nil => intro _; exact ⟨[], rfl, .nil⟩
  | cons c cs ih =>
    intro h
    obtain ⟨l, h1, h2⟩ := h c (by simp)
    obtain ⟨ls, h3, h4⟩ := ih fun c hc => h c (by simp [hc])
    exact ⟨l :: ls, by simp [orderAll, h1, h3], .cons h2 h4⟩

theorem order_spec {gs} (T : Tree gs) : ∀ k g, g < gs.length → gs.length ≤ k + g → ∃ l, order gs k g = some l ∧ l.Nodup ∧ ∀ x, x ∈ l ↔ Below gs g x := by
  intro k
  induction k with
  | zero => intro g h1 h2; omega
  | succ k ih =>
    intro g h1 h2
    obtain ⟨gr, hg⟩ : ∃ gr : Exec.Group, gs[g]? = some gr := ⟨_, List.getElem?_eq_getElem h1⟩
    obtain ⟨ls, ho, hf⟩ := orderAll_some (f := order gs k) (P := fun c l => l.Nodup ∧ ∀ x, x ∈ l ↔ Below gs c x) gr.children (by
      intro c hc
      have := T.child hg hc
      exact ih c this.2 (by omega))
    refine ⟨g :: ls.flatten, by simp [order, hg, ho], ?_, ?_⟩
    · rw [List.nodup_cons]
      constructor
      · intro hm
        obtain ⟨l, hl, hx⟩ := List.mem_flatten.1 hm
        obtain ⟨c, hc, hcl⟩ : ∃ c ∈ gr.children, ∀ x, x ∈ l ↔ Below gs c x := by
          clear ho hm
          generalize gr.children = cs at hf
          induction hf with
          | nil => simp at hl
          | cons h _ ih2 =>
            rcases List.mem_cons.1 hl with rfl | hl
            · exact ⟨_, by simp, h.2⟩
            · obtain ⟨c, hc, h⟩ := ih2 hl
              exact ⟨c, by simp [hc], h⟩
        have h3 := ((hcl g).1 hx).le T
        have := T.child hg hc
        omega
      · have hnd := T.nodup hg
        have hdis : ∀ a ∈ gr.children, ∀ b ∈ gr.children, ∀ x, Below gs a x → Below gs b x → a = b := fun a ha b hb x h h' => h.disjoint T hg ha hb h'
        clear ho
        generalize gr.children = cs at hf hnd hdis
        induction hf with
        | nil => simp
        | @cons c l cs ls h hf ih2 =>
          rw [List.nodup_cons] at hnd
          rw [List.flatten_cons, List.nodup_append]
          refine ⟨h.1, ih2 hnd.2 (fun a ha b hb => hdis a (by simp [ha]) b (by simp [hb])), ?_⟩
          rintro x hx y hy rfl
          obtain ⟨l', hl', hx'⟩ := List.mem_flatten.1 hy
          obtain ⟨c', hc', hcl⟩ : ∃ c' ∈ cs, ∀ x, x ∈ l' ↔ Below gs c' x := by
            clear ih2 hnd hdis hy
            induction hf with
            | nil => simp at hl'
            | cons h _ ih2 =>
              rcases List.mem_cons.1 hl' with rfl | hl'
              · exact ⟨_, by simp, h.2⟩
              · obtain ⟨c, hc, h⟩ := ih2 hl'
                exact ⟨c, by simp [hc], h⟩
          obtain rfl := hdis c (by simp) c' (by simp [hc']) x ((h.2 x).1 hx) ((hcl x).1 hx')
          exact hnd.1 hc'
    · intro x
      rw [List.mem_cons]
      have hmem : x ∈ ls.flatten ↔ ∃ c ∈ gr.children, Below gs c x := by
        clear ho
        generalize gr.children = cs at hf
        induction hf with
        | nil => simp
        | cons h _ ih2 => simp [List.flatten_cons, h.2 x, ih2]
      rw [hmem]
      clear hmem
      constructor
      · rintro (rfl | ⟨c, hc, h⟩)
        · exact .refl
        · induction h with
          | refl => exact .step .refl hg hc
          | step _ hx hy ih2 => exact .step ih2 hx hy
      · intro h
        induction h with
        | refl => exact .inl rfl
        | step hb hx hy ih2 =>
          right
          rcases ih2 with rfl | ⟨c, hc, h⟩
          · rw [hg] at hx
            cases hx
            exact ⟨_, hy, .refl⟩
          · exact ⟨c, hc, .step h hx hy⟩

theorem below_zero {gs} (T : Tree gs) : ∀ n, n < gs.length → Below gs 0 n := by
  intro n
  induction n using Nat.strongRecOn with
  | ind n ih =>
    intro hn
    by_cases h0 : n = 0
    · subst h0; exact .refl
    · obtain ⟨p, gr, hp, hm⟩ := T.cover (by omega) hn
      have := T.child hp hm
      exact .step (ih p this.1 (by omega)) hp hm

theorem below_lt {gs} (T : Tree gs) {n} (h : Below gs 0 n) : n < gs.length := by
  cases h with
  | refl => exact T.pos
  | step _ hx hy => exact (T.child hx hy).2

/-- All groups are visited exactly once. -/
theorem order_zero {gs} (T : Tree gs) : ∃ l, order gs gs.length 0 = some l ∧ l.Perm (List.range gs.length) := by
  obtain ⟨l, h1, h2, h3⟩ := order_spec T gs.length 0 T.pos (by omega)
  refine ⟨l, h1, (List.perm_ext_iff_of_nodup h2 List.nodup_range).2 fun x => ?_⟩
  rw [h3, List.mem_range]
  exact ⟨below_lt T, below_zero T x⟩

/-! ## Functions on the tree -/

theorem anyChild_order {f : Nat → Option Bool} {f' : Nat → Option (List Nat)} {p : Nat → Bool} (h : ∀ c l, f' c = some l → f c = some (l.any p)) :
    ∀ cs l, orderAll f' cs = some l → anyChild f cs = some (l.any p) := by
  intro cs
  induction cs with
  | nil => intro l hl; cases hl; rfl
  | cons c cs ih =>
    intro l hl
    simp only [orderAll] at hl
    split at hl
    · rename_i a b ha hb
      cases hl
      simp only [anyChild, h c a ha, List.any_append]
      cases a.any p with
      | true => simp
      | false => simp [ih b hb]
    · cases hl

theorem hasPeerDirs_order (gs : List Exec.Group) : ∀ k g l, order gs k g = some l →
    hasPeerDirs gs k g = some (l.any fun x => (gs[x]?.map fun gr => !gr.peerDirs.isEmpty).getD false) := by
  intro k
  induction k with
  | zero => intro g l h; cases h
  | succ k ih =>
    intro g l h
    simp only [order] at h
    simp only [hasPeerDirs]
    cases hg : gs[g]? with
    | none => simp [hg] at h
    | some gr =>
      simp only [hg, Option.map_eq_some_iff] at h
      obtain ⟨l', h1, rfl⟩ := h
      simp only [List.any_cons, hg, Option.map_some, Option.getD_some]
      split
      · rename_i he
        rw [anyChild_order ih _ _ h1]
        simp [he]
      · rename_i he
        simp [he]

theorem overChildren_order {α} {f : Nat → α → Option α} {f' : Nat → Option (List Nat)} {s : α → Nat → α} (h : ∀ c l, f' c = some l → ∀ a, f c a = some (l.foldl s a)) :
    ∀ cs l, orderAll f' cs = some l → ∀ a, overChildren f cs a = some (l.foldl s a) := by
  intro cs
  induction cs with
  | nil => intro l hl a; cases hl; rfl
  | cons c cs ih =>
    intro l hl a
    simp only [orderAll] at hl
    split at hl
    · rename_i b b' hb hb'
      cases hl
      simp only [overChildren, h c b hb, List.foldl_append]
      exact ih b' hb' _
    · cases hl

theorem collect_order (gs : List Exec.Group) : ∀ k g l, order gs k g = some l → ∀ acc,
    Start.collect gs k g acc = some (l.foldl (fun acc x => collectLoop ((gs[x]?.map fun gr => gr.methods).getD []) acc) acc) := by
  intro k
  induction k with
  | zero => intro g l h; cases h
  | succ k ih =>
    intro g l h acc
    simp only [order] at h
    simp only [Start.collect]
    cases hg : gs[g]? with
    | none => simp [hg] at h
    | some gr =>
      simp only [hg, Option.map_eq_some_iff] at h
      obtain ⟨l', h1, rfl⟩ := h
      simp only [List.foldl_cons, hg, Option.map_some, Option.getD_some]
      exact overChildren_order ih _ _ h1 _

/-! ## The tree of a configuration -/

theorem range_glue {a b c : Nat} (h : a ≤ b) (h' : b ≤ c) : List.range' a (b - a) ++ List.range' b (c - b) = List.range' a (c - a) := by
  obtain ⟨m, rfl⟩ := Nat.exists_eq_add_of_le h
  obtain ⟨n, rfl⟩ := Nat.exists_eq_add_of_le h'
  rw [show a + m - a = m by omega, show a + m + n - (a + m) = n by omega, show a + m + n - a = m + n by omega, List.range'_append_1]

/-- The new groups of some items -/
def subs (its : List (Nat × Item D)) : List Nat := its.filterMap fun y => theSub y.2

theorem subs_append (a b : List (Nat × Item D)) : subs (a ++ b) = subs a ++ subs b := List.filterMap_append

mutual
/-- The numbers of the groups are in the order of their blocks. -/
theorem subs_walk1 (next g : Nat) : ∀ x : X D, subs (walk1 next g x).1 = List.range' next ((walk1 next g x).2 - next)
  | .simple .. => by simp [walk1, subs, theSub]
  | .leaf .. => by simp [walk1, subs, theSub]
  | .peer .. => by simp [walk1, subs, theSub]
  | .ident .. => by simp [walk1, subs, theSub]
  | .group name body => by
    have h := subs_walk (next + 1) next body
    have := walk_le (next + 1) next body
    have h2 : subs (walk1 next g (.group name body)).1 = next :: subs (walk (next + 1) next body).1 := by simp [walk1, subs, theSub]
    rw [h2, h]
    simp only [walk1]
    rw [← range_glue (Nat.le_succ next) this]
    simp
theorem subs_walk (next g : Nat) : ∀ xs : List (X D), subs (walk next g xs).1 = List.range' next ((walk next g xs).2 - next)
  | [] => by simp [walk, subs]
  | x :: xs => by
    simp only [walk, subs_append]
    rw [subs_walk1 next g x, subs_walk _ g xs]
    exact range_glue (walk1_le next g x) (walk_le _ g xs)
end

mutual
/-- The groups of items: the group around them or later groups. A group begins before the groups in it. -/
theorem outer_walk1 (next g : Nat) (hg : g < next) : ∀ x : X D, ∀ y ∈ (walk1 next g x).1, ∀ n, theSub y.2 = some n → y.1 < n
  | .simple .. => by simp [walk1, theSub]
  | .leaf .. => by simp [walk1, theSub]
  | .peer .. => by simp [walk1, theSub]
  | .ident .. => by simp [walk1, theSub]
  | .group name body => by
    intro y hy n hn
    simp only [walk1, List.mem_cons] at hy
    rcases hy with rfl | hy
    · simp only [theSub, Option.some.injEq] at hn
      subst hn
      exact hg
    · exact outer_walk (next + 1) next (Nat.lt_succ_self _) body y hy n hn
theorem outer_walk (next g : Nat) (hg : g < next) : ∀ xs : List (X D), ∀ y ∈ (walk next g xs).1, ∀ n, theSub y.2 = some n → y.1 < n
  | [] => by simp [walk]
  | x :: xs => by
    intro y hy n hn
    simp only [walk, List.mem_append] at hy
    rcases hy with hy | hy
    · exact outer_walk1 next g hg x y hy n hn
    · exact outer_walk _ g (Nat.lt_of_lt_of_le hg (walk1_le next g x)) xs y hy n hn
end

mutual
theorem lt_walk1 (next g : Nat) (hg : g < next) : ∀ x : X D, ∀ y ∈ (walk1 next g x).1, y.1 < (walk1 next g x).2
  | .simple .. => by simpa [walk1] using hg
  | .leaf .. => by simpa [walk1] using hg
  | .peer .. => by simpa [walk1] using hg
  | .ident .. => by simpa [walk1] using hg
  | .group name body => by
    intro y hy
    simp only [walk1, List.mem_cons] at hy ⊢
    rcases hy with rfl | hy
    · have := walk_le (next + 1) next body
      simp only
      omega
    · exact lt_walk (next + 1) next (Nat.lt_succ_self _) body y hy
theorem lt_walk (next g : Nat) (hg : g < next) : ∀ xs : List (X D), ∀ y ∈ (walk next g xs).1, y.1 < (walk next g xs).2
  | [] => by simp [walk]
  | x :: xs => by
    intro y hy
    simp only [walk, List.mem_append] at hy ⊢
    rcases hy with hy | hy
    · exact Nat.lt_of_lt_of_le (lt_walk1 next g hg x y hy) (walk_le _ g xs)
    · exact lt_walk _ g (Nat.lt_of_lt_of_le hg (walk1_le next g x)) xs y hy
end

/-- The items of a whole configuration -/
structure Whole (its : List (Nat × Item D)) (next : Nat) : Prop where
  pos : 1 ≤ next
  subs : subs its = List.range' 1 (next - 1)
  outer : ∀ y ∈ its, ∀ n, theSub y.2 = some n → y.1 < n
  lt : ∀ y ∈ its, y.1 < next

theorem whole (xs : List (X D)) : Whole (walk 1 0 xs).1 (walk 1 0 xs).2 :=
  ⟨walk_le 1 0 xs, subs_walk 1 0 xs, outer_walk 1 0 Nat.zero_lt_one xs, lt_walk 1 0 Nat.zero_lt_one xs⟩

theorem children_iff {env : Env D} {its : List (Nat × Item D)} {g n : Nat} : n ∈ (groupSpec env its g).children ↔ ∃ name, (g, Item.sub n name) ∈ its := by
  simp only [groupSpec, List.mem_reverse, List.mem_filterMap, own, List.mem_filter]
  constructor
  · rintro ⟨⟨i, it⟩, ⟨h1, h2⟩, h3⟩
    simp only [decide_eq_true_eq] at h2
    subst h2
    cases it <;> simp [theSub] at h3
    subst h3
    exact ⟨_, h1⟩
  · rintro ⟨name, h⟩
    exact ⟨_, ⟨h, by simp⟩, rfl⟩

theorem nodup_filterMap_own {its : List (Nat × Item D)} (h : (subs its).Nodup) (g : Nat) : (subs (own g its)).Nodup := by
  have : (subs (own g its)).Sublist (subs its) := List.filter_sublist.filterMap _
  exact this.nodup h

theorem uniq_sub {its : List (Nat × Item D)} (h : (subs its).Nodup) {p q n a b} (h1 : (p, Item.sub n a) ∈ its) (h2 : (q, Item.sub n b) ∈ its) : p = q ∧ a = b := by
  induction its with
  | nil => simp at h1
  | cons x its ih =>
    rcases List.mem_cons.1 h1 with e1 | e1 <;> rcases List.mem_cons.1 h2 with e2 | e2
    · rw [← e1] at e2; cases e2; exact ⟨rfl, rfl⟩
    · subst e1
      have h' : (n :: subs its).Nodup := h
      exact absurd (List.mem_filterMap.2 ⟨(q, .sub n b), e2, rfl⟩ : n ∈ subs its) (List.nodup_cons.1 h').1
    · subst e2
      have h' : (n :: subs its).Nodup := h
      exact absurd (List.mem_filterMap.2 ⟨(p, .sub n a), e1, rfl⟩ : n ∈ subs its) (List.nodup_cons.1 h').1
    · refine ih ?_ e1 e2
      exact ((List.sublist_cons_self x its).filterMap _).nodup h

theorem origin_iff {its : List (Nat × Item D)} (h : (subs its).Nodup) {n p name} : origin n its = some (p, name) ↔ (p, Item.sub n name) ∈ its := by
  constructor
  · intro ho
    unfold origin at ho
    obtain ⟨⟨i, it⟩, hm, he⟩ := List.exists_of_findSome?_eq_some ho
    cases it <;> simp at he
    obtain ⟨rfl, rfl, rfl⟩ := he
    exact hm
  · intro hm
    have hs : (origin n its).isSome := by
      unfold origin
      rw [List.findSome?_isSome_iff]
      exact ⟨_, hm, by simp⟩
    obtain ⟨⟨q, b⟩, hq⟩ := Option.isSome_iff_exists.1 hs
    have hq' : (q, Item.sub n b) ∈ its := by
      unfold origin at hq
      obtain ⟨⟨i, it⟩, hm', he⟩ := List.exists_of_findSome?_eq_some hq
      cases it <;> simp at he
      obtain ⟨rfl, rfl, rfl⟩ := he
      exact hm'
    obtain ⟨rfl, rfl⟩ := uniq_sub h hm hq'
    exact hq

/-- The groups are a tree; `ms` are other lists of methods. -/
theorem tree_of {env : Env D} {its : List (Nat × Item D)} {next} (hw : Whole its next) {gs : List Exec.Group} (hl : gs.length = next)
    (hg : ∀ g gr, gs[g]? = some gr → gr.children = (groupSpec env its g).children ∧ gr.parent = (groupSpec env its g).parent) : Tree gs := by
  have hnd : (subs its).Nodup := by rw [hw.subs]; exact List.nodup_range'
  have hmem : ∀ {p n name}, (p, Item.sub n name) ∈ its → p < n ∧ 1 ≤ n ∧ n < next := by
    intro p n name h
    have h1 := hw.outer _ h n rfl
    have h2 : n ∈ subs its := List.mem_filterMap.2 ⟨_, h, rfl⟩
    rw [hw.subs, List.mem_range'_1] at h2
    exact ⟨h1, by omega, by omega⟩
  refine ⟨by have := hw.pos; omega, ?_, ?_, ?_, ?_, ?_⟩
  · intro g c gr h hc
    rw [(hg g gr h).1, children_iff] at hc
    obtain ⟨name, hc⟩ := hc
    have := hmem hc
    omega
  · intro g gr h
    rw [(hg g gr h).1]
    simp only [groupSpec, List.nodup_reverse]
    exact nodup_filterMap_own hnd g
  · intro n h1 h2
    have : n ∈ subs its := by rw [hw.subs, List.mem_range'_1]; omega
    obtain ⟨⟨p, it⟩, hm, he⟩ := List.mem_filterMap.1 this
    cases it <;> simp [theSub] at he
    subst he
    have := hmem hm
    have hp : p < gs.length := by omega
    refine ⟨p, gs[p], List.getElem?_eq_getElem hp, ?_⟩
    rw [(hg p _ (List.getElem?_eq_getElem hp)).1, children_iff]
    exact ⟨_, hm⟩
  · intro p q c gr gr' hp hq h1 h2
    rw [(hg p gr hp).1, children_iff] at h1
    rw [(hg q gr' hq).1, children_iff] at h2
    obtain ⟨a, h1⟩ := h1
    obtain ⟨b, h2⟩ := h2
    exact (uniq_sub hnd h1 h2).1
  · intro g p gr h hp
    rw [(hg g gr h).2] at hp
    simp only [groupSpec, Option.map_eq_some_iff] at hp
    obtain ⟨⟨q, name⟩, ho, rfl⟩ := hp
    exact (hmem ((origin_iff hnd).1 ho)).1

end Fastd.Config.Spec
