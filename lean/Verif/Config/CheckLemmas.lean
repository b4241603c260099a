import Verif.Spec.Start
import Verif.Config.Tree
import Verif.Props.Methods

/-!
# The checks of the configuration: lemmas
-/

namespace Fastd.Config.Spec

open Fastd.Config (Bytes lit collectLoop fillMethods MRes CInv collectLoop_inv fillMethods_spec)
open Fastd.Config.Gram
open Fastd.Config.Exec
open Fastd.Config.Start

variable {D : Type} {env : SEnv D}

/-- The groups are those of the items, with other methods in the root group. -/
structure GroupsOf (env : Env D) (its : List (Nat × Item D)) (next : Nat) (root : List Bytes) (gs : List Exec.Group) : Prop where
  count : gs.length = next
  group : ∀ g, g < next → gs[g]? = some { groupSpec env its g with methods := if g = 0 then root else (groupSpec env its g).methods }

theorem GroupsOf.get {env : Env D} {its : List (Nat × Item D)} {next root gs} (h : GroupsOf env its next root gs) {g gr} (hg : gs[g]? = some gr) :
    g < next ∧ gr = { groupSpec env its g with methods := if g = 0 then root else (groupSpec env its g).methods } := by
  have hlt : g < gs.length := (List.getElem?_eq_some_iff.1 hg).1
  rw [h.count] at hlt
  have := h.group g hlt
  rw [hg] at this
  exact ⟨hlt, Option.some.inj this⟩

theorem GroupsOf.tree {env : Env D} {its : List (Nat × Item D)} {next root gs} (h : GroupsOf env its next root gs) (hw : Whole its next) : Tree gs :=
  tree_of (env := env) hw h.count fun g gr hg => by rw [(h.get hg).2]; exact ⟨rfl, rfl⟩

theorem groupsOf_meets {env : Env D} {its : List (Nat × Item D)} {next} {st : St D} (h : Meets env its next st) :
    GroupsOf env its next (groupSpec env its 0).methods st.groups := by
  refine ⟨h.count, fun g hg => ?_⟩
  rw [h.group g hg]
  by_cases h0 : g = 0
  · subst h0; simp
  · simp [h0]

theorem groupsOf_null {env : Env D} {its : List (Nat × Item D)} {next} {st : St D} (h : Meets env its next st) (hm : (groupSpec env its 0).methods = []) :
    GroupsOf env its next [lit "null"] (setGroup st 0 fun gr => addMethod gr (lit "null")).groups := by
  refine ⟨by simpa [setGroup] using h.count, fun g hg => ?_⟩
  simp only [setGroup, List.getElem?_modify]
  by_cases h0 : g = 0
  · subst h0
    rw [h.group 0 hg]
    simp [addMethod, hm]
  · rw [h.group g hg]
    simp [h0, Ne.symm h0]

/-! ## Methods -/

theorem methods_nil {env : Env D} {its : List (Nat × Item D)} {g} : (groupSpec env its g).methods = [] ↔ ¬ HasMethod its g := by
  have : ∀ l : List Bytes, l.eraseDups = [] ↔ l = [] := by
    intro l
    cases l with
    | nil => simp
    | cons a l => simp [List.eraseDups_cons]
  simp only [groupSpec, this, List.filterMap_eq_nil_iff, own, List.mem_filter, decide_eq_true_eq, HasMethod, not_exists, not_and]
  constructor
  · intro h x hx hg; rw [h x ⟨hx, hg⟩]; simp
  · intro h x hx
    have := h x hx.1 hx.2
    simpa using this

theorem mem_methods {env : Env D} {its : List (Nat × Item D)} {g n} : n ∈ (groupSpec env its g).methods ↔ ∃ x ∈ its, x.1 = g ∧ theMethod x.2 = some n := by
  simp [groupSpec, own, List.mem_eraseDups, and_assoc]

theorem collect_fold (f : Nat → List Bytes) : ∀ (l : List Nat) (acc : List Bytes × Nat), CInv acc →
    CInv (l.foldl (fun acc x => collectLoop (f x) acc) acc) ∧ ∀ n, n ∈ (l.foldl (fun acc x => collectLoop (f x) acc) acc).1 ↔ n ∈ acc.1 ∨ ∃ x ∈ l, n ∈ f x := by
  intro l
  induction l with
  | nil => intro acc h; exact ⟨h, by simp⟩
  | cons x l ih =>
    intro acc h
    obtain ⟨h1, h2⟩ := collectLoop_inv (f x) acc h
    obtain ⟨h3, h4⟩ := ih _ h1
    refine ⟨h3, fun n => ?_⟩
    rw [List.foldl_cons, h4, h2]
    simp [or_assoc]

theorem mapM_spec {α β} (f : α → Option β) : ∀ l : List α, match l.mapM f with
    | none => ∃ n ∈ l, f n = none
    | some ms => (l.zip ms).map Prod.fst = l ∧ ∀ x ∈ l.zip ms, f x.1 = some x.2 := by
  intro l
  induction l with
  | nil => simp
  | cons n ns ih =>
    simp only [List.mapM_cons, Option.bind_eq_bind]
    cases hc : f n with
    | none => exact ⟨n, by simp, hc⟩
    | some m =>
      cases hm : ns.mapM f with
      | none =>
        rw [hm] at ih
        obtain ⟨x, hx, hx2⟩ := ih
        exact ⟨x, by simp [hx], hx2⟩
      | some ms =>
        rw [hm] at ih
        simp only [Option.bind_some, Option.pure_def, List.zip_cons_cons, List.map_cons, ih.1, true_and, List.mem_cons, forall_eq_or_imp]
        exact ⟨hc, ih.2⟩

/-- The names of the methods -/
def Names (its : List (Nat × Item D)) (root : List Bytes) (n : Bytes) : Prop := n ∈ root ∨ ∃ x ∈ its, x.1 ≠ 0 ∧ theMethod x.2 = some n

theorem GroupsOf.names {env : Env D} {its : List (Nat × Item D)} {next root gs} (h : GroupsOf env its next root gs) (hw : Whole its next) (n : Bytes) :
    (∃ x, x < next ∧ n ∈ (gs[x]?.map fun gr => gr.methods).getD []) ↔ Names its root n := by
  constructor
  · rintro ⟨x, hx, hn⟩
    rw [h.group x hx] at hn
    simp only [Option.map_some, Option.getD_some] at hn
    split at hn
    · exact .inl hn
    · rename_i h0
      obtain ⟨y, hy, rfl, hm⟩ := mem_methods.1 hn
      exact .inr ⟨y, hy, h0, hm⟩
  · rintro (hn | ⟨y, hy, h0, hm⟩)
    · refine ⟨0, hw.pos, ?_⟩
      rw [h.group 0 hw.pos]
      simpa using hn
    · refine ⟨y.1, hw.lt y hy, ?_⟩
      rw [h.group _ (hw.lt y hy)]
      simp only [Option.map_some, Option.getD_some, if_neg h0]
      exact mem_methods.2 ⟨y, hy, rfl, hm⟩

/-- `configure_methods` -/
theorem configureMethods_spec {its : List (Nat × Item D)} {next root gs} (h : GroupsOf env.toEnv its next root gs) (hw : Whole its next) :
    (∃ l : List (Bytes × Provider), Start.configureMethods env gs = some (.ok (l.map some ++ [none])) ∧ (l.map (·.1)).Nodup ∧
      (∀ n, n ∈ l.map (·.1) ↔ Names its root n) ∧ ∀ x ∈ l, env.create x.1 = some x.2) ∨
    (Start.configureMethods env gs = some .exit ∧ ∃ n, Names its root n ∧ env.create n = none) := by
  obtain ⟨l, h1, h2⟩ := order_zero (h.tree hw)
  have hc := collect_order gs gs.length 0 l h1 ([], 0)
  obtain ⟨⟨h3, h4⟩, h5⟩ := collect_fold (fun x => (gs[x]?.map fun gr => gr.methods).getD []) l ([], 0) ⟨List.nodup_nil, rfl⟩
  have h6 : ∀ n, n ∈ (l.foldl (fun acc x => collectLoop ((gs[x]?.map fun gr => gr.methods).getD []) acc) ([], 0)).1 ↔ Names its root n := by
    intro n
    rw [h5, ← h.names hw]
    simp only [List.not_mem_nil, false_or, h2.mem_iff, List.mem_range, h.count]
  unfold Start.configureMethods
  rw [hc]
  generalize List.foldl (fun acc x => collectLoop ((gs[x]?.map fun gr => gr.methods).getD []) acc) ([], 0) l = acc at *
  obtain ⟨list, count⟩ := acc
  simp only at h3 h4 h6
  simp only [h4]
  have hf := fillMethods_spec env.create list [] 1
  simp only [List.nil_append, List.length_nil] at hf
  rw [hf]
  have hk := mapM_spec env.create list
  cases hm : list.mapM env.create with
  | none =>
    rw [hm] at hk
    obtain ⟨n, hn, hn2⟩ := hk
    exact .inr ⟨rfl, n, (h6 n).1 hn, hn2⟩
  | some ms =>
    rw [hm] at hk
    refine .inl ⟨list.zip ms, rfl, by rw [hk.1]; exact h3, fun n => ?_, hk.2⟩
    rw [hk.1, h6 n]

/-- `has_peer_group_peer_dirs` -/
theorem hasPeerDirs_spec {env : Env D} {its : List (Nat × Item D)} {next root gs} (h : GroupsOf env its next root gs) (hw : Whole its next) :
    ∃ b, hasPeerDirs gs gs.length 0 = some b ∧ (b = true ↔ ∃ x ∈ its, (theDir env x.2).isSome) := by
  obtain ⟨l, h1, h2⟩ := order_zero (h.tree hw)
  refine ⟨_, hasPeerDirs_order gs gs.length 0 l h1, ?_⟩
  simp only [List.any_eq_true, h2.mem_iff, List.mem_range, h.count]
  have key : ∀ g, (groupSpec env its g).peerDirs.isEmpty = false ↔ ∃ x ∈ its, x.1 = g ∧ (theDir env x.2).isSome := by
    intro g
    rw [List.isEmpty_eq_false_iff]
    simp only [groupSpec, ne_eq, List.reverse_eq_nil_iff, List.filterMap_eq_nil_iff, own, List.mem_filter, decide_eq_true_eq, not_forall]
    constructor
    · rintro ⟨x, ⟨hx, hg⟩, hn⟩; exact ⟨x, hx, hg, Option.isSome_iff_ne_none.2 hn⟩
    · rintro ⟨x, hx, hg, hn⟩; exact ⟨x, ⟨hx, hg⟩, Option.isSome_iff_ne_none.1 hn⟩
  constructor
  · rintro ⟨g, hg, hb⟩
    rw [h.group g hg] at hb
    simp only [Option.map_some, Option.getD_some, Bool.not_eq_true'] at hb
    obtain ⟨x, hx, _, hd⟩ := (key g).1 hb
    exact ⟨x, hx, hd⟩
  · rintro ⟨x, hx, hd⟩
    refine ⟨x.1, hw.lt x hx, ?_⟩
    rw [h.group _ (hw.lt x hx)]
    simp only [Option.map_some, Option.getD_some, Bool.not_eq_true']
    exact (key x.1).2 ⟨x, hx, rfl, hd⟩

/-! ## Lookup in the groups around a group -/

theorem origin_zero {its : List (Nat × Item D)} {next} (hw : Whole its next) : origin 0 its = none := by
  rw [Option.eq_none_iff_forall_not_mem]
  rintro ⟨p, name⟩ ho
  have := hw.outer _ ((origin_iff (by rw [hw.subs]; exact List.nodup_range')).1 ho) 0 rfl
  omega

theorem origin_pos {its : List (Nat × Item D)} {next} (hw : Whole its next) {g} (h0 : g ≠ 0) (hg : g < next) :
    ∃ p name, origin g its = some (p, name) ∧ (p, Item.sub g name) ∈ its ∧ p < g := by
  have : g ∈ subs its := by rw [hw.subs, List.mem_range'_1]; omega
  obtain ⟨⟨p, it⟩, hm, he⟩ := List.mem_filterMap.1 this
  cases it <;> simp [theSub] at he
  rename_i n name
  subst he
  exact ⟨p, name, (origin_iff (by rw [hw.subs]; exact List.nodup_range')).2 hm, hm, hw.outer _ hm _ rfl⟩

theorem lookup_spec {α} {env : Env D} {its : List (Nat × Item D)} {next root gs} (h : GroupsOf env its next root gs) (hw : Whole its next)
    (attr : Exec.Group → Option α) (P : Nat → Option α → Prop)
    (own : ∀ g gr a, gs[g]? = some gr → attr gr = some a → P g (some a))
    (outer : ∀ g p name gr a, gs[g]? = some gr → attr gr = none → (p, Item.sub g name) ∈ its → P p a → P g a)
    (zero : ∀ gr, gs[0]? = some gr → attr gr = none → P 0 none) :
    ∀ k g, g < next → g < k → ∃ a, lookup gs attr k g = some a ∧ P g a := by
  intro k
  induction k with
  | zero => intro g _ h; omega
  | succ k ih =>
    intro g hg hk
    obtain ⟨gr, hgr, hpar⟩ : ∃ gr, gs[g]? = some gr ∧ gr.parent = (origin g its).map (·.1) := ⟨_, h.group g hg, rfl⟩
    simp only [lookup, hgr, hpar]
    by_cases h0 : g = 0
    · subst h0
      simp only [origin_zero hw, Option.map_none]
      refine ⟨_, rfl, ?_⟩
      cases ha : attr gr with
      | none => exact zero gr hgr ha
      | some a => exact own 0 gr a hgr ha
    · obtain ⟨p, name, ho, hm, hp⟩ := origin_pos hw h0 hg
      simp only [ho, Option.map_some]
      cases ha : attr gr with
      | some a => exact ⟨_, rfl, own g gr a hgr ha⟩
      | none =>
        obtain ⟨a, h1, h2⟩ := ih p (by omega) (by omega)
        exact ⟨a, h1, outer g p name gr a hgr ha hm h2⟩

theorem methodsAttr_some {gr a} : methodsAttr gr = some a ↔ gr.methods = a ∧ a ≠ [] := by
  unfold methodsAttr
  split
  · rename_i h
    simp only [reduceCtorEq, false_iff, not_and, not_not]
    rintro rfl; exact h
  · rename_i h
    simp only [Option.some.injEq]
    constructor
    · rintro rfl; exact ⟨rfl, h⟩
    · exact fun h => h.1

theorem methods_lookup {env : Env D} {its : List (Nat × Item D)} {next root gs} (h : GroupsOf env its next root gs) (hw : Whole its next)
    (hr : root = if (groupSpec env its 0).methods = [] then [lit "null"] else (groupSpec env its 0).methods) {g} (hg : g < next) :
    ∃ ms, MethodsOf its g ms ∧ lookup gs methodsAttr gs.length g = some (some ms) := by
  have hne : root ≠ [] := by rw [hr]; split <;> simp_all
  obtain ⟨a, h1, h2⟩ := lookup_spec h hw methodsAttr (fun g a => ∃ ms, a = some ms ∧ MethodsOf its g ms)
    (by
      intro g gr a hgr ha
      obtain ⟨hlt, rfl⟩ := h.get hgr
      refine ⟨a, rfl, ?_⟩
      obtain ⟨ha, hn⟩ := methodsAttr_some.1 ha
      by_cases h0 : g = 0
      · subst h0
        simp only [if_true] at ha
        rw [← ha, hr]
        split
        · rename_i he; exact .null (methods_nil.1 he)
        · rename_i he
          exact .own (Classical.not_not.1 fun hc => he (methods_nil.2 hc))
      · simp only [if_neg h0] at ha
        rw [← ha]
        exact .own (Classical.not_not.1 fun hc => hn (ha.symm.trans (methods_nil.2 hc))))
    (by
      rintro g p name gr a hgr ha hm ⟨ms, rfl, hP⟩
      obtain ⟨hlt, rfl⟩ := h.get hgr
      refine ⟨ms, rfl, .outer ?_ hm hP⟩
      have h0 : g ≠ 0 := by have := hw.outer _ hm g rfl; omega
      simp only [methodsAttr, if_neg h0] at ha
      split at ha
      · rename_i hn; exact methods_nil.1 hn
      · cases ha)
    (by
      intro gr hgr ha
      obtain ⟨hlt, rfl⟩ := h.get hgr
      simp [methodsAttr, hne] at ha)
    gs.length g hg (by rw [h.count]; exact hg)
  obtain ⟨ms, rfl, h3⟩ := h2
  exact ⟨ms, h3, h1⟩

theorem cmd_lookup {env : Env D} {its : List (Nat × Item D)} {next root gs} (h : GroupsOf env its next root gs) (hw : Whole its next) {ev} (hev : ev ≠ .verify)
    {g} (hg : g < next) : ∃ c, CmdOf env ev its g c ∧ lookup gs (cmdAttr ev) gs.length g = some c := by
  have key : ∀ g gr, gs[g]? = some gr → cmdAttr ev gr = last (theCmd env ev) (own g its) := by
    intro g gr hgr
    obtain ⟨_, rfl⟩ := h.get hgr
    cases ev <;> first | rfl | exact absurd rfl hev
  obtain ⟨c, h1, h2⟩ := lookup_spec h hw (cmdAttr ev) (CmdOf env ev its)
    (fun g gr a hgr ha => .own ((key g gr hgr).symm.trans ha))
    (fun g p name gr a hgr ha hm hP => .outer ((key g gr hgr).symm.trans ha) hm hP)
    (fun gr hgr ha => .none ((key 0 gr hgr).symm.trans ha))
    gs.length g hg (by rw [h.count]; exact hg)
  exact ⟨c, h2, h1⟩

/-! ## Sizes -/

theorem largest_foldl {α} (f : α → Nat) : ∀ (l : List α) (a : Nat), (∀ x ∈ l.map f, x ≤ l.foldl (fun a x => max a (f x)) a) ∧ a ≤ l.foldl (fun a x => max a (f x)) a ∧
    (l.foldl (fun a x => max a (f x)) a ∈ l.map f ∨ l.foldl (fun a x => max a (f x)) a = a) := by
  intro l
  induction l with
  | nil => intro a; simp
  | cons x l ih =>
    intro a
    obtain ⟨h1, h2, h3⟩ := ih (max a (f x))
    simp only [List.foldl_cons, List.map_cons, List.mem_cons, forall_eq_or_imp]
    refine ⟨⟨by omega, h1⟩, by omega, ?_⟩
    rcases h3 with h3 | h3
    · exact .inl (.inr h3)
    · rw [h3]
      omega

theorem largest {α} (f : α → Nat) (l : List α) : Largest (l.map f) (l.foldl (fun a x => max a (f x)) 0) := by
  obtain ⟨h1, _, h3⟩ := largest_foldl f l 0
  refine ⟨h1, ?_⟩
  cases l with
  | nil => right; simp
  | cons x l =>
    rcases h3 with h3 | h3
    · exact .inl h3
    · have := h1 (f x) (by simp)
      left
      rw [h3] at this ⊢
      simp only [List.map_cons, List.mem_cons]
      left; omega

theorem rounded (v : Nat) : Rounded v (alignto v 16) := by
  unfold alignto
  refine ⟨⟨_, Nat.mul_comm _ _⟩, ?_, ?_⟩ <;> omega

theorem fold3 (l : List (Bytes × Provider)) : ∀ o e d,
    l.foldl (fun (m : Nat × Nat × Nat) x => (max m.1 x.2.overhead, max m.2.1 x.2.encryptHeadroom, max m.2.2 x.2.decryptHeadroom)) (o, e, d) =
    (l.foldl (fun a x => max a x.2.overhead) o, l.foldl (fun a x => max a x.2.encryptHeadroom) e, l.foldl (fun a x => max a x.2.decryptHeadroom) d) := by
  induction l with
  | nil => intros; rfl
  | cons x l ih => intro o e d; simp only [List.foldl_cons]; exact ih _ _ _

theorem parameters_spec (l : List (Bytes × Provider)) : parameters (l.map some ++ [none]) =
    (l.foldl (fun a x => max a x.2.overhead) 0, alignto (l.foldl (fun a x => max a x.2.encryptHeadroom) 0) 16, alignto (l.foldl (fun a x => max a x.2.decryptHeadroom) 0) 16 + 8) := by
  have h1 : ((l.map some ++ [none] : List (Option (Bytes × Provider))).takeWhile (·.isSome)).filterMap id = l := by
    induction l with
    | nil => rfl
    | cons x l ih => simpa using ih
  simp only [parameters, h1]
  have := fold3 l 0 0 0
  rw [this]

/-! ## User -/

theorem configureUser_some {c : Conf} {its : List (Nat × Item D)} (hu : c.user = last theUser its) (hg : c.group = last theGroup its) (he : env.useUser = true) {uid gid groups} :
    configureUser env c = some (uid, gid, groups) ↔ Ids env its uid gid groups := by
  unfold configureUser
  rw [if_pos he, hu, hg]
  constructor
  · intro h
    cases h1 : last theUser its with
    | none =>
      simp only [h1] at h
      cases h2 : last theGroup its with
      | none =>
        simp only [h2, Option.some.injEq, Prod.mk.injEq] at h
        obtain ⟨rfl, rfl, rfl⟩ := h
        exact ⟨by simp [h1], fun _ => ⟨rfl, fun _ => rfl, rfl⟩, by simp [h2]⟩
      | some g =>
        simp only [h2] at h
        cases h3 : env.grp g with
        | none => simp [h3] at h
        | some gid' =>
          simp only [h3, Option.some.injEq, Prod.mk.injEq] at h
          obtain ⟨rfl, rfl, rfl⟩ := h
          exact ⟨by simp [h1], fun _ => ⟨rfl, by simp [h2], rfl⟩, by simpa [h2] using h3⟩
    | some u =>
      simp only [h1] at h
      cases h4 : env.passwd u with
      | none => simp [h4] at h
      | some x =>
        obtain ⟨uid', gid'⟩ := x
        simp only [h4] at h
        cases h2 : last theGroup its with
        | none =>
          simp only [h2] at h
          cases h5 : env.grouplist u gid' with
          | none => simp [h5] at h
          | some l =>
            simp only [h5, Option.some.injEq, Prod.mk.injEq] at h
            obtain ⟨rfl, rfl, rfl⟩ := h
            refine ⟨?_, by simp [h1], by simp [h2]⟩
            intro u' hu'
            rw [h1] at hu'; cases hu'
            exact ⟨_, h4, fun _ => rfl, h5⟩
        | some g =>
          simp only [h2] at h
          cases h3 : env.grp g with
          | none => simp [h3] at h
          | some gid'' =>
            simp only [h3] at h
            cases h5 : env.grouplist u gid'' with
            | none => simp [h5] at h
            | some l =>
              simp only [h5, Option.some.injEq, Prod.mk.injEq] at h
              obtain ⟨rfl, rfl, rfl⟩ := h
              refine ⟨?_, by simp [h1], by simpa [h2] using h3⟩
              intro u' hu'
              rw [h1] at hu'; cases hu'
              exact ⟨_, h4, by simp [h2], h5⟩
  · rintro ⟨h1, h2, h3⟩
    cases hU : last theUser its with
    | none =>
      obtain ⟨rfl, h4, rfl⟩ := h2 hU
      cases hG : last theGroup its with
      | none => simp [h4 hG]
      | some g => simp [h3 g hG]
    | some u =>
      obtain ⟨gid', h4, h5, h6⟩ := h1 u hU
      cases hG : last theGroup its with
      | none =>
        obtain rfl := h5 hG
        simp [h4, h6]
      | some g => simp [h4, h3 g hG, h6]

/-! ## Conditions -/

theorem last_some {α} {f : Item D → Option α} {its : List (Nat × Item D)} {a} (h : last f its = some a) : ∃ x ∈ its, f x.2 = some a := by
  have := List.mem_of_getLast? h
  simpa using this

theorem checkBase_iff {c : Conf} {its : List (Nat × Item D)} (hc : ConfSpec env.toEnv its c) (hv : ∀ x ∈ its, Valid env.toEnv x.2) :
    checkBase env.toEnv c = true ↔ Base env its := by
  have hoff : last theOffload its = some true → env.offloadL2tp = true := by
    intro h
    obtain ⟨⟨g, it⟩, hx, h1⟩ := last_some h
    have := hv _ hx
    cases it with
    | simple d s =>
      cases s <;> simp [theOffload] at h1
      subst h1
      simpa [Valid] using this
    | _ => simp [theOffload] at h1
  have hu : useOffload env.toEnv c = true ↔ last theOffload its = some true := by
    unfold useOffload
    rw [Bool.and_eq_true, hc.offload]
    constructor
    · rintro ⟨_, h⟩
      cases h' : last theOffload its with
      | none => simp [h'] at h
      | some b => simp [h'] at h; rw [h]
    · intro h
      exact ⟨hoff h, by simp [h]⟩
  unfold checkBase
  constructor
  · intro h
    refine ⟨fun hl => ?_⟩
    rw [if_pos (hu.2 hl)] at h
    simp only [Bool.and_eq_true, decide_eq_true_eq, Bool.not_eq_true'] at h
    rw [hc.mode, hc.persist] at h
    constructor
    · cases h' : last theMode its with
      | none => simp [h'] at h
      | some m => simp [h'] at h; rw [h.1]
    · cases h' : last thePersist its with
      | none => simp [h'] at h
      | some b => simp [h'] at h; rw [h.2]
  · rintro ⟨h⟩
    split
    · rename_i hh
      obtain ⟨h1, h2⟩ := h (hu.1 hh)
      simp [hc.mode, hc.persist, h1, h2]
    · rfl

theorem allowVerify_iff {env : Env D} {c : Conf} {its : List (Nat × Item D)} (hc : ConfSpec env its c) (hv : ∀ x ∈ its, Valid env x.2) :
    allowVerify env c = true ↔ ∃ x ∈ its, (theVerify env x).isSome := by
  unfold allowVerify
  rw [Bool.and_eq_true, hc.verify, Option.isSome_map, Option.isSome_iff_ne_none (o := List.getLast? _), ne_eq, List.getLast?_eq_none_iff]
  simp only [ne_eq, List.filterMap_eq_nil_iff, not_forall]
  constructor
  · rintro ⟨_, x, hx, h⟩; exact ⟨x, hx, Option.isSome_iff_ne_none.2 h⟩
  · rintro ⟨x, hx, h⟩
    refine ⟨?_, x, hx, Option.isSome_iff_ne_none.1 h⟩
    have := hv x hx
    obtain ⟨g, it⟩ := x
    cases it with
    | leaf d s =>
      cases s with
      | on ev sync cmd => cases ev <;> first | (simp [theVerify] at h; done) | simpa [Valid] using this
      | _ => simp [theVerify] at h
    | _ => simp [theVerify] at h

theorem peers_iff {env : Env D} {its : List (Nat × Item D)} : (its.filterMap (thePeer env)).isEmpty = false ↔ ∃ x ∈ its, ∃ name ss, x.2 = .peer name ss := by
  rw [List.isEmpty_eq_false_iff]
  simp only [ne_eq, List.filterMap_eq_nil_iff, not_forall]
  constructor
  · rintro ⟨⟨g, it⟩, hx, h⟩
    cases it with
    | peer name ss => exact ⟨_, hx, name, ss, rfl⟩
    | _ => simp [thePeer] at h
  · rintro ⟨⟨g, it⟩, hx, name, ss, rfl⟩
    exact ⟨_, hx, by simp [thePeer]⟩

/-! ## The checks -/

theorem DefaultLevel.conf {env : Env D} {c c' : Conf} (h : DefaultLevel c c') :
    c'.user = c.user ∧ c'.group = c.group ∧ c'.secret = c.secret ∧ checkBase env c' = checkBase env c ∧ allowVerify env c' = allowVerify env c ∧
    c'.mode = c.mode ∧ c'.persist = c.persist := by
  unfold DefaultLevel at h
  split at h <;> subst h <;> exact ⟨rfl, rfl, rfl, rfl, rfl, rfl, rfl⟩

/-- The methods of the root group -/
def rootMethods (env : Env D) (its : List (Nat × Item D)) : List Bytes :=
  if (groupSpec env its 0).methods = [] then [lit "null"] else (groupSpec env its 0).methods

theorem names_root {env : Env D} {its : List (Nat × Item D)} {n} : Names its (groupSpec env its 0).methods n ↔ ∃ x ∈ its, theMethod x.2 = some n := by
  unfold Names
  rw [mem_methods]
  constructor
  · rintro (⟨x, hx, _, h⟩ | ⟨x, hx, _, h⟩) <;> exact ⟨x, hx, h⟩
  · rintro ⟨x, hx, h⟩
    by_cases h0 : x.1 = 0
    · exact .inl ⟨x, hx, h0, h⟩
    · exact .inr ⟨x, hx, h0, h⟩

theorem names_needed {env : Env D} {its : List (Nat × Item D)} {n} : Names its (rootMethods env its) n ↔ Needed its n := by
  unfold rootMethods Needed
  split
  · rename_i h
    have h' := methods_nil.1 h
    rw [← names_root (env := env)]
    simp only [Names, h, List.mem_singleton, List.not_mem_nil, false_or, h', not_false_eq_true, and_true]
    exact or_comm
  · rename_i h
    have h' : HasMethod its 0 := Classical.not_not.1 fun hc => h (methods_nil.2 hc)
    rw [names_root]
    simp [h']

/-- The checks of `fastd_config_check` -/
structure Checked (env : SEnv D) (its : List (Nat × Item D)) : Prop where
  base : Base env its
  peers : MayHavePeers env.toEnv its
  methods : ∀ n, Needed its n → (env.create n).isSome
  ids : env.useUser = true → ∃ uid gid groups, Ids env its uid gid groups

theorem check_spec {its : List (Nat × Item D)} {next} {st : St D} {c : Conf} (hl : DefaultLevel c st.conf) (hm : Meets env.toEnv its next { st with conf := c })
    (hw : Whole its next) (hv : ∀ x ∈ its, Valid env.toEnv x.2) :
    (check env st = .exit ∧ ¬ Checked env its) ∨
    ∃ r, check env st = .running r ∧ Checked env its ∧ Running env its r ∧ r.st.peers = its.filterMap (thePeer env.toEnv) ∧ r.st.conf = st.conf ∧
      GroupsOf env.toEnv its next (rootMethods env.toEnv its) r.st.groups := by
  obtain ⟨l1, l2, l3, l4, l5, _, _⟩ := DefaultLevel.conf (env := env.toEnv) hl
  have hc : ConfSpec env.toEnv its c := hm.conf
  have hg : GroupsOf env.toEnv its next (groupSpec env.toEnv its 0).methods st.groups := groupsOf_meets (st := { st with conf := c }) hm
  have hb := checkBase_iff hc hv
  rw [← l4] at hb
  unfold check
  cases h1 : checkBase env.toEnv st.conf with
  | false =>
    left
    refine ⟨by simp, fun h => ?_⟩
    rw [h1] at hb
    exact absurd (hb.2 h.base) (by simp)
  | true =>
    obtain ⟨b, h2, h3⟩ := hasPeerDirs_spec hg hw
    simp only [Bool.not_true, Bool.false_eq_true, if_false, h2]
    have hp : (st.peers.isEmpty && !b && !allowVerify env.toEnv st.conf) = false ↔ MayHavePeers env.toEnv its := by
      have e1 := peers_iff (env := env.toEnv) (its := its)
      have e2 := allowVerify_iff hc hv
      have e3 : st.peers = its.filterMap (thePeer env.toEnv) := hm.peers
      rw [l5, e3]
      unfold MayHavePeers
      rw [← e1, ← h3, ← e2]
      cases (its.filterMap (thePeer env.toEnv)).isEmpty <;> cases b <;> cases allowVerify env.toEnv c <;> simp
    cases h4 : (st.peers.isEmpty && !b && !allowVerify env.toEnv st.conf) with
    | true =>
      left
      refine ⟨by simp, fun h => ?_⟩
      rw [h4] at hp
      exact absurd (hp.2 h.peers) (by simp)
    | false =>
      simp only [Bool.false_eq_true, if_false]
      have h0 : st.groups[0]? = some (groupSpec env.toEnv its 0) := hm.group 0 hw.pos
      simp only [h0]
      obtain ⟨st', hst', hg', hp', hc'⟩ : ∃ st', (if (groupSpec env.toEnv its 0).methods.isEmpty = true then setGroup st 0 fun gr => addMethod gr (lit "null") else st) = st' ∧
          GroupsOf env.toEnv its next (rootMethods env.toEnv its) st'.groups ∧ st'.peers = its.filterMap (thePeer env.toEnv) ∧ st'.conf = st.conf := by
        refine ⟨_, rfl, ?_, ?_, ?_⟩
        · unfold rootMethods
          by_cases he : (groupSpec env.toEnv its 0).methods = []
          · rw [if_pos he, if_pos (List.isEmpty_iff.2 he)]
            exact groupsOf_null (st := { st with conf := c }) hm he
          · rw [if_neg he, if_neg (fun h => he (List.isEmpty_iff.1 h))]
            exact hg
        · split
          · exact hm.peers
          · exact hm.peers
        · split <;> rfl
      rw [hst']
      have hu := configureUser_some (env := env) (c := st'.conf) (its := its) (by rw [hc', l1, hc.user]) (by rw [hc', l2, hc.group])
      cases h5 : configureUser env st'.conf with
      | none =>
        left
        refine ⟨rfl, fun h => ?_⟩
        by_cases he : env.useUser = true
        · obtain ⟨uid, gid, groups, hi⟩ := h.ids he
          rw [← hu he, h5] at hi
          cases hi
        · unfold configureUser at h5
          rw [if_neg he] at h5
          cases h5
      | some x =>
        obtain ⟨uid, gid, groups⟩ := x
        simp only
        have hids : env.useUser = true → Ids env its uid gid groups := fun he => (hu he).1 h5
        rcases configureMethods_spec hg' hw with ⟨l, h6, h7, h8, h9⟩ | ⟨h6, n, h7, h8⟩
        · right
          simp only [h6]
          refine ⟨_, rfl, ⟨hb.1 h1, hp.1 h4, ?_, fun he => ⟨uid, gid, groups, hids he⟩⟩, ⟨hids, ⟨l, rfl, h7, ?_, h9, ?_⟩⟩, hp', hc', hg'⟩
          · intro n hn
            rw [← names_needed (env := env.toEnv), ← h8, List.mem_map] at hn
            obtain ⟨x, hx, rfl⟩ := hn
            rw [h9 x hx]; rfl
          · intro n
            rw [h8, names_needed]
          · rw [parameters_spec]
            refine ⟨largest (fun x : Bytes × Provider => x.2.overhead) l, ⟨_, largest (fun x : Bytes × Provider => x.2.encryptHeadroom) l, rounded _⟩,
              _, _, largest (fun x : Bytes × Provider => x.2.decryptHeadroom) l, rounded _, rfl⟩
        · left
          simp only [h6]
          refine ⟨trivial, fun h => ?_⟩
          have := h.methods n (names_needed.1 h7)
          rw [h8] at this
          cases this

theorem verify_spec {its : List (Nat × Item D)} {next} {st : St D} {c : Conf} (hl : DefaultLevel c st.conf) (hm : Meets env.toEnv its next { st with conf := c })
    (hw : Whole its next) (hv : ∀ x ∈ its, Valid env.toEnv x.2) :
    (verify env st = .exit ∧ ¬ (Base env its ∧ ∀ x ∈ its, ∀ n, theMethod x.2 = some n → (env.create n).isSome)) ∨
    (verify env st = .verified ∧ Base env its ∧ ∀ x ∈ its, ∀ n, theMethod x.2 = some n → (env.create n).isSome) := by
  obtain ⟨_, _, _, l4, _⟩ := DefaultLevel.conf (env := env.toEnv) hl
  have hc : ConfSpec env.toEnv its c := hm.conf
  have hg : GroupsOf env.toEnv its next (groupSpec env.toEnv its 0).methods st.groups := groupsOf_meets (st := { st with conf := c }) hm
  have hb := checkBase_iff hc hv
  rw [← l4] at hb
  unfold verify
  cases h1 : checkBase env.toEnv st.conf with
  | false =>
    left
    refine ⟨by simp, fun h => ?_⟩
    rw [h1] at hb
    exact absurd (hb.2 h.1) (by simp)
  | true =>
    simp only [Bool.not_true, Bool.false_eq_true, if_false]
    rcases configureMethods_spec hg hw with ⟨l, h6, h7, h8, h9⟩ | ⟨h6, n, h7, h8⟩
    · right
      simp only [h6]
      refine ⟨trivial, hb.1 h1, fun x hx n hn => ?_⟩
      have : n ∈ l.map (·.1) := (h8 n).2 (names_root.2 ⟨x, hx, hn⟩)
      obtain ⟨y, hy, rfl⟩ := List.mem_map.1 this
      rw [h9 y hy]; rfl
    · left
      simp only [h6]
      refine ⟨trivial, fun h => ?_⟩
      obtain ⟨x, hx, hn⟩ := names_root.1 h7
      have := h.2 x hx n hn
      rw [h8] at this
      cases this

end Fastd.Config.Spec
