import Verif.Config.Methods
import Mathlib.Data.List.Dedup

/-!
# C53: configured methods are collected without duplicates
-/

namespace Fastd.Config

/-! ## Specification -/

/-- The statements of a configuration file concerning methods and groups. -/
inductive Stmt
  | method (name : Name)
  | group (body : List Stmt)

mutual
/-- The parser actions for a statement. -/
def Stmt.ops : Stmt → List Op
  | .method n => [.method n]
  | .group b => .push :: (opsAll b ++ [.pop])
def opsAll : List Stmt → List Op
  | [] => []
  | s :: ss => s.ops ++ opsAll ss
end

/-- The method names given directly in a group's body, in order. -/
def direct : List Stmt → List Name
  | [] => []
  | .method n :: ss => n :: direct ss
  | .group _ :: ss => direct ss

/-- Keep the first occurrence of every name. -/
def firsts : List Name → List Name
  | [] => []
  | n :: ns => n :: (firsts ns).filter (· ≠ n)

mutual
/-- All names in a body including its subgroups. -/
def Stmt.names : Stmt → List Name
  | .method n => [n]
  | .group b => namesAll b
def namesAll : List Stmt → List Name
  | [] => []
  | s :: ss => s.names ++ namesAll ss
end

mutual
/-- `IsGroup g body`: the group `g` represents the body: its method list is the list of the names given
directly in it without repetitions, and its subgroups, which are stored in reverse order, represent
the subgroups of the body. -/
inductive IsGroup : Group → List Stmt → Prop
  | mk {g : Group} {body : List Stmt} : g.methods = firsts (direct body) →
      AreGroups g.children body.reverse → IsGroup g body
/-- The groups represent the `group` statements of the list, which is in reverse order. -/
inductive AreGroups : List Group → List Stmt → Prop
  | nil : AreGroups [] []
  | method {n : Name} {gs : List Group} {ss : List Stmt} : AreGroups gs ss → AreGroups gs (.method n :: ss)
  | group {g : Group} {b : List Stmt} {gs : List Group} {ss : List Stmt} : IsGroup g b → AreGroups gs ss →
      AreGroups (g :: gs) (.group b :: ss)
end

/-! ## Lemmas -/

def run (s : PState) (ops : List Op) : PState := ops.foldl PState.step s

theorem run_append (s : PState) (a b : List Op) : run s (a ++ b) = run (run s a) b := by
  simp [run, List.foldl_append]

theorem configMethod_eq (l : List Name) (n : Name) :
    configMethod l n = if n ∈ l then l else l ++ [n] := by
  induction l with
  | nil => simp [configMethod]
  | cons m ms ih =>
    rw [configMethod]
    by_cases h : m = n
    · simp [h]
    · rw [if_neg h, ih]
      by_cases h2 : n ∈ ms
      · simp [h2]
      · simp [h2, Ne.symm h]

theorem mem_firsts (l : List Name) (n : Name) : n ∈ firsts l ↔ n ∈ l := by
  induction l with
  | nil => simp [firsts]
  | cons m ms ih =>
    simp only [firsts, List.mem_cons, List.mem_filter, ih, decide_eq_true_eq, ne_eq]
    by_cases h : n = m <;> simp [h]

theorem nodup_firsts (l : List Name) : (firsts l).Nodup := by
  induction l with
  | nil => simp [firsts]
  | cons m ms ih =>
    simp only [firsts, List.nodup_cons, List.mem_filter, decide_eq_true_eq, ne_eq, not_true, and_false,
      not_false_eq_true, true_and]
    exact ih.filter _

theorem firsts_append (l : List Name) (n : Name) : firsts (l ++ [n]) = configMethod (firsts l) n := by
  induction l with
  | nil => simp [firsts, configMethod]
  | cons m ms ih =>
    simp only [List.cons_append, firsts, ih, configMethod]
    by_cases h : m = n
    · subst h
      rw [if_pos rfl]
      congr 1
      rw [configMethod_eq]
      split
      · rfl
      · rw [List.filter_append]; simp
    · rw [if_neg h]
      congr 1
      rw [configMethod_eq, configMethod_eq]
      simp only [List.mem_filter, ne_eq, decide_eq_true_eq]
      by_cases h2 : n ∈ firsts ms
      · rw [if_pos h2, if_pos ⟨h2, Ne.symm h⟩]
      · rw [if_neg h2, if_neg (fun hh => h2 hh.1), List.filter_append]
        simp [Ne.symm h]

theorem direct_append (a b : List Stmt) : direct (a ++ b) = direct a ++ direct b := by
  induction a with
  | nil => rfl
  | cons s a ih => cases s <;> simp [direct, ih]

mutual
theorem run_stmt (s : Stmt) (cur : Group) (above : List Group) (body : List Stmt)
    (h : IsGroup cur body) :
    ∃ g, run ⟨cur, above⟩ s.ops = ⟨g, above⟩ ∧ IsGroup g (body ++ [s]) := by
  match s with
  | .method n =>
    refine ⟨_, rfl, ?_⟩
    cases h with
    | mk h1 h2 =>
      refine .mk ?_ ?_
      · rw [direct_append]
        simp only [direct, Group.methods, firsts_append]
        rw [← h1]; rfl
      · rw [List.reverse_append]
        exact .method h2
  | .group b =>
    obtain ⟨g, h1, h2⟩ := run_all b (.mk [] []) (cur :: above) []
      (.mk rfl (by exact .nil))
    refine ⟨.mk cur.methods (g :: cur.children), ?_, ?_⟩
    · rw [Stmt.ops, show (Op.push :: (opsAll b ++ [Op.pop])) = [Op.push] ++ (opsAll b ++ [Op.pop]) from rfl,
        run_append, run_append, show run ⟨cur, above⟩ [Op.push] = ⟨.mk [] [], cur :: above⟩ from rfl, h1]
      rfl
    · cases h with
      | mk h3 h4 =>
        refine .mk ?_ ?_
        · rw [direct_append]; simpa [direct, Group.methods] using h3
        · rw [List.reverse_append]
          exact .group (by simpa using h2) h4
theorem run_all (ss : List Stmt) (cur : Group) (above : List Group) (body : List Stmt)
    (h : IsGroup cur body) :
    ∃ g, run ⟨cur, above⟩ (opsAll ss) = ⟨g, above⟩ ∧ IsGroup g (body ++ ss) := by
  match ss with
  | [] => exact ⟨cur, rfl, by simpa using h⟩
  | s :: ss =>
    obtain ⟨g, h1, h2⟩ := run_stmt s cur above body h
    obtain ⟨g', h3, h4⟩ := run_all ss g above (body ++ [s]) h2
    refine ⟨g', ?_, by simpa using h4⟩
    rw [opsAll, run_append, h1, h3]
end

theorem stackContains_iff (l : List Name) (n : Name) : stackContains l n = true ↔ n ∈ l := by
  induction l with
  | nil => simp [stackContains]
  | cons m ms ih =>
    rw [stackContains]
    by_cases h : m = n
    · simp [h]
    · rw [if_neg h, ih]; simp [Ne.symm h]

/-- Invariant of `collect_methods`. -/
def CInv (acc : List Name × Nat) : Prop := acc.1.Nodup ∧ acc.2 = acc.1.length

theorem collectLoop_inv (ms : List Name) (acc : List Name × Nat) (h : CInv acc) :
    CInv (collectLoop ms acc) ∧ ∀ n, n ∈ (collectLoop ms acc).1 ↔ n ∈ acc.1 ∨ n ∈ ms := by
  induction ms generalizing acc with
  | nil => exact ⟨h, by simp [collectLoop]⟩
  | cons m ms ih =>
    obtain ⟨list, count⟩ := acc
    rw [collectLoop]
    have hc := stackContains_iff list m
    cases hs : stackContains list m with
    | true =>
      rw [hs] at hc
      have hm := hc.mp rfl
      obtain ⟨h1, h2⟩ := ih (list, count) h
      simp only [Bool.not_true, Bool.false_eq_true, if_false]
      refine ⟨h1, fun n => ?_⟩
      rw [h2 n]
      simp only [List.mem_cons]
      constructor
      · rintro (h | h); exacts [.inl h, .inr (.inr h)]
      · rintro (h | rfl | h); exacts [.inl h, .inl hm, .inr h]
    | false =>
      rw [hs] at hc
      have hm : m ∉ list := fun h => by simpa using hc.mpr h
      obtain ⟨h1, h2⟩ := ih (m :: list, count + 1) ⟨List.nodup_cons.mpr ⟨hm, h.1⟩, by
        have := h.2; simp only [List.length_cons] at this ⊢; omega⟩
      simp only [Bool.not_false, if_true]
      refine ⟨h1, fun n => ?_⟩
      rw [h2 n]
      simp only [List.mem_cons]
      constructor
      · rintro ((rfl | h) | h); exacts [.inr (.inl rfl), .inl h, .inr (.inr h)]
      · rintro (h | rfl | h); exacts [.inl (.inr h), .inl (.inl rfl), .inr h]

/-- The names given in the subgroups. -/
def subNames : List Stmt → List Name
  | [] => []
  | .method _ :: ss => subNames ss
  | .group b :: ss => namesAll b ++ subNames ss

theorem subNames_append (a b : List Stmt) : subNames (a ++ b) = subNames a ++ subNames b := by
  induction a with
  | nil => rfl
  | cons s a ih => cases s <;> simp [subNames, ih]

theorem mem_subNames_reverse (ss : List Stmt) (n : Name) : n ∈ subNames ss.reverse ↔ n ∈ subNames ss := by
  induction ss with
  | nil => rfl
  | cons s ss ih =>
    rw [List.reverse_cons, subNames_append, List.mem_append, ih]
    cases s with
    | method m => simp [subNames]
    | group b => simp only [subNames, List.append_nil, List.mem_append]; exact or_comm

theorem mem_namesAll (ss : List Stmt) (n : Name) : n ∈ namesAll ss ↔ n ∈ direct ss ∨ n ∈ subNames ss := by
  induction ss with
  | nil => simp [namesAll, direct, subNames]
  | cons s ss ih =>
    cases s with
    | method m =>
      simp only [namesAll, Stmt.names, List.mem_append, direct, subNames, ih,
        List.mem_cons, or_assoc, List.not_mem_nil, false_or]
    | group b =>
      simp only [namesAll, Stmt.names, List.mem_append, direct, subNames, ih]
      exact or_left_comm

mutual
theorem collect_inv (g : Group) (body : List Stmt) (hg : IsGroup g body) (acc : List Name × Nat)
    (h : CInv acc) :
    CInv (collect g acc) ∧ ∀ n, n ∈ (collect g acc).1 ↔ n ∈ acc.1 ∨ n ∈ namesAll body := by
  match g, hg with
  | .mk ms cs, .mk hm hc =>
    simp only [Group.methods, Group.children] at hm hc
    obtain ⟨h1, h2⟩ := collectLoop_inv ms acc h
    obtain ⟨h3, h4⟩ := collectAll_inv cs body.reverse hc (collectLoop ms acc) h1
    rw [collect]
    refine ⟨h3, fun n => ?_⟩
    rw [h4 n, h2 n, hm, mem_firsts, mem_subNames_reverse, mem_namesAll, or_assoc]
theorem collectAll_inv (gs : List Group) (ss : List Stmt) (hg : AreGroups gs ss) (acc : List Name × Nat)
    (h : CInv acc) :
    CInv (collectAll gs acc) ∧
      ∀ n, n ∈ (collectAll gs acc).1 ↔ n ∈ acc.1 ∨ n ∈ subNames ss := by
  match gs, ss, hg with
  | [], [], .nil => exact ⟨h, by simp [collectAll, subNames]⟩
  | gs, .method n :: ss, .method hg => exact collectAll_inv gs ss hg acc h
  | g :: gs, .group b :: ss, .group hg hgs =>
    obtain ⟨h1, h2⟩ := collect_inv g b hg acc h
    obtain ⟨h3, h4⟩ := collectAll_inv gs ss hgs (collect g acc) h1
    rw [collectAll]
    refine ⟨h3, fun n => ?_⟩
    rw [h4 n, h2 n, subNames, List.mem_append, or_assoc]
end

theorem fillMethods_spec {μ : Type} (create : Name → Option μ) (ns : List Name)
    (pre : List (Option (Name × μ))) (k : Nat) :
    fillMethods create ns pre.length (pre ++ List.replicate (ns.length + k) none) =
      match ns.mapM create with
      | none => .exit
      | some ms => .ok (pre ++ (ns.zip ms).map some ++ List.replicate k none) := by
  induction ns generalizing pre with
  | nil => simp [fillMethods]
  | cons n ns ih =>
    rw [fillMethods, if_pos (by simp; omega)]
    cases hc : create n with
    | none => simp [hc]
    | some m =>
      have h := ih (pre ++ [some (n, m)])
      simp only [List.length_append, List.length_cons, List.length_nil, Nat.zero_add] at h
      have he : (pre ++ List.replicate ((n :: ns).length + k) none).set pre.length (some (n, m)) =
          pre ++ [some (n, m)] ++ List.replicate (ns.length + k) none := by
        rw [List.length_cons, show ns.length + 1 + k = (ns.length + k) + 1 by omega,
          List.replicate_succ, List.set_append_right _ _ (Nat.le_refl _)]
        simp
      simp only []
      rw [he, h]
      simp only [List.mapM_cons, hc, Option.bind_eq_bind, Option.bind_some]
      cases hm : ns.mapM create with
      | none => rfl
      | some ms => simp

/-! ## The property -/

/-- The state before parsing: the root group is empty. -/
def PState.init : PState := ⟨.mk [] [], []⟩

/-- C53: after parsing any configuration, every group's method list is the list of the names given
directly in that group, in order and without repetitions. -/
theorem C53_groups (body : List Stmt) :
    ∃ g, run .init (opsAll body) = ⟨g, []⟩ ∧ IsGroup g body := by
  have h := run_all body (.mk [] []) [] [] (.mk rfl .nil)
  simpa [PState.init] using h

/-- C53: the array of supported methods is never overrun and ends with exactly one unset entry; the
names in it are pairwise different and are exactly the names given anywhere in the configuration, each
together with what `fastd_method_create_by_name` returned for it. Startup fails exactly if one of the
names is not supported. -/
theorem C53_table {μ : Type} (create : Name → Option μ) (body : List Stmt) (g : Group)
    (hg : run .init (opsAll body) = ⟨g, []⟩) :
    match configureMethods create g with
    | .ok arr => ∃ l : List (Name × μ), arr = l.map some ++ [none] ∧ (l.map Prod.fst).Nodup ∧
        (∀ n, n ∈ l.map Prod.fst ↔ n ∈ namesAll body) ∧ ∀ x ∈ l, create x.1 = some x.2
    | .exit => ∃ n ∈ namesAll body, create n = none
    | .overrun => False := by
  obtain ⟨g', h1, h2⟩ := C53_groups body
  rw [hg] at h1
  obtain rfl : g = g' := by injection h1
  obtain ⟨⟨h3, h4⟩, h5⟩ := collect_inv g body h2 ([], 0) ⟨List.nodup_nil, rfl⟩
  unfold configureMethods
  generalize collect g ([], 0) = acc at *
  obtain ⟨list, count⟩ := acc
  simp only [] at h3 h4 h5
  simp only [h4]
  have hf := fillMethods_spec create list [] 1
  simp only [List.nil_append, List.length_nil] at hf
  rw [hf]
  have key : ∀ (l : List Name), match l.mapM create with
      | none => ∃ n ∈ l, create n = none
      | some ms => (l.zip ms).map Prod.fst = l ∧ ∀ x ∈ l.zip ms, create x.1 = some x.2 := by
    intro l
    induction l with
    | nil => simp
    | cons n ns ih =>
      simp only [List.mapM_cons, Option.bind_eq_bind]
      cases hc : create n with
      | none => exact ⟨n, by simp, hc⟩
      | some m =>
        cases hm : ns.mapM create with
        | none =>
          rw [hm] at ih
          obtain ⟨x, hx, hx2⟩ := ih
          exact ⟨x, by simp [hx], hx2⟩
        | some ms =>
          rw [hm] at ih
          refine ⟨by simp [ih.1], ?_⟩
          intro x hx
          simp only [List.zip_cons_cons, List.mem_cons] at hx
          rcases hx with rfl | hx
          · exact hc
          · exact ih.2 x hx
  have hk := key list
  cases hm : list.mapM create with
  | none =>
    rw [hm] at hk
    obtain ⟨n, hn, hn2⟩ := hk
    refine ⟨n, ?_, hn2⟩
    have := (h5 n).mp hn
    simpa using this
  | some ms =>
    rw [hm] at hk
    refine ⟨list.zip ms, rfl, by rw [hk.1]; exact h3, fun n => ?_, hk.2⟩
    rw [hk.1, h5 n]
    simp

/-- C53: a group without methods of its own uses the methods of the nearest enclosing group that has
some (`own`, and `outer` from the innermost to the root). -/
theorem C53_inherit (own : List Name) (outer : List (List Name)) :
    lookupMethods (own :: outer) = ((own :: outer).find? (fun l => l ≠ [])).getD [] := by
  induction outer generalizing own with
  | nil => cases own <;> simp [lookupMethods]
  | cons p ps ih =>
    rw [lookupMethods, ih p]
    cases own <;> simp

/-! ## Examples -/

private def a : Name := [97]
private def b : Name := [98]

/-- `method "a"; peer group "x" { method "b"; method "a"; method "b"; } method "a";` -/
example : (run .init (opsAll [.method a, .group [.method b, .method a, .method b], .method a])).cur =
    .mk [a] [.mk [b, a] []] := rfl

example : configureMethods (fun n => some n.length) (.mk [a] [.mk [b, a] []]) =
    .ok [some (b, 1), some (a, 1), none] := rfl

example : configureMethods (fun n => if n = b then none else some ()) (.mk [a] [.mk [b, a] []]) = .exit := rfl

example : lookupMethods [[], [], [a, b], [b]] = [a, b] := rfl

end Fastd.Config
