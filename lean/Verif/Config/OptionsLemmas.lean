import Verif.Spec.Options
import Verif.Config.ExecConf
import Mathlib.Data.List.TakeWhile
import Mathlib.Data.List.Induction
import Mathlib.Tactic.Conv

/-! # Lemmas about command line options -/

namespace Fastd.Config.Spec

open Fastd.Config (Bytes lit strchr strrchr)
open Fastd.Config.Gram
open Fastd.Config.Exec
open Fastd.Config.Opt
open Fastd.Daemon (Addr simplify)

/-! ## Numbers -/

theorem isDigit_iff {c : UInt8} : isDigit c = true ↔ Digit c := by
  simp [isDigit, Digit, UInt8.le_iff_toNat_le]

theorem isSpace_iff {c : UInt8} : isSpace c = true ↔ Blank c := by
  simp only [isSpace, Blank, Bool.or_eq_true, Bool.and_eq_true, decide_eq_true_eq, UInt8.le_iff_toNat_le, ← UInt8.toNat_inj]
  rfl

theorem digits_snoc (ds : Bytes) (c : UInt8) : digits (ds ++ [c]) = 10 * digits ds + (c.toNat - 0x30) := by
  simp [digits]

theorem decimal_iff {ds : Bytes} {n : Nat} : Decimal ds n ↔ ds ≠ [] ∧ (∀ c ∈ ds, Digit c) ∧ n = digits ds := by
  constructor
  · intro h
    induction h with
    | one hc => exact ⟨by simp, by simpa using hc, by simp [digits]⟩
    | snoc _ hc ih =>
      obtain ⟨_, h2, h3⟩ := ih
      refine ⟨by simp, ?_, by rw [digits_snoc, h3]⟩
      intro x hx
      rcases List.mem_append.1 hx with hx | hx
      · exact h2 x hx
      · simp at hx; subst hx; exact hc
  · rintro ⟨h1, h2, rfl⟩
    induction ds using List.reverseRecOn with
    | nil => exact absurd rfl h1
    | append_singleton ds c ih =>
      by_cases h : ds = []
      · subst h
        have := Decimal.one (h2 c (by simp))
        simpa [digits] using this
      · rw [digits_snoc]
        exact .snoc (ih h fun x hx => h2 x (by simp [hx])) (h2 c (by simp))

theorem clamp_eq {v : Int} (h : 0 ≤ v) (h2 : v ≤ 65535) : clamp v = v := by
  unfold clamp
  rw [if_neg (by omega), if_neg (by omega)]

theorem clamp_inv {v : Int} (h : 0 ≤ clamp v) (h2 : clamp v ≤ 65535) : clamp v = v := by
  unfold clamp at *
  split at h2
  · rename_i h3; rw [if_pos h3] at h; omega
  · rename_i h3
    rw [if_neg h3]
    split at h2
    · omega
    · rename_i h4; rw [if_neg h4]

theorem dropWhile_all {α} {p : α → Bool} {l : List α} (h : l.dropWhile p = []) : ∀ x ∈ l, p x = true := by
  intro x hx
  rw [← List.takeWhile_append_dropWhile (p := p) (l := l), h, List.append_nil] at hx
  exact (List.mem_takeWhile_imp hx)

theorem takeWhile_all {α} {p : α → Bool} {l : List α} (h : ∀ x ∈ l, p x = true) : l.takeWhile p = l := by
  induction l with
  | nil => rfl
  | cons a l ih => rw [List.takeWhile_cons, if_pos (h a (by simp)), ih fun x hx => h x (by simp [hx])]

theorem digit_not_blank {c} (h : Digit c) : ¬ Blank c := by
  simp only [Digit, Blank] at *
  omega

theorem strtol_number {t : Bytes} {n : Nat} (h : Number t n) : strtol t = (clamp n, []) := by
  obtain ⟨sp, sign, ds, rfl, hsp, hsign, hd⟩ := h
  obtain ⟨hne, hdig, rfl⟩ := decimal_iff.1 hd
  have hdrop : ∀ q : Bytes, (∀ a r, q = a :: r → ¬ Blank a) → (sp ++ q).dropWhile isSpace = q := by
    intro q hq
    rw [List.dropWhile_append_of_pos (fun c hc => isSpace_iff.2 (hsp c hc))]
    cases q with
    | nil => rfl
    | cons a r => rw [List.dropWhile_cons, if_neg (by rw [isSpace_iff]; exact hq a r rfl)]
  have hall : ∀ x ∈ ds, isDigit x = true := fun c hc => isDigit_iff.2 (hdig c hc)
  have htw := takeWhile_all hall
  have hdw : ds.dropWhile isDigit = [] := List.dropWhile_eq_nil_iff.2 hall
  obtain ⟨c, cs, hc⟩ : ∃ c cs, ds = c :: cs := by
    cases ds with
    | nil => exact absurd rfl hne
    | cons c cs => exact ⟨c, cs, rfl⟩
  have hcd : Digit c := hdig c (by simp [hc])
  have hn45 : c ≠ 45 := by rintro rfl; simp [Digit] at hcd
  have hn43 : c ≠ 43 := by rintro rfl; simp [Digit] at hcd
  unfold strtol
  rcases hsign with rfl | rfl | ⟨rfl, h0⟩
  · simp only [List.append_nil]
    rw [hdrop ds (by rintro a r rfl; exact digit_not_blank (hdig a (by simp)))]
    simp only [hc, List.head?_cons, Option.some.injEq, hn45, hn43, decide_false, Bool.or_self, Bool.false_eq_true, if_false]
    rw [← hc, htw, hdw, if_neg hne]
  · rw [List.append_assoc, hdrop ([0x2b] ++ ds) (by rintro a r h; simp at h; rw [← h.1]; simp [Blank])]
    simp only [List.cons_append, List.nil_append, List.head?_cons, Option.some.injEq, List.drop_succ_cons, List.drop_zero]
    simp [htw, hdw, hne]
  · rw [List.append_assoc, hdrop ([0x2d] ++ ds) (by rintro a r h; simp at h; rw [← h.1]; simp [Blank])]
    simp only [List.cons_append, List.nil_append, List.head?_cons, Option.some.injEq, List.drop_succ_cons, List.drop_zero]
    simp [htw, hdw, hne, h0]

theorem strtol_iff {t : Bytes} {n : Nat} (hn : n ≤ 65535) : strtol t = ((n : Int), []) ↔ Number t n ∨ t = [] ∧ n = 0 := by
  constructor
  · intro h
    unfold strtol at h
    simp only at h
    generalize hr : t.dropWhile isSpace = r at h
    have ht : t = t.takeWhile isSpace ++ r := by rw [← hr, List.takeWhile_append_dropWhile]
    generalize hq : (if (decide (r.head? = some 45) || decide (r.head? = some 43)) = true then r.drop 1 else r) = q at h
    split at h
    · simp only [Prod.mk.injEq] at h
      exact .inr ⟨h.2, by omega⟩
    · rename_i hds
      left
      simp only [Prod.mk.injEq] at h
      obtain ⟨hv, he⟩ := h
      have hqd : ∀ c ∈ q, Digit c := fun c hc => isDigit_iff.1 (dropWhile_all he c hc)
      rw [takeWhile_all (fun c hc => isDigit_iff.2 (hqd c hc))] at hds hv
      have hv' := clamp_inv (by rw [hv]; omega) (by rw [hv]; omega)
      rw [hv] at hv'
      have hb : ∀ c ∈ t.takeWhile isSpace, Blank c := fun c hc => isSpace_iff.1 (List.mem_takeWhile_imp hc)
      cases r with
      | nil => simp at hq; exact absurd hq.symm (fun e => hds e.symm)
      | cons a r =>
        by_cases h1 : a = 45
        · subst h1
          simp at hq
          subst hq
          simp at hv'
          refine ⟨_, [0x2d], _, by simpa using ht, hb, .inr (.inr ⟨rfl, by omega⟩), decimal_iff.2 ⟨hds, hqd, by omega⟩⟩
        · by_cases h2 : a = 43
          · subst h2
            simp at hq
            subst hq
            simp at hv'
            exact ⟨_, [0x2b], _, by simpa using ht, hb, .inr (.inl rfl), decimal_iff.2 ⟨hds, hqd, by omega⟩⟩
          · simp [h1, h2] at hq
            subst hq
            simp [h1] at hv'
            exact ⟨_, [], _, by simpa using ht, hb, .inl rfl, decimal_iff.2 ⟨hds, hqd, by omega⟩⟩
  · rintro (⟨sp, sign, ds, rfl, hsp, hsign, hd⟩ | ⟨rfl, rfl⟩)
    · rw [strtol_number ⟨sp, sign, ds, rfl, hsp, hsign, hd⟩, clamp_eq (by omega) (by omega)]
    · rfl

/-! ## Bind addresses -/

theorem strrchr_iff {s : Bytes} {c : UInt8} {i : Nat} : strrchr s c = some i ↔ ∃ a b, s = a ++ c :: b ∧ c ∉ b ∧ a.length = i := by
  unfold strrchr
  simp only [Option.map_eq_some_iff, List.findIdx?_eq_some_iff_getElem]
  constructor
  · rintro ⟨j, ⟨hj, hc, hlt⟩, rfl⟩
    simp only [List.length_reverse] at hj
    have hget : s[s.length - 1 - j]'(by omega) = c := by
      rw [List.getElem_reverse] at hc
      simpa using hc
    refine ⟨s.take (s.length - 1 - j), s.drop (s.length - 1 - j + 1), ?_, ?_, by simp; omega⟩
    · conv_lhs => rw [← List.take_append_drop (s.length - 1 - j) s]
      rw [List.drop_eq_getElem_cons (by omega), hget]
    · intro hm
      obtain ⟨k, hk, he⟩ := List.mem_iff_getElem.1 hm
      simp only [List.length_drop] at hk
      rw [List.getElem_drop] at he
      have := hlt (s.length - 1 - (s.length - 1 - j + 1 + k)) (by omega)
      rw [List.getElem_reverse] at this
      apply this
      have e : s.length - 1 - (s.length - 1 - (s.length - 1 - j + 1 + k)) = s.length - 1 - j + 1 + k := by omega
      simp only [e, he, beq_self_eq_true]
  · rintro ⟨a, b, rfl, hb, rfl⟩
    refine ⟨b.length, ⟨by simp, ?_, ?_⟩, by simp⟩
    · simp
    · intro j hj
      simp only [List.reverse_append, List.reverse_cons, List.append_assoc]
      rw [List.getElem_append_left (by simpa using hj)]
      intro h
      apply hb
      rw [beq_iff_eq] at h
      rw [← h, ← List.mem_reverse]
      exact List.getElem_mem _

theorem strrchr_none {s : Bytes} {c : UInt8} : strrchr s c = none ↔ c ∉ s := by
  simp only [strrchr, Option.map_eq_none_iff, List.findIdx?_eq_none_iff, List.mem_reverse, beq_eq_false_iff_ne]
  exact ⟨fun h hc => h c hc rfl, fun h x hx e => h (e ▸ hx)⟩

theorem strchr_none {s : Bytes} {c : UInt8} : strchr s c = none ↔ c ∉ s := by
  simp only [strchr, List.findIdx?_eq_none_iff, beq_eq_false_iff_ne]
  exact ⟨fun h hc => h c hc rfl, fun h x hx e => h (e ▸ hx)⟩

/-- The text behind an address -/
def tail : Option Bytes → Bytes
  | none => []
  | some p => 0x3a :: p

theorem split6 {arg s : Bytes} {p} (h0 : 0 ∉ arg) (hb : arg.head? = some 0x5b) :
    splitBind arg = some (s, p) ↔ arg = 0x5b :: s ++ 0x5d :: tail p ∧ 0x5d ∉ tail p := by
  unfold splitBind
  rw [if_pos hb]
  constructor
  · intro h
    cases hr : strrchr arg 0x5d with
    | none => simp [hr] at h
    | some i =>
      simp only [hr] at h
      obtain ⟨a, b, rfl, hnb, rfl⟩ := strrchr_iff.1 hr
      cases a with
      | nil => simp at hb
      | cons x a =>
        simp at hb
        subst hb
        cases b with
        | nil =>
          simp at h
          obtain ⟨rfl, rfl⟩ := h
          simp [tail]
        | cons y b =>
          have hy : y ≠ 0 := by rintro rfl; simp at h0
          by_cases h3 : y = 0x3a
          · subst h3
            simp at h
            obtain ⟨rfl, rfl⟩ := h
            simp [tail] at hnb ⊢
            exact hnb
          · simp [h3, hy] at h
  · rintro ⟨rfl, hn⟩
    have hr : strrchr (0x5b :: s ++ 0x5d :: tail p) 0x5d = some (s.length + 1) := strrchr_iff.2 ⟨0x5b :: s, tail p, rfl, hn, by simp⟩
    rw [hr]
    cases p <;> simp [tail]

theorem split4 {arg s : Bytes} {p} (hb : arg.head? ≠ some 0x5b) :
    splitBind arg = some (s, p) ↔ arg = s ++ tail p ∧ 0x3a ∉ p.getD s := by
  unfold splitBind
  rw [if_neg hb]
  cases hr : strrchr arg 0x3a with
  | none =>
    have hn := strrchr_none.1 hr
    simp only [Option.some.injEq, Prod.mk.injEq]
    constructor
    · rintro ⟨rfl, rfl⟩; exact ⟨by simp [tail], hn⟩
    · rintro ⟨rfl, h⟩
      cases p with
      | none => simp [tail]
      | some p => simp [tail] at hn
  | some i =>
    obtain ⟨a, b, rfl, hnb, rfl⟩ := strrchr_iff.1 hr
    simp only [Option.some.injEq, Prod.mk.injEq]
    constructor
    · rintro ⟨rfl, rfl⟩
      simpa [tail] using hnb
    · rintro ⟨h, h2⟩
      cases p with
      | none =>
        simp [tail] at h h2
        subst h
        simp at h2
      | some p =>
        have : strrchr (a ++ 0x3a :: b) 0x3a = some s.length := strrchr_iff.2 ⟨s, p, h, h2, rfl⟩
        rw [hr] at this
        simp at this
        simp [tail] at h
        obtain ⟨rfl, h⟩ := List.append_inj h this
        simp at h
        simp [h]

theorem number_chars {t n} (h : Number t n) {c} (hc : c ∈ t) : Blank c ∨ c = 0x2b ∨ c = 0x2d ∨ Digit c := by
  obtain ⟨sp, sign, ds, rfl, hsp, hsign, hd⟩ := h
  obtain ⟨_, hdig, _⟩ := decimal_iff.1 hd
  simp only [List.mem_append] at hc
  rcases hc with (hc | hc) | hc
  · exact .inl (hsp c hc)
  · rcases hsign with rfl | rfl | ⟨rfl, _⟩ <;> simp_all
  · exact .inr (.inr (.inr (hdig c hc)))

theorem port_chars {t n} (h : PortText t n) : 0x3a ∉ t ∧ 0x5d ∉ t := by
  rcases h.2 with h | ⟨rfl, _⟩
  · constructor <;>
    · intro hc
      have := number_chars h hc
      simp [Blank, Digit] at this
  · simp

theorem strtol_port {t : Bytes} (h : ¬((strtol t).2 ≠ [] ∨ (strtol t).1 < 0 ∨ (strtol t).1 > 65535)) :
    ∃ n : UInt64, PortText t n ∧ (strtol t).1 = (n.toNat : Int) := by
  simp only [not_or, ne_eq, not_not] at h
  obtain ⟨h1, h2, h3⟩ := h
  have hn : ((strtol t).1.toNat : Int) = (strtol t).1 := by omega
  refine ⟨UInt64.ofNat (strtol t).1.toNat, ?_, ?_⟩
  · have e : (UInt64.ofNat (strtol t).1.toNat).toNat = (strtol t).1.toNat := by
      rw [UInt64.toNat_ofNat']; omega
    refine ⟨by rw [e]; omega, ?_⟩
    have := (strtol_iff (t := t) (n := (strtol t).1.toNat) (by omega)).1 (Prod.ext hn.symm h1)
    rw [e]
    rcases this with h | ⟨rfl, h⟩
    · exact .inl h
    · exact .inr ⟨rfl, by rw [h]; rfl⟩
  · rw [UInt64.toNat_ofNat']; omega

/-- The ports accepted -/
theorem bindPort_iff {p : Option Bytes} {q : Option UInt16} : bindPort p = some q ↔
    (p = none ∧ q = none) ∨ ∃ t n, p = some t ∧ PortText t n ∧ q = some n.toUInt16 := by
  cases p with
  | none => simp [bindPort, eq_comm]
  | some t =>
    simp only [bindPort]
    constructor
    · intro h
      split at h
      · cases h
      · rename_i hn
        obtain ⟨n, hp, he⟩ := strtol_port hn
        right
        refine ⟨t, n, rfl, hp, ?_⟩
        simp only [Option.some.injEq] at h
        rw [← h, he]
        rfl
    · rintro (⟨h, _⟩ | ⟨t', n, h, hp, rfl⟩)
      · cases h
      · cases h
        have : strtol t = ((n.toNat : Int), []) := (strtol_iff hp.1).2 (by
          rcases hp.2 with h | ⟨h, rfl⟩
          · exact .inl h
          · exact .inr ⟨h, rfl⟩)
        have hn := hp.1
        rw [this]
        rw [if_neg (by simp; omega)]
        simp only [Option.some.injEq]
        rfl

/-- The text of the port, and the port -/
inductive TextOf : Option Bytes → Option UInt64 → Prop
  | none : TextOf none none
  | some {t n} : PortText t n → TextOf (some t) (some n)

theorem withPort_iff {t s : Bytes} {p} : WithPort t s p ↔ ∃ tp, t = s ++ tail tp ∧ TextOf tp p := by
  constructor
  · rintro (_ | h)
    · exact ⟨none, by simp [tail], .none⟩
    · exact ⟨_, rfl, .some h⟩
  · rintro ⟨tp, rfl, h⟩
    cases h with
    | none => simpa [tail] using WithPort.none
    | some h => exact .some h

theorem textOf_port {tp p} (h : TextOf tp p) : bindPort tp = some (p.map UInt64.toUInt16) := by
  rw [bindPort_iff]
  cases h with
  | none => simp
  | some h => exact .inr ⟨_, _, rfl, h, rfl⟩

theorem bindPort_text {tp q} (h : bindPort tp = some q) : ∃ p, TextOf tp p ∧ q = p.map UInt64.toUInt16 := by
  rcases bindPort_iff.1 h with ⟨rfl, rfl⟩ | ⟨t, n, rfl, hp, rfl⟩
  · exact ⟨none, .none, rfl⟩
  · exact ⟨some n, .some hp, rfl⟩

theorem textOf_tail {tp p} (h : TextOf tp p) : 0x5d ∉ tail tp := by
  cases h with
  | none => simp [tail]
  | some h => simp [tail, (port_chars h).2]

theorem textOf_valid {tp p} (h : TextOf tp p) : bindPortOk p = true := by
  cases h with
  | none => rfl
  | some h => exact bindPortOk_iff.2 h.1

variable {D : Type} {env : OEnv D}

/-- The statement executed for an option -/
def runStmt (env : OEnv D) (x : Stmt) (s : OSt D) : ORes D := must s (execStmts env.toEnv 10 (readConf env.toEnv 10) 0 [x] s.st)

theorem runStmt_simple {x : Stmt} {s : OSt D} (h : ∀ g, x ≠ .g g) : runStmt env x s = must s (execS env.toEnv x s.st) := by
  have : execStmts env.toEnv 10 (readConf env.toEnv 10) 0 [x] s.st = (execS env.toEnv x s.st).bind fun _ st => .ok 0 st := by
    cases x with
    | g x => exact absurd rfl (h x)
    | _ => rfl
  rw [runStmt, this]
  cases execS env.toEnv x s.st <;> rfl

theorem runStmt_bind {a p} {s : OSt D} (hp : bindPortOk p = true) : runStmt env (.bind a p none none) s =
    match bindAddress env.toEnv { addr := bindAddrOf a (p.getD 0).toUInt16, default4 := false, default6 := false, dynamic := p.isNone, bindtodev := none } s.st.conf with
    | none => .exit
    | some c => .ok { s with st := { s.st with conf := c } } := by
  rw [runStmt_simple (by simp)]
  simp only [execS, if_pos hp, handleBind]
  simp only [reduceCtorEq, or_self, decide_false]
  cases bindAddress env.toEnv { addr := bindAddrOf a (p.getD 0).toUInt16, default4 := false, default6 := false, dynamic := p.isNone, bindtodev := none } s.st.conf <;> rfl

theorem getD_toUInt16 (p : Option UInt64) : (p.map UInt64.toUInt16).getD 0 = (p.getD 0).toUInt16 := by cases p <;> rfl

theorem any_ne : (lit "any").head? ≠ some 0x5b ∧ 0x3a ∉ lit "any" := by decide +kernel

theorem optionBind_of {t a p} {s : OSt D} (h0 : 0 ∉ t) (hpc : t.head? = some 0x5b → 0x25 ∉ t) (h : BindText env t a p) :
    optionBind env t s = runStmt env (.bind a p none none) s := by
  unfold optionBind
  cases h with
  | v4 hw hc hb ha h4 =>
    rename_i x a
    obtain ⟨tp, rfl, ht⟩ := withPort_iff.1 hw
    have hb' : (x ++ tail tp).head? ≠ some 0x5b := by
      cases x with
      | nil => cases tp <;> simp [tail]
      | cons y x => simpa using hb
    have hsp : splitBind (x ++ tail tp) = some (x, tp) := (split4 hb').2 ⟨rfl, by
      cases ht with
      | none => simpa using hc
      | some h => exact (port_chars h).1⟩
    rw [runStmt_bind (textOf_valid ht), hsp]
    simp only [textOf_port ht, if_neg hb', if_neg ha, h4, getD_toUInt16, bindAddrOf, Option.isNone_map]
    rfl
  | any hw =>
    obtain ⟨tp, rfl, ht⟩ := withPort_iff.1 hw
    have hb' : (lit "any" ++ tail tp).head? ≠ some 0x5b := by
      have := any_ne.1
      cases hl : lit "any" with
      | nil => cases tp <;> simp [tail]
      | cons y x => rw [hl] at this; simpa using this
    have hsp : splitBind (lit "any" ++ tail tp) = some (lit "any", tp) := (split4 hb').2 ⟨rfl, by
      cases ht with
      | none => exact any_ne.2
      | some h => exact (port_chars h).1⟩
    rw [runStmt_bind (textOf_valid ht), hsp]
    simp only [textOf_port ht, if_neg hb', if_true, getD_toUInt16, bindAddrOf, Option.isNone_map]
    rfl
  | v6 hw h6 =>
    rename_i x a
    obtain ⟨tp, rfl, ht⟩ := withPort_iff.1 hw
    have hb : (0x5b :: x ++ [0x5d] ++ tail tp).head? = some 0x5b := rfl
    have hsp : splitBind (0x5b :: x ++ [0x5d] ++ tail tp) = some (x, tp) := (split6 h0 hb).2 ⟨by simp, textOf_tail ht⟩
    have hx : strchr x 0x25 = none := strchr_none.2 fun hm => hpc hb (by simp [hm])
    rw [runStmt_bind (textOf_valid ht), hsp]
    simp only [textOf_port ht, if_pos hb, hx, h6, getD_toUInt16, bindAddrOf, Option.isNone_map]
    rfl

theorem optionBind_ok {t} {s s' : OSt D} (h0 : 0 ∉ t) (hpc : t.head? = some 0x5b → 0x25 ∉ t) (h : optionBind env t s = .ok s') :
    ∃ a p, BindText env t a p := by
  unfold optionBind at h
  cases hsp : splitBind t with
  | none => simp [hsp] at h
  | some y =>
    obtain ⟨x, tp⟩ := y
    simp only [hsp] at h
    cases hp : bindPort tp with
    | none => simp [hp] at h
    | some q =>
      simp only [hp] at h
      obtain ⟨p, ht, rfl⟩ := bindPort_text hp
      by_cases hb : t.head? = some 0x5b
      · obtain ⟨rfl, _⟩ := (split6 h0 hb).1 hsp
        have hx : strchr x 0x25 = none := strchr_none.2 fun hm => hpc hb (by simp [hm])
        simp only [if_pos hb, hx] at h
        cases h6 : env.pton6 x with
        | none => simp [h6] at h
        | some a => exact ⟨.v6 a, p, .v6 (withPort_iff.2 ⟨tp, by simp, ht⟩) h6⟩
      · obtain ⟨rfl, hc⟩ := (split4 hb).1 hsp
        simp only [if_neg hb] at h
        by_cases ha : x = lit "any"
        · subst ha
          exact ⟨.any, p, .any (withPort_iff.2 ⟨tp, rfl, ht⟩)⟩
        · simp only [if_neg ha] at h
          cases h4 : env.pton4 x with
          | none => simp [h4] at h
          | some a =>
            refine ⟨.v4 a, p, .v4 (withPort_iff.2 ⟨tp, rfl, ht⟩) ?_ ?_ ha h4⟩
            · cases ht with
              | none => exact .inl (by simpa using hc)
              | some _ => exact .inr (by simp)
            · cases x with
              | nil => simp
              | cons y x => simpa using hb

/-! ## Options -/

def runAct (env : OEnv D) : Act → OSt D → ORes D
  | .stmt x, s => runStmt env x s
  | .stdin, s => must { s with reads := s.reads + 1 } (readStdin env s.reads s.st)
  | .ident i, s => .ok { s with st := { s.st with conf := { s.st.conf with logIdent := i } } }
  | .daemon, s => .ok { s with daemon := true }
  | .pidFile f, s => .ok { s with pidFile := some f }
  | .verifyConfig, s => .ok { s with verifyConfig := true }
  | .generateKey, s => .ok { s with generateKey := true, showKey := false }
  | .showKey, s => .ok { s with generateKey := false, showKey := true }
  | .machineReadable, s => .ok { s with machineReadable := true }

/-- The table with all options -/
def full : List Entry :=
  table (D := Unit)
    { file := fun _ _ => none, chdir := fun _ _ => none, pwd := fun _ => [], dirname := id, entries := fun _ => none, readKey := fun _ => none, ntop6 := id,
      cipherOk := fun _ _ => false, macOk := fun _ _ => false, protocolName := [], useUser := true, usePacketMark := true, statusSocket := true,
      dynamicPeers := true, offloadL2tp := true, multiafBind := true, bindToDevice := true, pton4 := fun _ => none, pton6 := fun _ => none,
      stdin := fun _ => ([], false), cmdUser := true, cmdLogging := true, cmdOperation := true, cmdCommands := true }

theorem sub_if {α} (b : Bool) {l l' : List α} (h : l.Sublist l') : (if b then l else []).Sublist l' := by
  cases b
  · exact List.nil_sublist _
  · exact h

theorem table_sub (env : OEnv D) : (table env).Sublist full := by
  unfold full table
  simp only [if_true]
  repeat' first
    | apply List.Sublist.append
    | apply sub_if
    | exact List.Sublist.refl _

theorem full_disjoint : full.Pairwise fun a b => ∀ o ∈ a.names, o ∉ b.names := by decide +kernel

theorem find_of_mem {l : List Entry} (h : l.Pairwise fun a b => ∀ o ∈ a.names, o ∉ b.names) {e o} (he : e ∈ l) (ho : o ∈ e.names) :
    l.find? (fun e => e.names.contains o) = some e := by
  induction l with
  | nil => cases he
  | cons a l ih =>
    rw [List.pairwise_cons] at h
    rcases List.mem_cons.1 he with rfl | he
    · rw [List.find?_cons_of_pos]; simpa using ho
    · rw [List.find?_cons_of_neg, ih h.2 he]
      simp only [List.contains_iff_mem]
      intro ha
      exact h.1 e he o ha ho

theorem lookup_of {e o} (he : e ∈ table env) (ho : o ∈ e.names) : lookup env o = some e :=
  find_of_mem (full_disjoint.sublist (table_sub env)) he ho

theorem lookup_mem {e o} (h : lookup env o = some e) : e ∈ table env ∧ o ∈ e.names := by
  unfold lookup at h
  exact ⟨List.mem_of_find?_eq_some h, by simpa using List.find?_some h⟩

theorem runStmt_leaf {x : GStmt} {s : OSt D} (h : Leaf x) : runStmt env (.g x) s = must s (execG env.toEnv 0 x s.st) := by
  have : execStmts env.toEnv 10 (readConf env.toEnv 10) 0 [.g x] s.st = (execG env.toEnv 0 x s.st).bind fun _ st => .ok 0 st := by
    simp only [execStmts]
    rw [execGStmt_leaf h]
    cases execG env.toEnv 0 x s.st <;> rfl
  rw [runStmt, this]
  cases execG env.toEnv 0 x s.st <;> rfl

theorem lits : lit "multitap" ≠ lit "tap" ∧ lit "tun" ≠ lit "tap" ∧ lit "tun" ≠ lit "multitap" := by decide +kernel

theorem levelText_iff {t l} : parseLogLevel t = some l ↔ LevelText t l := by
  constructor
  · intro h
    unfold parseLogLevel at h
    repeat' split at h
    all_goals first
      | (simp only [Option.some.injEq] at h; subst h; subst_vars; constructor)
      | cases h
  · intro h
    cases h <;> decide +kernel

theorem mtu_call {t} {n : UInt64} (h : Number t n.toNat) {s : OSt D} : call env .mtu t s = runStmt env (.mtu n) s := by
  rw [runStmt_simple (by simp)]
  simp only [call, execS]
  by_cases hn : n.toNat ≤ 65535
  · have : strtol t = ((n.toNat : Int), []) := (strtol_iff hn).2 (.inl h)
    rw [this]
    by_cases h2 : n.toNat < 576
    · rw [if_pos (by simp; omega), if_pos (by simp [UInt64.lt_iff_toNat_lt]; omega)]; rfl
    · rw [if_neg (by simp; omega), if_neg (mtu_iff.2 ⟨by omega, hn⟩)]
      rfl
  · have hc : clamp n.toNat > 65535 := by
      unfold clamp
      split
      · omega
      · split <;> omega
    rw [strtol_number h, if_pos (by simp [hc]), if_pos (by simp [UInt64.lt_iff_toNat_lt]; omega)]
    rfl

theorem does_call (hu : env.cmdUser = true → env.useUser = true) {o t a} (h : Does env o t a) (hf : ∀ x, t = some x → Fine o x) :
    ∃ e, lookup env o = some e ∧ e.arg = t.isSome ∧ ∀ s, call env e.fn (t.getD []) s = runAct env a s := by
  have key : ∀ e, e ∈ table env → o ∈ e.names → e.arg = t.isSome → (∀ s, call env e.fn (t.getD []) s = runAct env a s) →
      ∃ e, lookup env o = some e ∧ e.arg = t.isSome ∧ ∀ s, call env e.fn (t.getD []) s = runAct env a s :=
    fun e h1 h2 h3 h4 => ⟨e, lookup_of h1 h2, h3, h4⟩
  cases h with
  | daemon ho =>
    exact key ⟨[lit "--daemon", lit "-d"], false, .daemon⟩ (by simp [table]) (by simpa using ho) rfl fun s => rfl
  | pidFile =>
    exact key ⟨[lit "--pid-file"], true, .pidFile⟩ (by simp [table]) (by simp) rfl fun s => rfl
  | statusSocket h =>
    exact key ⟨[lit "--status-socket"], true, .statusSocket⟩ (by simp [table, h]) (by simp) rfl fun s => by
      simp [runAct, runStmt_simple, execS, h, must, call]
  | config ho hn =>
    exact key ⟨[lit "--config", lit "-c"], true, .config⟩ (by simp [table]) (by simpa using ho) rfl fun s => by
      simp only [call, Option.getD_some, if_neg hn, runAct, runStmt, execStmts, execGStmt]
      unfold maxDepth
      cases readConf env.toEnv 10 0 _ s.st <;> rfl
  | stdin ho =>
    exact key ⟨[lit "--config", lit "-c"], true, .config⟩ (by simp [table]) (by simpa using ho) rfl fun s => by
      simp only [call, Option.getD_some, if_true, runAct]
  | configPeer =>
    exact key ⟨[lit "--config-peer"], true, .configPeer⟩ (by simp [table]) (by simp) rfl fun s => by
      simp only [call, Option.getD_some, runAct, runStmt, execStmts, execGStmt]
      unfold maxDepth
      cases readPeer env.toEnv 0 10 _ (newPeer none) s.st with
      | ok p st => simp only [Res.bind]; cases addPeer p st <;> rfl
      | _ => rfl
  | configPeerDir =>
    exact key ⟨[lit "--config-peer-dir"], true, .configPeerDir⟩ (by simp [table]) (by simp) rfl fun s => by
      simp only [runAct]
      rw [runStmt_leaf]
      · rfl
      · exact trivial
  | user h =>
    exact key ⟨[lit "--user"], true, .user⟩ (by simp [table, h]) (by simp) rfl fun s => by
      simp [runAct, runStmt_simple, execS, hu h, must, call]
  | group h =>
    exact key ⟨[lit "--group"], true, .group⟩ (by simp [table, h]) (by simp) rfl fun s => by
      simp [runAct, runStmt_simple, execS, hu h, must, call]
  | logLevel h hl =>
    exact key ⟨[lit "--log-level"], true, .logLevel⟩ (by simp [table, h]) (by simp) rfl fun s => by
      simp only [call, Option.getD_some, (levelText_iff).2 hl, runAct]
      rw [runStmt_simple (by simp)]
      rfl
  | syslogLevel h hl =>
    exact key ⟨[lit "--syslog-level"], true, .syslogLevel⟩ (by simp [table, h]) (by simp) rfl fun s => by
      simp only [call, Option.getD_some, (levelText_iff).2 hl, runAct]
      rw [runStmt_simple (by simp)]
      rfl
  | syslogIdent h =>
    exact key ⟨[lit "--syslog-ident"], true, .syslogIdent⟩ (by simp [table, h]) (by simp) rfl fun s => rfl
  | hideIp h =>
    exact key ⟨[lit "--hide-ip-addresses"], false, .hideIp⟩ (by simp [table, h]) (by simp) rfl fun s => by
      simp only [runAct]
      rw [runStmt_simple (by simp)]
      rfl
  | hideMac h =>
    exact key ⟨[lit "--hide-mac-addresses"], false, .hideMac⟩ (by simp [table, h]) (by simp) rfl fun s => by
      simp only [runAct]
      rw [runStmt_simple (by simp)]
      rfl
  | mode h ho hm =>
    exact key ⟨[lit "--mode", lit "-m"], true, .mode⟩ (by simp [table, h]) (by simpa using ho) rfl fun s => by
      simp only [runAct]
      rw [runStmt_simple (by simp)]
      cases hm <;> simp [call, execS, must, lits]
  | interface h ho =>
    exact key ⟨[lit "--interface", lit "-i"], true, .interface⟩ (by simp [table, h]) (by simpa using ho) rfl fun s => by
      have := (hf _ rfl).iface ho
      simp [runAct, runStmt_simple, execS, this, must, call]
  | mtu h ho hn =>
    exact key ⟨[lit "--mtu", lit "-M"], true, .mtu⟩ (by simp [table, h]) (by simpa using ho) rfl fun s => by
      simp only [runAct]
      exact mtu_call hn
  | bind h ho hb =>
    exact key ⟨[lit "--bind", lit "-b"], true, .bind⟩ (by simp [table, h]) (by simpa using ho) rfl fun s => by
      exact optionBind_of (hf _ rfl).nul ((hf _ rfl).bind ho) hb
  | protocol h ho =>
    exact key ⟨[lit "--protocol", lit "-p"], true, .protocol⟩ (by simp [table, h]) (by simpa using ho) rfl fun s => by
      simp only [runAct]
      rw [runStmt_simple (by simp)]
      simp only [call, execS, Option.getD_some]
      split <;> rfl
  | method h =>
    exact key ⟨[lit "--method"], true, .method⟩ (by simp [table, h]) (by simp) rfl fun s => by
      simp only [runAct]
      rw [runStmt_leaf]
      · rfl
      · exact trivial
  | forward h =>
    exact key ⟨[lit "--forward"], false, .forward⟩ (by simp [table, h]) (by simp) rfl fun s => by
      simp only [runAct]
      rw [runStmt_simple (by simp)]
      rfl
  | onPreUp h =>
    exact key ⟨[lit "--on-pre-up"], true, .onPreUp⟩ (by simp [table, h]) (by simp) rfl fun s => by
      simp only [runAct]
      rw [runStmt_simple (by simp)]
      rfl
  | onPostDown h =>
    exact key ⟨[lit "--on-post-down"], true, .onPostDown⟩ (by simp [table, h]) (by simp) rfl fun s => by
      simp only [runAct]
      rw [runStmt_simple (by simp)]
      rfl
  | onUp h =>
    exact key ⟨[lit "--on-up"], true, .onUp⟩ (by simp [table, h]) (by simp) rfl fun s => by
      simp only [runAct]
      rw [runStmt_leaf]
      · rfl
      · exact trivial
  | onDown h =>
    exact key ⟨[lit "--on-down"], true, .onDown⟩ (by simp [table, h]) (by simp) rfl fun s => by
      simp only [runAct]
      rw [runStmt_leaf]
      · rfl
      · exact trivial
  | onConnect h =>
    exact key ⟨[lit "--on-connect"], true, .onConnect⟩ (by simp [table, h]) (by simp) rfl fun s => by
      simp only [runAct]
      rw [runStmt_leaf]
      · rfl
      · exact trivial
  | onEstablish h =>
    exact key ⟨[lit "--on-establish"], true, .onEstablish⟩ (by simp [table, h]) (by simp) rfl fun s => by
      simp only [runAct]
      rw [runStmt_leaf]
      · rfl
      · exact trivial
  | onDisestablish h =>
    exact key ⟨[lit "--on-disestablish"], true, .onDisestablish⟩ (by simp [table, h]) (by simp) rfl fun s => by
      simp only [runAct]
      rw [runStmt_leaf]
      · rfl
      · exact trivial
  | onVerify h hd =>
    exact key ⟨[lit "--on-verify"], true, .onVerify⟩ (by simp [table, h, hd]) (by simp) rfl fun s => by
      simp only [runAct]
      rw [runStmt_leaf]
      · simp only [execG, if_pos hd]
        rfl
      · exact trivial
  | verifyConfig =>
    exact key ⟨[lit "--verify-config"], false, .verifyConfig⟩ (by simp [table]) (by simp) rfl fun s => rfl
  | generateKey =>
    exact key ⟨[lit "--generate-key"], false, .generateKey⟩ (by simp [table]) (by simp) rfl fun s => rfl
  | showKey =>
    exact key ⟨[lit "--show-key"], false, .showKey⟩ (by simp [table]) (by simp) rfl fun s => rfl
  | machineReadable =>
    exact key ⟨[lit "--machine-readable"], false, .machineReadable⟩ (by simp [table]) (by simp) rfl fun s => rfl

theorem mtu_ok {t} {s s' : OSt D} (h : call env .mtu t s = .ok s') : ∃ n : UInt64, Number t n.toNat := by
  simp only [call] at h
  split at h
  · cases h
  · rename_i hc
    have hc' : ¬((strtol t).2 ≠ [] ∨ (strtol t).1 < 0 ∨ (strtol t).1 > 65535) := by
      simp only [not_or] at hc ⊢
      exact ⟨hc.1, by omega, hc.2.2⟩
    obtain ⟨n, hp, he⟩ := strtol_port hc'
    refine ⟨n, ?_⟩
    rcases hp.2 with h1 | ⟨rfl, rfl⟩
    · exact h1
    · simp [strtol] at hc

theorem call_does {o t e} {s s' : OSt D} (hl : lookup env o = some e) (hf : e.arg = true → Fine o t) (h : call env e.fn t s = .ok s') :
    ∃ a, Does env o (if e.arg then some t else none) a := by
  obtain ⟨hm, ho⟩ := lookup_mem hl
  simp only [table, List.mem_append, List.mem_ite_nil_right, List.mem_cons, List.not_mem_nil, or_false] at hm
  have hbind : e.fn = .bind → e.arg = true → o ∈ [lit "--bind", lit "-b"] → env.cmdOperation = true → ∃ a, Does env o (some t) a := by
    intro h1 h2 h3 h4
    rw [h1] at h
    obtain ⟨a, p, hb⟩ := optionBind_ok (hf h2).nul ((hf h2).bind h3) h
    exact ⟨_, .bind h4 h3 hb⟩
  rcases hm with ((((((hm | hm) | hm) | hm) | hm) | hm) | hm) | hm
  · rcases hm with rfl | rfl | rfl | rfl
    · cases h
    · cases h
    · exact ⟨_, .daemon ho⟩
    · simp at ho; subst ho; exact ⟨_, .pidFile⟩
  · obtain ⟨h1, rfl⟩ := hm
    simp at ho; subst ho; exact ⟨_, .statusSocket h1⟩
  · rcases hm with rfl | rfl | rfl
    · by_cases ht : t = lit "-"
      · subst ht; exact ⟨_, .stdin ho⟩
      · exact ⟨_, .config ho ht⟩
    · simp at ho; subst ho; exact ⟨_, .configPeer⟩
    · simp at ho; subst ho; exact ⟨_, .configPeerDir⟩
  · obtain ⟨h1, rfl | rfl⟩ := hm
    · simp at ho; subst ho; exact ⟨_, .user h1⟩
    · simp at ho; subst ho; exact ⟨_, .group h1⟩
  · obtain ⟨h1, rfl | rfl | rfl | rfl | rfl⟩ := hm <;> simp at ho <;> subst ho
    · simp only [call] at h
      cases hp : parseLogLevel t with
      | none => simp [hp] at h
      | some l => exact ⟨_, .logLevel h1 (levelText_iff.1 hp)⟩
    · simp only [call] at h
      cases hp : parseLogLevel t with
      | none => simp [hp] at h
      | some l => exact ⟨_, .syslogLevel h1 (levelText_iff.1 hp)⟩
    · exact ⟨_, .syslogIdent h1⟩
    · exact ⟨_, .hideIp h1⟩
    · exact ⟨_, .hideMac h1⟩
  · obtain ⟨h1, rfl | rfl | rfl | rfl | rfl | rfl | rfl⟩ := hm
    · simp only [call] at h
      split at h
      · rename_i ht; subst ht; exact ⟨_, .mode h1 ho .tap⟩
      · split at h
        · rename_i ht; subst ht; exact ⟨_, .mode h1 ho .multitap⟩
        · split at h
          · rename_i ht; subst ht; exact ⟨_, .mode h1 ho .tun⟩
          · cases h
    · exact ⟨_, .interface h1 ho⟩
    · obtain ⟨n, hn⟩ := mtu_ok h
      exact ⟨_, .mtu h1 ho hn⟩
    · exact hbind rfl rfl ho h1
    · exact ⟨_, .protocol h1 ho⟩
    · simp at ho; subst ho; exact ⟨_, .method h1⟩
    · simp at ho; subst ho; exact ⟨_, .forward h1⟩
  · obtain ⟨h1, hm⟩ := hm
    rcases hm with (rfl | rfl | rfl | rfl | rfl | rfl | rfl) | ⟨h2, rfl⟩ <;> simp at ho <;> subst ho
    · exact ⟨_, .onPreUp h1⟩
    · exact ⟨_, .onUp h1⟩
    · exact ⟨_, .onDown h1⟩
    · exact ⟨_, .onPostDown h1⟩
    · exact ⟨_, .onConnect h1⟩
    · exact ⟨_, .onEstablish h1⟩
    · exact ⟨_, .onDisestablish h1⟩
    · exact ⟨_, .onVerify h1 h2⟩
  · rcases hm with rfl | rfl | rfl | rfl <;> simp at ho <;> subst ho
    · exact ⟨_, .verifyConfig⟩
    · exact ⟨_, .generateKey⟩
    · exact ⟨_, .showKey⟩
    · exact ⟨_, .machineReadable⟩

/-! ## Command lines -/

def runActs (env : OEnv D) : List Act → OSt D → ORes D
  | [], s => .ok s
  | a :: as, s => match runAct env a s with
    | .ok s => runActs env as s
    | x => x

theorem FineArgs.drop1 {o r} (h : FineArgs (o :: r)) : FineArgs r := fun a b hi => h a b (hi.trans ⟨[o], [], by simp⟩)

theorem FineArgs.drop2 {o t r} (h : FineArgs (o :: t :: r)) : FineArgs r := fun a b hi => h a b (hi.trans ⟨[o, t], [], by simp⟩)

theorem handle_of (hu : env.cmdUser = true → env.useUser = true) {args as} (h : Cmdline env args as) : FineArgs args → ∀ s, handle env args s = runActs env as s := by
  induction h with
  | nil => intro _ s; rfl
  | flag hd _ ih =>
    intro hf s
    obtain ⟨e, hl, ha, hc⟩ := does_call hu hd (by simp)
    have ha : e.arg = false := ha
    have hc : ∀ s, call env e.fn [] s = runAct env _ s := hc
    simp only [handle, hl, ha, runActs, hc, Bool.false_eq_true, if_false]
    cases runAct env _ s with
    | ok s1 => exact ih hf.drop1 s1
    | _ => rfl
  | arg hd _ ih =>
    intro hf s
    obtain ⟨e, hl, ha, hc⟩ := does_call hu hd (by intro x hx; cases hx; exact hf _ _ ⟨[], _, rfl⟩)
    have ha : e.arg = true := ha
    simp only [Option.getD_some] at hc
    simp only [handle, hl, ha, runActs, hc, if_true]
    cases runAct env _ s with
    | ok s1 => exact ih hf.drop2 s1
    | _ => rfl

theorem handle_cmdline (n : Nat) : ∀ args, args.length ≤ n → FineArgs args → ∀ s s' : OSt D, handle env args s = .ok s' → ∃ as, Cmdline env args as := by
  induction n with
  | zero =>
    intro args hn _ s s' _
    obtain rfl := List.length_eq_zero_iff.1 (Nat.le_zero.1 hn)
    exact ⟨[], .nil⟩
  | succ n ih =>
    intro args hn hf s s' h
    cases args with
    | nil => exact ⟨[], .nil⟩
    | cons o r =>
      cases hl : lookup env o with
      | none => simp [handle, hl] at h
      | some e =>
        by_cases ha : e.arg = true
        · cases r with
          | nil => simp [handle, hl, ha] at h
          | cons t r =>
            simp only [handle, hl, ha, if_true] at h
            cases hc : call env e.fn t s with
            | ok s1 =>
              simp only [hc] at h
              obtain ⟨a, hd⟩ := call_does hl (fun _ => hf o t ⟨[], r, rfl⟩) hc
              rw [if_pos ha] at hd
              obtain ⟨as, hr⟩ := ih r (by simp at hn; omega) hf.drop2 s1 s' h
              exact ⟨_, .arg hd hr⟩
            | _ => simp [hc] at h
        · simp only [handle, hl, ha] at h
          cases hc : call env e.fn [] s with
          | ok s1 =>
            simp only [hc] at h
            obtain ⟨a, hd⟩ := call_does hl (fun h => absurd h ha) hc
            rw [if_neg ha] at hd
            obtain ⟨as, hr⟩ := ih r (by simp at hn; omega) hf.drop1 s1 s' h
            exact ⟨_, .flag hd hr⟩
          | _ => simp [hc] at h

/-! ## Statements -/

theorem Inv.ident {env : Env D} {its next} {st : St D} (hi : Inv env its next st) (i : Bytes) :
    Inv env (its ++ [(0, .ident i)]) next { st with conf := { st.conf with logIdent := i } } := by
  refine ⟨⟨hi.meets.count, ?_, ?_, ?_⟩, hi.fresh.snoc hi.fresh.pos rfl, valid_snoc hi.valid trivial, keys_snoc_other rfl hi.keys⟩
  · intro g h
    rw [groupSpec_none _ _ _ _ (.inr (.inr ⟨_, rfl⟩))]
    exact hi.meets.group g h
  · simp [hi.meets.peers, thePeer]
  · apply hi.meets.conf.snoc <;> first | rfl | skip
    · simp [theBinds]
    · exact hi.meets.conf.default4
    · exact hi.meets.conf.default6

theorem walk_nil (next g : Nat) : walk next g ([] : List (X D)) = ([], next) := by simp [walk]

/-- The statements of one option -/
inductive ActX (env : OEnv D) (d : D) (n : Nat) : Act → List (X D) → Nat → Prop
  | stmt {s xs} : ExpC env.toEnv 10 d [s] xs → ActX env d n (.stmt s) xs n
  | stdin {ts body xs} : env.stdin n = (ts, false) → DConf body ts → ExpC env.toEnv 9 d body xs → ActX env d n .stdin xs (n + 1)
  | ident {i} : ActX env d n (.ident i) [.ident i] n
  | other {a} : (∀ s, a ≠ .stmt s) → a ≠ .stdin → (∀ i, a ≠ .ident i) → ActX env d n a [] n

theorem ActX.cons {d : D} {n n' a xs as ys} (h : ActX env d n a xs n') (h2 : ExpO env d n' as ys) : ExpO env d n (a :: as) (xs ++ ys) := by
  cases h with
  | stmt h => exact .stmt h h2
  | stdin h1 h3 h4 => exact .stdin h1 h3 h4 h2
  | ident => exact .ident h2
  | other h1 h3 h4 => exact .other h1 h3 h4 h2

theorem ExpO.uncons {d : D} {n a as zs} (h : ExpO env d n (a :: as) zs) : ∃ xs n' ys, ActX env d n a xs n' ∧ ExpO env d n' as ys ∧ zs = xs ++ ys := by
  cases h with
  | stmt h h2 => exact ⟨_, _, _, .stmt h, h2, rfl⟩
  | stdin h1 h3 h4 h2 => exact ⟨_, _, _, .stdin h1 h3 h4, h2, rfl⟩
  | ident h2 => exact ⟨_, _, _, .ident, h2, rfl⟩
  | other h1 h3 h4 h2 => exact ⟨_, _, _, .other h1 h3 h4, h2, rfl⟩

theorem ActX.det {d : D} {n a xs n' ys n''} (h : ActX env d n a xs n') (h' : ActX env d n a ys n'') : xs = ys ∧ n' = n'' := by
  cases h with
  | stmt h =>
    cases h' with
    | stmt h2 => exact ⟨h.det h2, rfl⟩
    | other h1 _ _ => exact absurd rfl (h1 _)
  | stdin h1 h3 h4 =>
    cases h' with
    | stdin h1' h3' h4' =>
      rw [h1] at h1'
      cases h1'
      obtain rfl := h3.det h3'
      exact ⟨h4.det h4', rfl⟩
    | other _ h1 _ => exact absurd rfl h1
  | ident =>
    cases h' with
    | ident => exact ⟨rfl, rfl⟩
    | other _ _ h1 => exact absurd rfl (h1 _)
  | other h1 h2 h3 =>
    cases h' with
    | stmt h2 => exact absurd rfl (h1 _)
    | stdin _ _ _ => exact absurd rfl h2
    | ident => exact absurd rfl (h3 _)
    | other _ _ _ => exact ⟨rfl, rfl⟩

theorem ExpO.det {d : D} : ∀ {as n xs ys}, ExpO env d n as xs → ExpO env d n as ys → xs = ys := by
  intro as
  induction as with
  | nil => intro n xs ys h h'; cases h; cases h'; rfl
  | cons a as ih =>
    intro n xs ys h h'
    obtain ⟨x1, n1, y1, h1, h2, rfl⟩ := h.uncons
    obtain ⟨x2, n2, y2, h3, h4, rfl⟩ := h'.uncons
    obtain ⟨rfl, rfl⟩ := h1.det h3
    rw [ih h2 h4]

theorem must_ok {α} {s s' : OSt D} {r : Res D α} (h : must s r = .ok s') : ∃ a st, r = .ok a st ∧ s' = { s with st } := by
  cases r with
  | ok a st => cases h; exact ⟨a, st, rfl, rfl⟩
  | _ => cases h

theorem runAct_ok (hs : Sane env.toEnv) {a} {s s' : OSt D} {its next} (hi : Inv env.toEnv its next s.st) (h : runAct env a s = .ok s') :
    s'.st.cwd = s.st.cwd ∧ ∃ xs, ActX env s.st.cwd s.reads a xs s'.reads ∧ Inv env.toEnv (its ++ (walk next 0 xs).1) (walk next 0 xs).2 s'.st := by
  have other : (∀ s, a ≠ .stmt s) → a ≠ .stdin → (∀ i, a ≠ .ident i) → s'.st = s.st → s'.reads = s.reads → s'.st.cwd = s.st.cwd ∧
      ∃ xs, ActX env s.st.cwd s.reads a xs s'.reads ∧ Inv env.toEnv (its ++ (walk next 0 xs).1) (walk next 0 xs).2 s'.st := by
    intro h1 h2 h3 h4 h5
    rw [h4, h5]
    exact ⟨rfl, [], .other h1 h2 h3, by simpa [walk_nil] using hi⟩
  cases a with
  | stmt x =>
    obtain ⟨g, st, h1, rfl⟩ := must_ok h
    obtain ⟨_, hc, xs, hx, hi'⟩ := execStmts_ok hs (readConf_good hs 10) [x] _ _ _ _ _ hi h1
    exact ⟨hc, xs, .stmt hx, hi'⟩
  | stdin =>
    obtain ⟨g, st, h1, rfl⟩ := must_ok h
    clear h
    rename' h1 => h
    unfold readStdin at h
    cases hr : env.stdin s.reads with
    | mk ts bad =>
      simp only [hr] at h
      cases bad with
      | true => simp at h
      | false =>
        cases hp : parseConf ts with
        | none => simp [hp] at h
        | some body =>
          simp only [hp] at h
          cases he : execStmts env.toEnv 9 (readConf env.toEnv 9) 0 body s.st with
          | ok g' st1 =>
            simp only [he, Bool.false_eq_true, if_false, Res.bind, back_eq hs, Res.ok.injEq] at h
            obtain ⟨_, rfl⟩ := h
            obtain ⟨_, hc, xs, hx, hi'⟩ := execStmts_ok hs (readConf_good hs 9) body _ _ _ _ _ hi he
            exact ⟨rfl, xs, .stdin hr (parseConf_iff.1 hp) hx, hi'.cwd _⟩
          | fail _ => simp [he, Res.bind] at h
          | exit => simp [he, Res.bind] at h
  | ident i =>
    cases h
    exact ⟨rfl, _, .ident, by simpa [walk, walk1] using hi.ident i⟩
  | _ => cases h; exact other (by simp) (by simp) (by simp) rfl rfl

theorem runActs_ok (hs : Sane env.toEnv) : ∀ as (s s' : OSt D) its next, Inv env.toEnv its next s.st → runActs env as s = .ok s' →
    s'.st.cwd = s.st.cwd ∧ ∃ xs, ExpO env s.st.cwd s.reads as xs ∧ Inv env.toEnv (its ++ (walk next 0 xs).1) (walk next 0 xs).2 s'.st := by
  intro as
  induction as with
  | nil => intro s s' its next hi h; cases h; exact ⟨rfl, [], .nil, by simpa [walk_nil] using hi⟩
  | cons a as ih =>
    intro s s' its next hi h
    simp only [runActs] at h
    cases hr : runAct env a s with
    | ok s1 =>
      simp only [hr] at h
      obtain ⟨hc, xs, hx, hi1⟩ := runAct_ok hs hi hr
      obtain ⟨hc2, ys, hy, hi2⟩ := ih s1 s' _ _ hi1 h
      refine ⟨hc2.trans hc, xs ++ ys, hx.cons (hc ▸ hy), ?_⟩
      rw [walk_append, ← List.append_assoc]
      exact hi2
    | _ => simp [hr] at h

theorem runAct_valid (hs : Sane env.toEnv) {a n'} {s : OSt D} {its next xs} (hi : Inv env.toEnv its next s.st) (hx : ActX env s.st.cwd s.reads a xs n')
    (hv : ∀ x ∈ (walk next 0 xs).1, Valid env.toEnv x.2) (hk : KeysValid env.toEnv (its ++ (walk next 0 xs).1)) : ∃ s', runAct env a s = .ok s' := by
  cases hx with
  | stmt hx =>
    obtain ⟨st', h⟩ := execStmts_valid hs (readConf_good hs 10) (readConf_complete hs 10) _ _ _ _ _ hi hx hv hk
    exact ⟨_, by simp only [runAct, runStmt, h]; rfl⟩
  | stdin h1 h2 h3 =>
    obtain ⟨st', h⟩ := execStmts_valid hs (readConf_good hs 9) (readConf_complete hs 9) _ _ _ _ _ hi h3 hv hk
    exact ⟨_, by simp only [runAct, readStdin, h1, parseConf_iff.2 h2, h]; rfl⟩
  | ident => exact ⟨_, rfl⟩
  | other h1 h2 h3 => cases a <;> first | exact ⟨_, rfl⟩ | exact absurd rfl (h1 _) | exact absurd rfl h2

theorem runActs_valid (hs : Sane env.toEnv) : ∀ as (s : OSt D) its next xs, Inv env.toEnv its next s.st → ExpO env s.st.cwd s.reads as xs →
    (∀ x ∈ (walk next 0 xs).1, Valid env.toEnv x.2) → KeysValid env.toEnv (its ++ (walk next 0 xs).1) → ∃ s', runActs env as s = .ok s' := by
  intro as
  induction as with
  | nil => intro s _ _ _ _ _ _ _; exact ⟨s, rfl⟩
  | cons a as ih =>
    intro s its next zs hi hx hv hk
    obtain ⟨xs, n', ys, h1, h2, rfl⟩ := hx.uncons
    rw [walk_append] at hv hk
    simp only [List.mem_append] at hv
    rw [← List.append_assoc] at hk
    obtain ⟨s1, hr⟩ := runAct_valid hs hi h1 (fun x hx => hv x (.inl hx)) hk.left
    obtain ⟨hc, xs', hx', hi1⟩ := runAct_ok hs hi hr
    obtain ⟨rfl, rfl⟩ := h1.det hx'
    obtain ⟨s', h⟩ := ih s1 _ _ ys hi1 (hc ▸ h2) (fun x hx => hv x (.inr hx)) hk
    exact ⟨s', by simp only [runActs, hr, h]⟩

/-! ## Flags -/

theorem flags_snoc {as a} {s s' : OSt D} (hf : Flags as s) (h : runAct env a s = .ok s') : Flags (as ++ [a]) s' := by
  obtain ⟨h1, h2, h3, h4, h5, h6⟩ := hf
  cases a with
  | stmt x =>
    obtain ⟨_, _, _, rfl⟩ := must_ok h
    constructor <;> simp_all [List.filterMap_append]
  | stdin =>
    obtain ⟨_, _, _, rfl⟩ := must_ok h
    constructor <;> simp_all [List.filterMap_append]
  | _ => cases h; constructor <;> simp_all [List.filterMap_append]

theorem flags_acts : ∀ as (s s' : OSt D) pre, Flags pre s → runActs env as s = .ok s' → Flags (pre ++ as) s' := by
  intro as
  induction as with
  | nil => intro s s' pre hf h; cases h; simpa using hf
  | cons a as ih =>
    intro s s' pre hf h
    simp only [runActs] at h
    cases hr : runAct env a s with
    | ok s1 =>
      simp only [hr] at h
      have := ih s1 s' _ (flags_snoc hf hr) h
      simpa using this
    | _ => simp [hr] at h

end Fastd.Config.Spec
