import Verif.Config.Lex
import Verif.Props.Keywords

/-!
# C54: the tokens of a configuration file do not depend on how it is read
-/

namespace Fastd.Config.Lex

open Fastd.Config (Bytes findKeyword)

/-! ## The same scanner on the whole file -/

/-- The current token, and what follows it. When a token gets as long as the buffer, nothing more is read. -/
structure Whole where
  tok : Bytes
  rem : Bytes
  needspace : Bool
  loc : Loc

def whole : Ops Whole where
  more t := t.tok ++ t.rem ≠ []
  current t := match t.rem with
    | [] => .error .beyond
    | c :: _ => .ok c
  next move t := match t.rem with
    | [] => .ok (false, t)
    | c :: r =>
      if move then .ok (r ≠ [], { t with tok := (t.tok ++ [c]).tail, rem := r, loc := t.loc.step c })
      else
        let r := if t.tok.length + 1 = bufSize then [] else r
        .ok (r ≠ [], { t with tok := t.tok ++ [c], rem := r, loc := t.loc.step c })
  consume needspace t := { t with tok := [], needspace }
  needspace t := t.needspace
  token t := cString t.tok
  cut t := match t.tok, t.rem with
    | _ :: tok, _ :: r => .ok (cString tok, { t with rem := 0 :: r })
    | _, _ => .error .beyond
  mark t := { t with loc := { t.loc with firstLine := t.loc.lastLine, firstColumn := t.loc.lastColumn + 1 } }
  loc t := t.loc

/-! ## Simulation -/

/-- The buffer holds the token and a part `x` of what follows. -/
structure Rel (s : Buffered) (t : Whole) : Prop where
  size : s.buffer.length = bufSize
  pieces : ∀ p ∈ s.file, p ≠ []
  lo : s.start ≤ s.end
  hi : s.end ≤ bufSize
  len : s.tokLen = t.tok.length
  rest : ∃ x, (s.buffer.take s.end).drop s.start = t.tok ++ x ∧
    ((x = [] ∧ t.rem = []) ∨ (x ≠ [] ∧ t.rem = x ++ s.file.flatten))
  needspace : s.needspace = t.needspace
  loc : s.loc = t.loc

def Sim {α : Type} (p : M Buffered α) (q : M Whole α) : Prop :=
  ∀ s t, Rel s t → ∀ a t', q t = .ok (a, t') → ∃ s', p s = .ok (a, s') ∧ Rel s' t'

theorem sim_pure {α : Type} (a : α) : Sim (pure a) (pure a) := by
  intro s t h b t' he
  cases he
  exact ⟨s, rfl, h⟩

theorem sim_fail {α : Type} (p : M Buffered α) (e : Err) : Sim p (fail e) := by
  intro s t h b t' he
  cases he

theorem sim_bind {α β : Type} {p : M Buffered α} {q : M Whole α} {f : α → M Buffered β} {g : α → M Whole β} (h : Sim p q) (hf : ∀ a, Sim (f a) (g a)) :
    Sim (p >>= f) (q >>= g) := by
  intro s t hr b t' he
  simp only [bind, StateT.bind, Except.bind] at he ⊢
  cases hq : q t with
  | error e => simp only [hq] at he; cases he
  | ok r =>
    obtain ⟨a, t1⟩ := r
    simp only [hq] at he
    obtain ⟨s1, h1, h2⟩ := h s t hr a t1 hq
    simp only [h1]
    exact hf a s1 t1 h2 b t' he

theorem sim_ite {α : Type} (c : Prop) [Decidable c] {p p' : M Buffered α} {q q' : M Whole α} (h : Sim p q) (h' : Sim p' q') :
    Sim (if c then p else p') (if c then q else q') := by
  split <;> assumption

theorem length_rest {s : Buffered} {t : Whole} (h : Rel s t) (x : Bytes) (hx : (s.buffer.take s.end).drop s.start = t.tok ++ x) :
    s.start + s.tokLen + x.length = s.end := by
  have h1 := congrArg List.length hx
  rw [List.length_drop, List.length_take, List.length_append, h.size] at h1
  have := h.lo
  have := h.hi
  have := h.len
  omega

theorem current_eq {s : Buffered} {t : Whole} (h : Rel s t) (c : UInt8) (r : Bytes) (hr : t.rem = c :: r) :
    s.start + s.tokLen < s.end ∧ s.buffer[s.start + s.tokLen]? = some c := by
  obtain ⟨x, hx, h1 | ⟨h1, h2⟩⟩ := h.rest
  · rw [h1.2] at hr; cases hr
  · have hl := length_rest h x hx
    cases x with
    | nil => exact absurd rfl h1
    | cons d x =>
      rw [hr, List.cons_append] at h2
      cases h2
      simp only [List.length_cons] at hl
      refine ⟨by omega, ?_⟩
      have := congrArg (fun l => l[s.tokLen]?) hx
      rw [List.getElem?_drop, List.getElem?_take, if_pos (by omega), List.getElem?_append_right (by rw [h.len]; exact Nat.le_refl _), h.len, Nat.sub_self] at this
      rw [h.len, this]
      rfl

theorem sim_current : Sim (mCurrent buffered) (mCurrent whole) := by
  intro s t h a t' he
  simp only [mCurrent, whole, buffered, bind, Except.bind, pure, Except.pure] at he ⊢
  cases hr : t.rem with
  | nil => simp only [hr] at he; cases he
  | cons c r =>
    obtain ⟨h1, h2⟩ := current_eq h c r hr
    simp only [hr] at he
    cases he
    refine ⟨s, ?_, h⟩
    simp only [current, if_pos h1, h2]

theorem fread_spec (n : Nat) (hn : 0 < n) (file : List Bytes) (hp : ∀ p ∈ file, p ≠ []) :
    (fread n file).1 ++ (fread n file).2.flatten = file.flatten ∧ (fread n file).1.length ≤ n ∧ (∀ p ∈ (fread n file).2, p ≠ []) ∧
    ((fread n file).1 = [] → file.flatten = []) := by
  cases file with
  | nil => simp [fread]
  | cons p ps =>
    rw [fread]
    by_cases h : p.length ≤ n
    · rw [if_pos h]
      refine ⟨by simp, h, fun q hq => hp q (List.mem_cons_of_mem _ hq), fun h' => absurd h' (hp p List.mem_cons_self)⟩
    · rw [if_neg h]
      refine ⟨by simp [← List.append_assoc], by simp only [List.length_take]; omega, ?_, fun h' => ?_⟩
      · intro q hq
        rcases List.mem_cons.1 hq with rfl | hq
        · simp only [ne_eq, List.drop_eq_nil_iff]; omega
        · exact hp q (List.mem_cons_of_mem _ hq)
      · have := congrArg List.length h'
        simp only [List.length_take, List.length_nil] at this
        omega

/-- `advance` is called when all of the buffer belongs to the token -/
theorem advance_spec (s : Buffered) (size : s.buffer.length = bufSize) (pieces : ∀ p ∈ s.file, p ≠ []) (lo : s.start ≤ s.end) (hi : s.end ≤ bufSize)
    (tok : Bytes) (hlen : s.tokLen = tok.length) (hx : (s.buffer.take s.end).drop s.start = tok) :
    ∃ s', advance s = .ok (decide ((if tok.length = bufSize then [] else s.file.flatten) ≠ []), s') ∧
      Rel s' ⟨tok, if tok.length = bufSize then [] else s.file.flatten, s.needspace, s.loc⟩ := by
  have hl := congrArg List.length hx
  rw [List.length_drop, List.length_take, size] at hl
  -- after moving the token to the beginning
  obtain ⟨s1, h1, e1, e2, e3, e4, e5, e6, e7⟩ : ∃ s1, compact s = .ok s1 ∧ s1.start = 0 ∧ s1.end = tok.length ∧ s1.buffer.length = bufSize ∧
      s1.buffer.take s1.end = tok ∧ s1.file = s.file ∧ s1.tokLen = s.tokLen ∧ (s1.needspace = s.needspace ∧ s1.loc = s.loc) := by
    unfold compact
    by_cases h0 : s.start > 0
    · rw [if_pos h0, if_pos ⟨lo, by omega⟩]
      refine ⟨_, rfl, rfl, ?_, ?_, ?_, rfl, rfl, rfl, rfl⟩
      · show s.end - s.start = _; omega
      · simp only [List.length_append, List.length_drop, List.length_take, size]; omega
      · show List.take (s.end - s.start) (List.drop s.start (s.buffer.take s.end) ++ _) = tok
        rw [hx, List.take_append_of_le_length (by omega), List.take_of_length_le (by omega)]
    · rw [if_neg h0]
      have h0' : s.start = 0 := by omega
      rw [h0', List.drop_zero] at hx
      exact ⟨s, rfl, h0', by omega, size, hx, rfl, rfl, rfl, rfl⟩
  unfold advance
  simp only [bind, Except.bind, h1]
  by_cases hb : tok.length = bufSize
  · rw [if_pos (by omega), if_pos hb]
    refine ⟨s1, by simp [pure, Except.pure], ?_⟩
    exact ⟨e3, by rw [e5]; exact pieces, by omega, by omega, by rw [e6, hlen], ⟨[], by rw [e1, List.drop_zero, e4, List.append_nil], Or.inl ⟨rfl, rfl⟩⟩,
      e7.1, e7.2⟩
  · rw [if_neg (by omega), if_neg hb]
    obtain ⟨f1, f2, f3, f4⟩ := fread_spec (bufSize - s1.end) (by omega) s1.file (by rw [e5]; exact pieces)
    generalize fread (bufSize - s1.end) s1.file = r at *
    obtain ⟨data, file⟩ := r
    simp only at f1 f2 f3 f4 ⊢
    rw [if_pos (by omega)]
    refine ⟨{ s1 with
      buffer := s1.buffer.take s1.end ++ data ++ s1.buffer.drop (s1.end + data.length)
      file
      «end» := s1.end + data.length }, ?_, ?_⟩
    · simp only [pure, Except.pure]
      congr 2
      rw [decide_eq_decide, ← e5]
      constructor
      · intro h h'
        rw [← f1, List.append_eq_nil_iff] at h'
        rw [h'.1] at h
        exact h rfl
      · intro h h'
        exact h (f4 (List.length_eq_zero_iff.1 h'))
    · refine ⟨?_, f3, ?_, ?_, ?_, ⟨data, ?_, ?_⟩, e7.1, e7.2⟩
      · simp only [List.length_append, List.length_take, List.length_drop, e3]; omega
      · show s1.start ≤ s1.end + data.length; omega
      · show s1.end + data.length ≤ bufSize; omega
      · show s1.tokLen = tok.length; omega
      · show List.drop s1.start (List.take (s1.end + data.length) (s1.buffer.take s1.end ++ data ++ _)) = tok ++ data
        rw [e1, List.drop_zero, e4, e2, List.take_append_of_le_length (by simp), List.take_of_length_le (by simp)]
      · show _ ∨ data ≠ [] ∧ s.file.flatten = data ++ file.flatten
        by_cases hd : data = []
        · exact Or.inl ⟨hd, by rw [← e5]; exact f4 hd⟩
        · exact Or.inr ⟨hd, by rw [← e5]; exact f1.symm⟩

theorem sim_next (move : Bool) : Sim (mNext buffered move) (mNext whole move) := by
  intro s t h a t' he
  simp only [mNext, whole, buffered] at he ⊢
  obtain ⟨x, hx, hrest⟩ := h.rest
  have hl := length_rest h x hx
  cases hr : t.rem with
  | nil =>
    simp only [hr] at he
    cases he
    rcases hrest with ⟨rfl, -⟩ | ⟨h1, h2⟩
    · simp only [List.length_nil] at hl
      refine ⟨s, ?_, h⟩
      unfold next
      rw [if_pos (by omega)]
      rfl
    · rw [hr] at h2
      exact absurd (List.append_eq_nil_iff.1 h2.symm).1 h1
  | cons c r =>
    obtain ⟨h1, h2⟩ := current_eq h c r hr
    rcases hrest with ⟨-, h3⟩ | ⟨h3, h4⟩
    · rw [hr] at h3; cases h3
    · cases x with
      | nil => exact absurd rfl h3
      | cons d x =>
        rw [hr, List.cons_append] at h4
        obtain ⟨rfl, rfl⟩ := List.cons.inj h4
        simp only [List.length_cons] at hl
        have hlo := h.lo
        have hhi := h.hi
        have hlen := h.len
        have hsize := h.size
        simp only [hr] at he
        unfold next
        rw [if_neg (by omega)]
        simp only [current, if_pos h1, h2, bind, Except.bind]
        cases move with
        | true =>
          simp only [if_true] at he ⊢
          cases he
          have hx' : (s.buffer.take s.end).drop (s.start + 1) = (t.tok ++ [c]).tail ++ x := by
            rw [← List.tail_drop, hx]
            cases t.tok <;> simp
          have htl : (t.tok ++ [c]).tail.length = t.tok.length := by simp
          by_cases hn : s.start + 1 + s.tokLen ≥ s.end
          · rw [if_pos hn]
            have : x = [] := List.length_eq_zero_iff.1 (by omega)
            subst this
            rw [List.append_nil] at hx'
            obtain ⟨s', g1, g2⟩ := advance_spec { s with start := s.start + 1, loc := s.loc.step c } hsize h.pieces (by show s.start + 1 ≤ s.end; omega) hhi
              _ (by rw [htl]; exact hlen) hx'
            have hne : ¬ (t.tok ++ [c]).tail.length = bufSize := by rw [htl]; unfold bufSize at *; omega
            simp only [if_neg hne] at g1 g2
            refine ⟨s', ?_, ?_⟩
            · rw [g1]; simp
            · simpa only [h.needspace, h.loc, List.nil_append] using g2
          · rw [if_neg hn]
            have hxn : x ≠ [] := by rintro rfl; simp only [List.length_nil] at hl; omega
            refine ⟨{ s with start := s.start + 1, loc := s.loc.step c }, ?_, ?_⟩
            · simp only [pure, Except.pure]
              have : decide (x ++ s.file.flatten ≠ []) = true := by
                rw [decide_eq_true_eq]
                intro h'
                exact hxn (List.append_eq_nil_iff.1 h').1
              rw [this]
            · exact ⟨hsize, h.pieces, by show s.start + 1 ≤ s.end; omega, hhi, by rw [htl]; exact hlen, ⟨x, hx', Or.inr ⟨hxn, rfl⟩⟩, h.needspace,
                by show s.loc.step c = t.loc.step c; rw [h.loc]⟩
        | false =>
          simp only [Bool.false_eq_true, if_false] at he ⊢
          cases he
          have hx' : (s.buffer.take s.end).drop s.start = (t.tok ++ [c]) ++ x := by rw [hx]; simp
          have htl : (t.tok ++ [c]).length = t.tok.length + 1 := by simp
          by_cases hn : s.start + (s.tokLen + 1) ≥ s.end
          · rw [if_pos hn]
            have : x = [] := List.length_eq_zero_iff.1 (by omega)
            subst this
            rw [List.append_nil] at hx'
            obtain ⟨s', g1, g2⟩ := advance_spec { s with tokLen := s.tokLen + 1, loc := s.loc.step c } hsize h.pieces hlo hhi
              _ (by rw [htl, ← hlen]) hx'
            simp only [htl] at g1 g2
            refine ⟨s', ?_, ?_⟩
            · rw [g1]; simp
            · simpa only [h.needspace, h.loc, List.nil_append] using g2
          · rw [if_neg hn]
            have hxn : x ≠ [] := by rintro rfl; simp only [List.length_nil] at hl; omega
            have hne : ¬ t.tok.length + 1 = bufSize := by omega
            simp only [if_neg hne]
            refine ⟨{ s with tokLen := s.tokLen + 1, loc := s.loc.step c }, ?_, ?_⟩
            · simp only [pure, Except.pure]
              have : decide (x ++ s.file.flatten ≠ []) = true := by
                rw [decide_eq_true_eq]
                intro h'
                exact hxn (List.append_eq_nil_iff.1 h').1
              rw [this]
            · exact ⟨hsize, h.pieces, hlo, hhi, by rw [htl, ← hlen], ⟨x, hx', Or.inr ⟨hxn, rfl⟩⟩, h.needspace,
                by show s.loc.step c = t.loc.step c; rw [h.loc]⟩

theorem sim_consume (n : Bool) : Sim (mConsume buffered n) (mConsume whole n) := by
  intro s t h a t' he
  cases he
  obtain ⟨x, hx, hrest⟩ := h.rest
  have hl := length_rest h x hx
  refine ⟨_, rfl, h.size, h.pieces, ?_, h.hi, rfl, ⟨x, ?_, hrest⟩, rfl, h.loc⟩
  · show s.start + s.tokLen ≤ s.end; omega
  · show List.drop (s.start + s.tokLen) (s.buffer.take s.end) = [] ++ x
    rw [← List.drop_drop, hx, h.len, List.drop_left, List.nil_append]

theorem sim_needspace : Sim (mNeedspace buffered) (mNeedspace whole) := by
  intro s t h a t' he
  cases he
  exact ⟨s, by show Except.ok (s.needspace, s) = _; rw [h.needspace]; rfl, h⟩

theorem token_eq {s : Buffered} {t : Whole} (h : Rel s t) : (s.buffer.drop s.start).take s.tokLen = t.tok := by
  obtain ⟨x, hx, hrest⟩ := h.rest
  have hl := length_rest h x hx
  have := congrArg (List.take s.tokLen) hx
  rw [List.drop_take, List.take_take, Nat.min_eq_left (by omega), h.len, List.take_left, ← h.len] at this
  exact this

theorem sim_token : Sim (mToken buffered) (mToken whole) := by
  intro s t h a t' he
  cases he
  refine ⟨s, ?_, h⟩
  show Except.ok (cString ((s.buffer.drop s.start).take s.tokLen), s) = _
  rw [token_eq h]
  rfl

theorem sim_mark : Sim (mMark buffered) (mMark whole) := by
  intro s t h a t' he
  cases he
  exact ⟨_, rfl, h.size, h.pieces, h.lo, h.hi, h.len, h.rest, h.needspace, by simp only [buffered, whole, h.loc]⟩

theorem sim_loc : Sim (mLoc buffered) (mLoc whole) := by
  intro s t h a t' he
  cases he
  exact ⟨s, by show Except.ok (s.loc, s) = _; rw [h.loc]; rfl, h⟩

theorem sim_more : Sim (mMore buffered) (mMore whole) := by
  intro s t h a t' he
  cases he
  refine ⟨s, ?_, h⟩
  show Except.ok (decide (s.end > s.start), s) = Except.ok (decide (t.tok ++ t.rem ≠ []), s)
  congr 2
  rw [decide_eq_decide]
  obtain ⟨x, hx, hrest⟩ := h.rest
  have hl := length_rest h x hx
  have hlen := h.len
  constructor
  · intro h1 h2
    obtain ⟨h3, h4⟩ := List.append_eq_nil_iff.1 h2
    rw [h3, List.length_nil] at hlen
    rcases hrest with ⟨rfl, -⟩ | ⟨h5, h6⟩
    · simp only [List.length_nil] at hl; omega
    · rw [h4] at h6; exact h5 (List.append_eq_nil_iff.1 h6.symm).1
  · intro h1
    by_cases ht : t.tok = []
    · rcases hrest with ⟨h2, h3⟩ | ⟨h2, h3⟩
      · rw [ht, h3] at h1; exact absurd rfl h1
      · have := List.length_pos_iff.2 h2; omega
    · have := List.length_pos_iff.2 ht; omega

theorem cString_cut (a : Bytes) (r : Bytes) : cString (a ++ 0 :: r) = cString a := by
  induction a with
  | nil => rfl
  | cons c a ih =>
    simp only [cString, List.cons_append] at ih ⊢
    rw [List.takeWhile_cons, List.takeWhile_cons, ih]

theorem sim_cut : Sim (mCut buffered) (mCut whole) := by
  intro s t h a t' he
  simp only [mCut, whole, buffered] at he ⊢
  cases hr : t.rem with
  | nil => rw [hr] at he; cases ht : t.tok <;> simp only [ht] at he <;> cases he
  | cons c r =>
    cases ht : t.tok with
    | nil => simp only [ht] at he; cases he
    | cons d tok =>
      simp only [ht, hr] at he
      cases he
      obtain ⟨h1, h2⟩ := current_eq h c r hr
      have hhi := h.hi
      have hsize := h.size
      have hlo := h.lo
      have hlen := h.len
      obtain ⟨x, hx, hrest⟩ := h.rest
      have hl := length_rest h x hx
      rw [if_pos (by omega)]
      have hset : ((s.buffer.set (s.start + s.tokLen) 0).take s.end).drop s.start = t.tok ++ x.set 0 0 := by
        rw [List.take_set, List.drop_set, if_neg (by omega), hx, Nat.add_sub_cancel_left, hlen, List.set_append_right _ _ (Nat.le_refl _), Nat.sub_self]
      cases x with
      | nil => simp only [List.length_nil] at hl; omega
      | cons e x =>
        rw [List.set_cons_zero] at hset
        refine ⟨{ s with buffer := s.buffer.set (s.start + s.tokLen) 0 }, ?_, ?_⟩
        rotate_left
        · refine ⟨by simp [hsize], h.pieces, hlo, hhi, by rw [ht] at hlen; exact hlen, ⟨0 :: x, by rw [ht] at hset; exact hset, ?_⟩, h.needspace, h.loc⟩
          rcases hrest with ⟨h3, -⟩ | ⟨-, h3⟩
          · cases h3
          · refine Or.inr ⟨by simp, ?_⟩
            rw [hr, List.cons_append] at h3
            obtain ⟨-, rfl⟩ := List.cons.inj h3
            rfl
        · congr 2
          have hd : (s.buffer.set (s.start + s.tokLen) 0).drop s.start = t.tok ++ 0 :: x ++ (s.buffer.set (s.start + s.tokLen) 0).drop s.end := by
            rw [← hset]
            conv => lhs; rw [← List.take_append_drop s.end (s.buffer.set (s.start + s.tokLen) 0)]
            rw [List.drop_append_of_le_length (by simp only [List.length_take, List.length_set]; omega)]
          rw [← List.drop_drop, hd, ht, List.append_assoc]
          show cString (tok ++ (0 :: x ++ _)) = _
          rw [List.cons_append, cString_cut]

macro "sim" : tactic => `(tactic| repeat' (with_reducible first
  | exact sim_pure _ | exact sim_fail _ _ | exact sim_current | exact sim_next _ | exact sim_consume _ | exact sim_needspace | exact sim_token
  | exact sim_mark | exact sim_loc | exact sim_more | exact sim_cut | assumption | apply sim_bind | apply sim_ite | intro _))

theorem sim_commentLoop (n : Nat) (prev : UInt8) : Sim (commentLoop buffered n prev) (commentLoop whole n prev) := by
  induction n generalizing prev with
  | zero => exact sim_fail _ _
  | succ n ih =>
    unfold commentLoop
    sim

theorem sim_consumeComment (n : Nat) : Sim (consumeComment buffered n) (consumeComment whole n) := by
  unfold consumeComment
  have := sim_commentLoop n 0
  sim

theorem sim_stringLoop (n len : Nat) (buf : Bytes) : Sim (stringLoop buffered n len buf) (stringLoop whole n len buf) := by
  induction n generalizing len buf with
  | zero => exact sim_fail _ _
  | succ n ih =>
    unfold stringLoop
    sim
    · exact ih _ _
    · split
      · exact ih _ _
      · exact sim_fail _ _
    · split
      · exact ih _ _
      · exact sim_fail _ _

theorem sim_parseString (n : Nat) : Sim (parseString buffered n) (parseString whole n) := by
  unfold parseString
  have := sim_stringLoop n 1024 []
  sim
  split <;> sim

theorem sim_addr6Loop (n : Nat) : Sim (addr6Loop buffered n) (addr6Loop whole n) := by
  induction n with
  | zero => exact sim_fail _ _
  | succ n ih => unfold addr6Loop; sim

theorem sim_ifnameLoop (n : Nat) (name : Bytes) : Sim (ifnameLoop buffered n name) (ifnameLoop whole n name) := by
  induction n generalizing name with
  | zero => exact sim_fail _ _
  | succ n ih =>
    unfold ifnameLoop
    sim
    · exact ih _
    · exact ih _

theorem sim_parseAddr6 (lc : Libc) (n : Nat) : Sim (parseAddr6 buffered lc n) (parseAddr6 whole lc n) := by
  unfold parseAddr6
  have h1 := sim_addr6Loop n
  have h2 := sim_ifnameLoop n []
  sim
  split
  · sim
  · sim
    split <;> sim

theorem sim_addr4Loop (n : Nat) : Sim (addr4Loop buffered n) (addr4Loop whole n) := by
  induction n with
  | zero => exact sim_fail _ _
  | succ n ih => unfold addr4Loop; sim

theorem sim_parseAddr4 (lc : Libc) (n : Nat) : Sim (parseAddr4 buffered lc n) (parseAddr4 whole lc n) := by
  unfold parseAddr4
  have h1 := sim_addr4Loop n
  sim
  split <;> sim

theorem sim_numberLoop (n : Nat) (d : Bool) : Sim (numberLoop buffered n d) (numberLoop whole n d) := by
  induction n generalizing d with
  | zero => exact sim_fail _ _
  | succ n ih =>
    unfold numberLoop
    sim
    · exact ih _
    · exact ih _

theorem sim_parseNumber (lc : Libc) (n : Nat) : Sim (parseNumber buffered lc n) (parseNumber whole lc n) := by
  unfold parseNumber
  have h1 := sim_numberLoop n true
  have h2 := sim_parseAddr4 lc n
  sim
  split <;> sim

theorem sim_keywordLoop (n : Nat) : Sim (keywordLoop buffered n) (keywordLoop whole n) := by
  induction n with
  | zero => exact sim_fail _ _
  | succ n ih => unfold keywordLoop; sim

theorem sim_parseKeyword (n : Nat) : Sim (parseKeyword buffered n) (parseKeyword whole n) := by
  unfold parseKeyword
  have h1 := sim_keywordLoop n
  sim
  split <;> sim

theorem sim_lineLoop (n : Nat) : Sim (lineLoop buffered n) (lineLoop whole n) := by
  induction n with
  | zero => exact sim_fail _ _
  | succ n ih => unfold lineLoop; sim

theorem sim_skipLine (n : Nat) : Sim (skipLine buffered n) (skipLine whole n) := by
  unfold skipLine
  have h1 := sim_lineLoop n
  sim

theorem sim_lex (lc : Libc) (fuel n : Nat) : Sim (lex buffered lc fuel n) (lex whole lc fuel n) := by
  induction n with
  | zero => exact sim_fail _ _
  | succ n ih =>
    unfold lex
    have h1 := sim_consumeComment fuel
    have h2 := sim_skipLine fuel
    have h3 := sim_parseString fuel
    have h4 := sim_parseAddr6 lc fuel
    have h5 := sim_parseNumber lc fuel
    have h6 := sim_parseKeyword fuel
    sim
    split <;> sim

theorem sim_tokens (lc : Libc) (fuel n : Nat) : Sim (tokens buffered lc fuel n) (tokens whole lc fuel n) := by
  induction n with
  | zero => exact sim_fail _ _
  | succ n ih =>
    unfold tokens
    have h1 := sim_lex lc fuel fuel
    sim
    split <;> sim

/-! ## No failure -/

def Ok {α : Type} (p : M Whole α) (t : Whole) (Q : α → Whole → Prop) : Prop := ∃ a t', p t = .ok (a, t') ∧ Q a t'

theorem ok_pure {α : Type} {a : α} {t : Whole} {Q : α → Whole → Prop} (h : Q a t) : Ok (pure a) t Q := ⟨a, t, rfl, h⟩

theorem ok_bind {α β : Type} {p : M Whole α} {f : α → M Whole β} {t : Whole} {Q : α → Whole → Prop} {Q' : β → Whole → Prop} (h : Ok p t Q)
    (hf : ∀ a t', Q a t' → Ok (f a) t' Q') : Ok (p >>= f) t Q' := by
  obtain ⟨a, t1, h1, h2⟩ := h
  obtain ⟨b, t2, h3, h4⟩ := hf a t1 h2
  refine ⟨b, t2, ?_, h4⟩
  simp only [bind, StateT.bind, Except.bind, h1, h3]

theorem ok_mono {α : Type} {p : M Whole α} {t : Whole} {Q Q' : α → Whole → Prop} (h : Ok p t Q) (hq : ∀ a t', Q a t' → Q' a t') : Ok p t Q' := by
  obtain ⟨a, t1, h1, h2⟩ := h
  exact ⟨a, t1, h1, hq a t1 h2⟩

theorem ok_ite {α : Type} {c : Prop} [Decidable c] {p q : M Whole α} {t : Whole} {Q : α → Whole → Prop} (h1 : c → Ok p t Q) (h2 : ¬ c → Ok q t Q) :
    Ok (if c then p else q) t Q := by
  split
  · exact h1 ‹_›
  · exact h2 ‹_›

theorem ok_next (move : Bool) (t : Whole) : Ok (mNext whole move) t fun b t' =>
    (b = true → t'.rem ≠ []) ∧ t'.rem.length ≤ t.rem.length - 1 ∧ (move = true → t'.tok.length = t.tok.length) ∧
    (t.rem ≠ [] → move = false → t'.tok ≠ []) := by
  unfold Ok
  simp only [mNext, whole]
  cases hr : t.rem with
  | nil => exact ⟨false, t, rfl, by simp, by simp [hr], by simp, by simp⟩
  | cons c r =>
    cases move with
    | true => exact ⟨_, _, rfl, by simp, by simp, by simp, by simp⟩
    | false =>
      refine ⟨_, _, rfl, by simp, ?_, by simp, by simp⟩
      simp only [List.length_cons, Nat.add_sub_cancel]
      split <;> simp

theorem ok_current {t : Whole} (h : t.rem ≠ []) : Ok (mCurrent whole) t fun _ t' => t' = t := by
  unfold Ok
  simp only [mCurrent, whole]
  cases hr : t.rem with
  | nil => exact absurd hr h
  | cons c r => exact ⟨c, t, rfl, rfl⟩

theorem ok_consume (n : Bool) (t : Whole) : Ok (mConsume whole n) t fun _ t' => t'.tok = [] ∧ t'.rem = t.rem := ⟨(), _, rfl, rfl, rfl⟩
theorem ok_needspace (t : Whole) : Ok (mNeedspace whole) t fun _ t' => t' = t := ⟨_, t, rfl, rfl⟩
theorem ok_token (t : Whole) : Ok (mToken whole) t fun _ t' => t' = t := ⟨_, t, rfl, rfl⟩
theorem ok_mark (t : Whole) : Ok (mMark whole) t fun _ t' => t'.tok = t.tok ∧ t'.rem = t.rem := ⟨_, _, rfl, rfl, rfl⟩
theorem ok_loc (t : Whole) : Ok (mLoc whole) t fun _ t' => t' = t := ⟨_, t, rfl, rfl⟩
theorem ok_more (t : Whole) : Ok (mMore whole) t fun b t' => t' = t ∧ (b = true → t.tok ++ t.rem ≠ []) := by
  refine ⟨_, t, rfl, rfl, fun h => ?_⟩
  simpa only [whole, decide_eq_true_eq] using h

theorem ok_cut {t : Whole} (h1 : t.tok ≠ []) (h2 : t.rem ≠ []) : Ok (mCut whole) t fun _ t' => t'.rem.length = t.rem.length := by
  unfold Ok
  simp only [mCut, whole]
  cases ht : t.tok with
  | nil => exact absurd ht h1
  | cons d tok =>
    cases hr : t.rem with
    | nil => exact absurd hr h2
    | cons c r => exact ⟨_, _, rfl, by simp⟩

theorem tok_nil {t t' : Whole} (h : t.tok = []) (h' : true = true → t'.tok.length = t.tok.length) : t'.tok = [] := by
  rw [h] at h'
  exact List.length_eq_zero_iff.1 (h' rfl)

theorem ok_commentLoop (n : Nat) (prev : UInt8) (t : Whole) (hn : t.rem.length < n) (ht : t.tok = []) :
    Ok (commentLoop whole n prev) t fun _ t' => t'.rem.length ≤ t.rem.length ∧ t'.tok = [] := by
  induction n generalizing prev t with
  | zero => omega
  | succ n ih =>
    unfold commentLoop
    refine ok_bind (ok_next _ _) fun b t1 ⟨h1, h2, h3, _⟩ => ok_ite (fun hb => ?_) fun _ => ok_pure ⟨by omega, tok_nil ht h3⟩
    have hr := h1 hb
    have hl := List.length_pos_iff.2 hr
    refine ok_bind (ok_current hr) fun c t2 e => ?_
    subst e
    refine ok_ite (fun _ => ?_) fun _ => ?_
    · refine ok_bind (ok_next _ _) fun _ t3 ⟨_, g2, g3, _⟩ => ok_bind (ok_consume _ _) fun _ t4 ⟨e1, e2⟩ => ok_pure ⟨by rw [e2]; omega, e1⟩
    · refine ok_bind (ok_current hr) fun c t2 e => ?_
      subst e
      exact ok_mono (ih c _ (by omega) (tok_nil ht h3)) fun _ _ ⟨e1, e2⟩ => ⟨by omega, e2⟩

theorem push_ok (len : Nat) (buf : Bytes) (c : UInt8) (h0 : 0 < len) (h : buf.length ≤ len) :
    ∃ len', push len buf c = .ok (len', buf ++ [c]) ∧ 0 < len' ∧ (buf ++ [c]).length ≤ len' := by
  unfold push
  simp only
  have : buf.length < (if buf.length ≥ len then len * 2 else len) := by split <;> omega
  refine ⟨_, if_pos this, by omega, by simp only [List.length_append, List.length_cons, List.length_nil]; omega⟩

theorem ok_stringLoop (n len : Nat) (buf : Bytes) (t : Whole) (hn : t.rem.length < n) (ht : t.tok = []) (h0 : 0 < len) (hl : buf.length ≤ len) :
    Ok (stringLoop whole n len buf) t fun _ t' => t'.rem.length ≤ t.rem.length - 1 ∧ t'.tok = [] := by
  induction n generalizing t len buf with
  | zero => omega
  | succ n ih =>
    unfold stringLoop
    refine ok_bind (ok_next _ _) fun b t1 ⟨h1, h2, h3, _⟩ => ok_ite (fun hb => ?_) fun _ => ok_pure ⟨by omega, tok_nil ht h3⟩
    have hr := h1 hb
    have hp := List.length_pos_iff.2 hr
    have ht1 := tok_nil ht h3
    refine ok_bind (ok_current hr) fun c t2 e => ?_
    subst e
    refine ok_ite (fun _ => ok_pure ⟨h2, ht1⟩) fun _ => ok_ite (fun _ => ?_) fun _ => ?_
    · refine ok_bind (ok_next _ _) fun b t3 ⟨g1, g2, g3, _⟩ => ok_ite (fun hb => ?_) fun _ => ok_pure ⟨by omega, tok_nil ht1 g3⟩
      have hr3 := g1 hb
      have hp3 := List.length_pos_iff.2 hr3
      have ht3 := tok_nil ht1 g3
      refine ok_bind (ok_current hr3) fun c t4 e => ?_
      subst e
      refine ok_ite (fun _ => ?_) fun _ => ?_
      · exact ok_mono (ih _ _ _ (by omega) ht3 h0 hl) fun _ _ ⟨e1, e2⟩ => ⟨by omega, e2⟩
      · obtain ⟨len', q1, q2, q3⟩ := push_ok len buf c h0 hl
        rw [q1]
        exact ok_mono (ih _ _ _ (by omega) ht3 q2 q3) fun _ _ ⟨e1, e2⟩ => ⟨by omega, e2⟩
    · obtain ⟨len', q1, q2, q3⟩ := push_ok len buf c h0 hl
      rw [q1]
      exact ok_mono (ih _ _ _ (by omega) ht1 q2 q3) fun _ _ ⟨e1, e2⟩ => ⟨by omega, e2⟩

/-- What is known after a token: it is the last one, or the input has got shorter. -/
def Post (t : Whole) (a : Tok) (t' : Whole) : Prop := (a = .eof ∨ ∃ m, a = .error m) ∨ (t'.tok = [] ∧ t'.rem.length < t.rem.length)

theorem post_error (t : Whole) (m : String) (t' : Whole) : Post t (.error m) t' := Or.inl (Or.inr ⟨m, rfl⟩)

theorem ok_parseString (n : Nat) (t : Whole) (hn : t.rem.length < n) (ht : t.tok = []) (hr : t.rem ≠ []) : Ok (parseString whole n) t (Post t) := by
  unfold parseString
  have hp := List.length_pos_iff.2 hr
  refine ok_bind (ok_needspace _) fun b t1 e => ?_
  subst e
  refine ok_ite (fun _ => ok_pure (post_error _ _ _)) fun _ => ok_bind (ok_stringLoop _ _ _ _ hn ht (by decide) (by decide)) fun a t2 ⟨h1, h2⟩ => ?_
  cases a with
  | none => exact ok_pure (post_error _ _ _)
  | some buf =>
    exact ok_bind (ok_next _ _) fun _ t3 ⟨_, g2, _, _⟩ => ok_bind (ok_consume _ _) fun _ t4 ⟨e1, e2⟩ => ok_pure (Or.inr ⟨e1, by rw [e2]; omega⟩)

theorem ok_addr6Loop (n : Nat) (t : Whole) (hn : t.rem.length < n) (hr0 : t.rem ≠ []) :
    Ok (addr6Loop whole n) t fun b t' => t'.rem.length ≤ t.rem.length - 1 ∧ (b = true → t'.tok ≠ [] ∧ t'.rem ≠ []) := by
  induction n generalizing t with
  | zero => omega
  | succ n ih =>
    unfold addr6Loop
    refine ok_bind (ok_next _ _) fun b t1 ⟨h1, h2, h3, h4⟩ => ok_ite (fun hb => ?_) fun _ => ok_pure ⟨h2, by simp⟩
    have hr := h1 hb
    have hp := List.length_pos_iff.2 hr
    refine ok_bind (ok_current hr) fun c t2 e => ?_
    subst e
    refine ok_ite (fun _ => ?_) fun _ => ok_pure ⟨h2, fun _ => ⟨h4 hr0 rfl, hr⟩⟩
    exact ok_mono (ih _ (by omega) hr) fun _ _ ⟨e1, e2⟩ => ⟨by omega, e2⟩

theorem ok_ifnameLoop (n : Nat) (name : Bytes) (t : Whole) (hn : t.rem.length < n) (hl : name.length < ifnameSize) :
    Ok (ifnameLoop whole n name) t fun a t' => t'.rem.length ≤ t.rem.length ∧ ∀ s, a = some s → s.length < ifnameSize := by
  induction n generalizing t name with
  | zero => omega
  | succ n ih =>
    unfold ifnameLoop
    refine ok_bind (ok_next _ _) fun b t1 ⟨h1, h2, h3, _⟩ => ok_ite (fun hb => ?_) fun _ => ok_pure ⟨by omega, by simp⟩
    have hr := h1 hb
    have hp := List.length_pos_iff.2 hr
    refine ok_bind (ok_current hr) fun c t2 e => ?_
    subst e
    refine ok_ite (fun _ => ok_pure ⟨by omega, by simpa using hl⟩) fun _ => ok_ite (fun _ => ?_) fun _ => ?_
    · refine ok_bind (ok_next _ _) fun b t3 ⟨g1, g2, g3, _⟩ => ok_ite (fun hb => ?_) fun _ => ok_pure ⟨by omega, by simp⟩
      have hr3 := g1 hb
      have hp3 := List.length_pos_iff.2 hr3
      refine ok_bind (ok_current hr3) fun c t4 e => ?_
      subst e
      refine ok_ite (fun _ => ok_pure ⟨by omega, by simp⟩) fun hne => ?_
      rw [if_pos hl]
      exact ok_mono (ih _ _ (by omega) (by simp only [List.length_append, List.length_cons, List.length_nil]; unfold ifnameSize at *; omega))
        fun _ _ ⟨e1, e2⟩ => ⟨by omega, e2⟩
    · refine ok_ite (fun _ => ok_pure ⟨by omega, by simp⟩) fun hne => ?_
      rw [if_pos hl]
      exact ok_mono (ih _ _ (by omega) (by simp only [List.length_append, List.length_cons, List.length_nil]; unfold ifnameSize at *; omega))
        fun _ _ ⟨e1, e2⟩ => ⟨by omega, e2⟩

theorem ok_parseAddr6 (lc : Libc) (n : Nat) (t : Whole) (hn : t.rem.length < n) (hr : t.rem ≠ []) : Ok (parseAddr6 whole lc n) t (Post t) := by
  unfold parseAddr6
  have hp := List.length_pos_iff.2 hr
  refine ok_bind (ok_needspace _) fun b t1 e => ?_
  subst e
  refine ok_ite (fun _ => ok_pure (post_error _ _ _)) fun _ => ok_bind (ok_addr6Loop _ _ hn hr) fun b t2 ⟨h1, h2⟩ => ?_
  refine ok_ite (fun hb => ?_) fun _ => ok_pure (post_error _ _ _)
  obtain ⟨h3, h4⟩ := h2 hb
  refine ok_bind (ok_current h4) fun c t3 e => ?_
  subst e
  refine ok_ite (fun _ => ?_) fun _ => ok_pure (post_error _ _ _)
  refine ok_bind (ok_cut h3 h4) fun str t4 h5 => ?_
  cases lc.pton6 str with
  | none => exact ok_pure (post_error _ _ _)
  | some a =>
    refine ok_ite (fun _ => ?_) fun _ => ?_
    · refine ok_bind (ok_consume _ _) fun _ t5 ⟨_, e2⟩ => ok_bind (ok_ifnameLoop _ _ _ (by rw [e2]; omega) (by decide)) fun r t6 ⟨g1, g2⟩ => ?_
      cases r with
      | none => exact ok_pure (post_error _ _ _)
      | some name =>
        refine ok_ite (fun _ => ?_) fun h => absurd (g2 name rfl) h
        exact ok_bind (ok_next _ _) fun _ t7 ⟨_, k2, _, _⟩ => ok_bind (ok_consume _ _) fun _ t8 ⟨e3, e4⟩ =>
          ok_pure (Or.inr ⟨e3, by rw [e4]; rw [e2] at g1; omega⟩)
    · exact ok_bind (ok_next _ _) fun _ t5 ⟨_, g2, _, _⟩ => ok_bind (ok_consume _ _) fun _ t6 ⟨e1, e2⟩ => ok_pure (Or.inr ⟨e1, by rw [e2]; omega⟩)

theorem ok_addr4Loop (n : Nat) (t : Whole) (hn : t.rem.length < n) : Ok (addr4Loop whole n) t fun _ t' => t'.rem.length ≤ t.rem.length - 1 := by
  induction n generalizing t with
  | zero => omega
  | succ n ih =>
    unfold addr4Loop
    refine ok_bind (ok_next _ _) fun b t1 ⟨h1, h2, h3, h4⟩ => ok_ite (fun hb => ?_) fun _ => ok_pure h2
    have hr := h1 hb
    have hp := List.length_pos_iff.2 hr
    refine ok_bind (ok_current hr) fun c t2 e => ?_
    subst e
    refine ok_ite (fun _ => ?_) fun _ => ok_pure h2
    exact ok_mono (ih _ (by omega)) fun _ _ e1 => by omega

theorem ok_parseAddr4 (lc : Libc) (n : Nat) (t : Whole) (hn : t.rem.length < n) :
    Ok (parseAddr4 whole lc n) t fun a t' => (∃ m, a = .error m) ∨ (t'.tok = [] ∧ t'.rem.length ≤ t.rem.length) := by
  unfold parseAddr4
  refine ok_bind (ok_needspace _) fun b t1 e => ?_
  subst e
  refine ok_ite (fun _ => ok_pure (Or.inl ⟨_, rfl⟩)) fun _ => ok_bind (ok_addr4Loop _ _ hn) fun _ t2 h1 => ok_bind (ok_token _) fun str t3 e => ?_
  subst e
  cases lc.pton4 str with
  | none => exact ok_pure (Or.inl ⟨_, rfl⟩)
  | some a => exact ok_bind (ok_consume _ _) fun _ t4 ⟨e1, e2⟩ => ok_pure (Or.inr ⟨e1, by rw [e2]; omega⟩)

theorem ok_numberLoop (n : Nat) (d : Bool) (t : Whole) (hn : t.rem.length < n) :
    Ok (numberLoop whole n d) t fun _ t' => t'.rem.length ≤ t.rem.length - 1 := by
  induction n generalizing t d with
  | zero => omega
  | succ n ih =>
    unfold numberLoop
    refine ok_bind (ok_next _ _) fun b t1 ⟨h1, h2, h3, h4⟩ => ok_ite (fun hb => ?_) fun _ => ok_pure h2
    have hr := h1 hb
    have hp := List.length_pos_iff.2 hr
    refine ok_bind (ok_current hr) fun c t2 e => ?_
    subst e
    refine ok_ite (fun _ => ok_pure h2) fun _ => ok_ite (fun _ => ok_ite (fun _ => ?_) fun _ => ok_pure h2) fun _ => ?_
    · exact ok_mono (ih _ _ (by omega)) fun _ _ e1 => by omega
    · exact ok_mono (ih _ _ (by omega)) fun _ _ e1 => by omega

theorem ok_parseNumber (lc : Libc) (n : Nat) (t : Whole) (hn : t.rem.length < n) (hr : t.rem ≠ []) : Ok (parseNumber whole lc n) t (Post t) := by
  unfold parseNumber
  have hp := List.length_pos_iff.2 hr
  refine ok_bind (ok_needspace _) fun b t1 e => ?_
  subst e
  refine ok_ite (fun _ => ok_pure (post_error _ _ _)) fun _ => ok_bind (ok_numberLoop _ _ _ hn) fun b t2 h1 => ok_ite (fun _ => ?_) fun _ => ?_
  · refine ok_mono (ok_parseAddr4 lc n t2 (by omega)) fun a t' h => ?_
    rcases h with h | ⟨h3, h4⟩
    · exact Or.inl (Or.inr h)
    · exact Or.inr ⟨h3, by omega⟩
  · refine ok_bind (ok_token _) fun str t3 e => ?_
    subst e
    cases lc.strtoull str with
    | none => exact ok_pure (post_error _ _ _)
    | some a => exact ok_bind (ok_consume _ _) fun _ t4 ⟨e1, e2⟩ => ok_pure (Or.inr ⟨e1, by rw [e2]; omega⟩)

theorem ok_keywordLoop (n : Nat) (t : Whole) (hn : t.rem.length < n) : Ok (keywordLoop whole n) t fun _ t' => t'.rem.length ≤ t.rem.length - 1 := by
  induction n generalizing t with
  | zero => omega
  | succ n ih =>
    unfold keywordLoop
    refine ok_bind (ok_next _ _) fun b t1 ⟨h1, h2, h3, h4⟩ => ok_ite (fun hb => ?_) fun _ => ok_pure h2
    have hr := h1 hb
    have hp := List.length_pos_iff.2 hr
    refine ok_bind (ok_current hr) fun c t2 e => ?_
    subst e
    refine ok_ite (fun _ => ?_) fun _ => ok_pure h2
    exact ok_mono (ih _ (by omega)) fun _ _ e1 => by omega

theorem ok_parseKeyword (n : Nat) (t : Whole) (hn : t.rem.length < n) (hr : t.rem ≠ []) : Ok (parseKeyword whole n) t (Post t) := by
  unfold parseKeyword
  have hp := List.length_pos_iff.2 hr
  refine ok_bind (ok_needspace _) fun b t1 e => ?_
  subst e
  refine ok_ite (fun _ => ok_pure (post_error _ _ _)) fun _ => ok_bind (ok_keywordLoop _ _ hn) fun _ t2 h1 => ok_bind (ok_token _) fun str t3 e => ?_
  subst e
  cases findKeyword str with
  | none => exact ok_pure (post_error _ _ _)
  | some a => exact ok_bind (ok_consume _ _) fun _ t4 ⟨e1, e2⟩ => ok_pure (Or.inr ⟨e1, by rw [e2]; omega⟩)

theorem ok_lineLoop (n : Nat) (t : Whole) (hn : t.rem.length < n) : Ok (lineLoop whole n) t fun _ t' => t'.rem.length ≤ t.rem.length - 1 := by
  induction n generalizing t with
  | zero => omega
  | succ n ih =>
    unfold lineLoop
    refine ok_bind (ok_next _ _) fun b t1 ⟨h1, h2, h3, h4⟩ => ok_ite (fun hb => ?_) fun _ => ok_pure h2
    have hr := h1 hb
    have hp := List.length_pos_iff.2 hr
    refine ok_bind (ok_current hr) fun c t2 e => ?_
    subst e
    refine ok_ite (fun _ => ok_pure h2) fun _ => ?_
    exact ok_mono (ih _ (by omega)) fun _ _ e1 => by omega

theorem ok_skipLine (n : Nat) (t : Whole) (hn : t.rem.length < n) :
    Ok (skipLine whole n) t fun _ t' => t'.tok = [] ∧ t'.rem.length ≤ t.rem.length - 1 := by
  unfold skipLine
  exact ok_bind (ok_lineLoop _ _ hn) fun _ t1 h1 => ok_bind (ok_next _ _) fun _ t2 ⟨_, g2, _, _⟩ =>
    ok_mono (ok_consume _ _) fun _ t3 ⟨e1, e2⟩ => ⟨e1, by rw [e2]; omega⟩

theorem post_mono {t t1 : Whole} (h : t1.rem.length ≤ t.rem.length) {a : Tok} {t' : Whole} (hp : Post t1 a t') : Post t a t' := by
  rcases hp with hp | ⟨h1, h2⟩
  · exact Or.inl hp
  · exact Or.inr ⟨h1, by omega⟩

theorem ok_lex (lc : Libc) (fuel n : Nat) (t : Whole) (hf : t.rem.length < fuel) (hn : t.rem.length < n) (ht : t.tok = []) :
    Ok (lex whole lc fuel n) t (Post t) := by
  induction n generalizing t with
  | zero => omega
  | succ n ih =>
    unfold lex
    refine ok_bind (ok_more _) fun b t1 ⟨e, h1⟩ => ?_
    subst e
    refine ok_ite (fun hb => ?_) fun _ => ok_pure (Or.inl (Or.inl rfl))
    have hr0 := h1 hb
    rw [ht, List.nil_append] at hr0
    refine ok_bind (ok_mark _) fun _ t2 ⟨m1, m2⟩ => ?_
    rw [← m1] at ht
    rw [← m2] at hf hn hr0
    refine ok_mono (Q := Post t2) ?_ fun a t' h => post_mono (Nat.le_of_eq (by rw [m2])) h
    clear h1 m1 m2 hb
    have hp := List.length_pos_iff.2 hr0
    refine ok_bind (ok_current hr0) fun c t3 e => ?_
    subst e
    refine ok_ite (fun _ => ?_) fun _ => ok_ite (fun _ => ?_) fun _ => ok_ite (fun _ => ?_) fun _ => ok_ite (fun _ => ?_) fun _ =>
      ok_ite (fun _ => ok_parseString _ _ hf ht hr0) fun _ => ok_ite (fun _ => ok_parseAddr6 lc _ _ hf hr0) fun _ =>
      ok_ite (fun _ => ok_parseNumber lc _ _ hf hr0) fun _ => ok_ite (fun _ => ok_parseKeyword _ _ hf hr0) fun _ => ok_pure (post_error _ _ _)
    · refine ok_bind (ok_next _ _) fun _ t4 ⟨_, g2, _, _⟩ => ok_bind (ok_consume _ _) fun _ t5 ⟨e1, e2⟩ => ?_
      rw [← e2] at g2
      exact ok_mono (ih t5 (by omega) (by omega) e1) fun _ _ => post_mono (by omega)
    · exact ok_bind (ok_next _ _) fun _ t4 ⟨_, g2, _, _⟩ => ok_bind (ok_consume _ _) fun _ t5 ⟨e1, e2⟩ => ok_pure (Or.inr ⟨e1, by rw [e2]; omega⟩)
    · refine ok_bind (ok_next _ _) fun b t4 ⟨g1, g2, g3, _⟩ => ok_ite (fun hb => ?_) fun _ => ok_pure (post_error _ _ _)
      have hr4 := g1 hb
      have ht4 := tok_nil ht g3
      refine ok_bind (ok_current hr4) fun c t5 e => ?_
      subst e
      refine ok_ite (fun _ => ?_) fun _ => ok_ite (fun _ => ok_pure (post_error _ _ _)) fun _ => ?_
      · unfold consumeComment
        refine ok_bind (ok_bind (ok_commentLoop _ _ _ (by omega) ht4) (Q' := fun a t' => t'.rem.length ≤ t5.rem.length ∧ t'.tok = [] ∧
          ∀ x, a = some x → ∃ m, x = .error m) fun b t6 ⟨k1, k2⟩ => ok_ite (fun _ => ok_pure ⟨k1, k2, by simp⟩) fun _ =>
            ok_pure ⟨k1, k2, by rintro x ⟨⟩; exact ⟨_, rfl⟩⟩) fun a t6 ⟨k1, k2, k3⟩ => ?_
        cases a with
        | some x => exact ok_pure (Or.inl (Or.inr (k3 x rfl)))
        | none => exact ok_mono (ih t6 (by omega) (by omega) k2) fun _ _ => post_mono (by omega)
      · refine ok_bind (ok_skipLine _ _ (by omega)) fun _ t6 ⟨k1, k2⟩ => ?_
        exact ok_mono (ih t6 (by omega) (by omega) k1) fun _ _ => post_mono (by omega)
    · refine ok_bind (ok_skipLine _ _ (by omega)) fun _ t6 ⟨k1, k2⟩ => ?_
      exact ok_mono (ih t6 (by omega) (by omega) k1) fun _ _ => post_mono (by omega)

theorem ok_tokens (lc : Libc) (fuel n : Nat) (t : Whole) (hf : t.rem.length < fuel) (hn : t.rem.length < n) (ht : t.tok = []) :
    Ok (tokens whole lc fuel n) t fun _ _ => True := by
  induction n generalizing t with
  | zero => omega
  | succ n ih =>
    unfold tokens
    refine ok_bind (ok_lex lc fuel fuel t hf hf ht) fun a t1 h1 => ok_bind (ok_loc _) fun l t2 e => ?_
    subst e
    cases a with
    | eof => exact ok_pure trivial
    | error m => exact ok_pure trivial
    | _ =>
      rcases h1 with h1 | ⟨h1, h2⟩
      · rcases h1 with h1 | ⟨m, h1⟩ <;> cases h1
      · exact ok_bind (ih _ (by omega) (by omega) h1) fun _ _ _ => ok_pure trivial

/-- The tokens of the scanner on the whole contents of the file -/
def scanWhole (lc : Libc) (content : Bytes) : Except Err (List (Tok × Loc)) := do
  let fuel := content.length + 2
  let (ts, _) ← tokens whole lc fuel fuel ⟨[], content, false, ⟨1, 0, 1, 0⟩⟩
  return ts

theorem scan_eq (lc : Libc) (file : List Bytes) (hp : ∀ p ∈ file, p ≠ []) : ∃ ts, scan lc file = .ok ts ∧ scanWhole lc file.flatten = .ok ts := by
  unfold scan scanWhole init
  obtain ⟨s, h1, h2⟩ := advance_spec { file, needspace := false, start := 0, «end» := 0, tokLen := 0, buffer := List.replicate bufSize 0, loc := ⟨1, 0, 1, 0⟩ }
    (by simp) hp (Nat.le_refl _) (Nat.zero_le _) [] rfl (by simp)
  have hb : ¬ ([] : Bytes).length = bufSize := by decide
  simp only [if_neg hb] at h1 h2
  obtain ⟨ts, t', h3, -⟩ := ok_tokens lc (file.flatten.length + 2) (file.flatten.length + 2) ⟨[], file.flatten, false, ⟨1, 0, 1, 0⟩⟩
    (by simp only; omega) (by simp only; omega) rfl
  obtain ⟨s', h4, -⟩ := sim_tokens lc _ _ s _ h2 ts t' h3
  refine ⟨ts, ?_, ?_⟩
  · simp only [bind, Except.bind, h1, pure, Except.pure, h4]
  · simp only [bind, Except.bind, h3, pure, Except.pure]

/-- C54: for every configuration file, and however its contents are divided into the pieces returned by successive reads, the scanner delivers the
same tokens, with the same locations and the same error message if there is an error; it never reads a byte of the buffer which
has not been read from the file, and never accesses memory outside of its buffers (these would be failures of `scan`). -/
theorem C54 (lc : Libc) (file file' : List Bytes) (hp : ∀ p ∈ file, p ≠ []) (hp' : ∀ p ∈ file', p ≠ []) (h : file.flatten = file'.flatten) :
    ∃ ts, scan lc file = .ok ts ∧ scan lc file' = .ok ts := by
  obtain ⟨ts, h1, h2⟩ := scan_eq lc file hp
  obtain ⟨ts', h3, h4⟩ := scan_eq lc file' hp'
  rw [h, h4] at h2
  cases h2
  exact ⟨ts, h1, h3⟩

namespace Demo

/-- Addresses are kept as text, numbers are decimal. -/
def libc : Libc where
  pton4 := some
  pton6 := some
  strtoull t := if t.all isDigit then some (UInt64.ofNat (t.foldl (fun n c => 10 * n + (c.toNat - 48)) 0)) else none

def lit (s : String) : Bytes := Fastd.Config.lit s

/-- A file read at once, or byte by byte -/
example : (scan libc [lit "remote [fe80::1%eth0] /* x */ port 10000;"]).toOption = some [
    (.keyword "TOK_REMOTE", ⟨1, 1, 1, 6⟩), (.addr6Scoped (lit "fe80::1") (lit "eth0"), ⟨1, 8, 1, 21⟩), (.keyword "TOK_PORT", ⟨1, 31, 1, 34⟩),
    (.uint 10000, ⟨1, 36, 1, 40⟩), (.char 59, ⟨1, 41, 1, 41⟩), (.eof, ⟨1, 41, 1, 41⟩)] ∧
    (scan libc ((lit "remote [fe80::1%eth0] /* x */ port 10000;").map fun c => [c])).toOption =
      (scan libc [lit "remote [fe80::1%eth0] /* x */ port 10000;"]).toOption := by
  decide +kernel

/-- A number of 1024 digits fills the buffer; the scanner takes this for the end of the file, whatever follows. -/
theorem C54_long_number : ∃ ts, scan libc [List.replicate 1024 48, lit "; mtu x"] = .ok ts ∧ ts.map (·.1) = [.uint 0, .eof] := by
  obtain ⟨ts, h1, h2⟩ := scan_eq libc [List.replicate 1024 48, lit "; mtu x"] (by decide)
  refine ⟨ts, h1, ?_⟩
  have : (scanWhole libc [List.replicate 1024 48, lit "; mtu x"].flatten).toOption.map (fun ts => ts.map (·.1)) = some [.uint 0, .eof] := by decide +kernel
  rw [h2] at this
  exact Option.some.inj this

end Demo

end Fastd.Config.Lex
