import Verif.Props.Lex

/-!
# C67: what is written in a configuration file is what the scanner reads
-/

namespace Fastd.Config.Lex

open Fastd.Config (Bytes findKeyword)

/-! ## Items of a configuration, independent of the scanner -/

inductive Item
  /-- a keyword -/
  | word (w : Bytes) (name : String)
  /-- a string in quotes -/
  | str (s : Bytes)
  /-- one of `;`, `:`, `{`, `}` -/
  | punct (c : UInt8)
  /-- a number, given by its text -/
  | num (text : Bytes) (n : UInt64)
  /-- an IPv4 address, given by its text -/
  | addr4 (text a : Bytes)
  /-- an IPv6 address in brackets -/
  | addr6 (text a : Bytes)
  /-- an IPv6 address with an interface name, in brackets -/
  | addr6Scoped (text a ifname : Bytes)

/-- What may stand between items -/
inductive Gap
  /-- a space, tab, line feed or carriage return -/
  | ws (c : UInt8)
  /-- a comment from `#` to the end of the line -/
  | hash (t : Bytes)
  /-- a comment from `//` to the end of the line -/
  | slashes (t : Bytes)
  /-- a comment from `/*` to `*/` -/
  | block (t : Bytes)

/-- The character `x` and backslashes are preceded by a backslash. -/
def esc (x : UInt8) : Bytes → Bytes
  | [] => []
  | c :: s => if c = x ∨ c = 92 then 92 :: c :: esc x s else c :: esc x s

def Item.text : Item → Bytes
  | .word w _ => w
  | .str s => 34 :: (esc 34 s ++ [34])
  | .punct c => [c]
  | .num t _ => t
  | .addr4 t _ => t
  | .addr6 t _ => 91 :: (t ++ [93])
  | .addr6Scoped t _ name => 91 :: (t ++ 37 :: (esc 93 name ++ [93]))

def Gap.text : Gap → Bytes
  | .ws c => [c]
  | .hash t => 35 :: (t ++ [10])
  | .slashes t => 47 :: 47 :: (t ++ [10])
  | .block t => 47 :: 42 :: (t ++ [42, 47])

def Item.tok : Item → Tok
  | .word _ name => .keyword name
  | .str s => .string s
  | .punct c => .char c
  | .num _ n => .uint n
  | .addr4 _ a => .addr4 a
  | .addr6 _ a => .addr6 a
  | .addr6Scoped _ a name => .addr6Scoped a name

/-- What can be written: known keywords; strings without NUL; digits followed by digits and letters which `strtoull` accepts; addresses which
`inet_pton` accepts; all but strings shorter than the buffer; interface names of at most 15 characters -/
def Item.Valid (lc : Libc) : Item → Prop
  | .word w name => (w, name) ∈ keywords
  | .str s => 0 ∉ s
  | .punct c => c = 59 ∨ c = 58 ∨ c = 123 ∨ c = 125
  | .num t n => (∃ d r, t = d :: r ∧ isDigit d = true ∧ ∀ c ∈ r, (isDigit c || isLower c || isUpper c) = true) ∧ t.length < 1024 ∧ lc.strtoull t = some n
  | .addr4 t a => (∃ d r, t = d :: r ∧ isDigit d = true ∧ ∀ c ∈ r, (isDigit c || c = 46) = true) ∧ 46 ∈ t ∧ t.length < 1024 ∧ lc.pton4 t = some a
  | .addr6 t a => (∀ c ∈ t, isAddr6 c = true) ∧ t.length < 1023 ∧ lc.pton6 t = some a
  | .addr6Scoped t a name => (∀ c ∈ t, isAddr6 c = true) ∧ t.length < 1023 ∧ lc.pton6 t = some a ∧ 0 ∉ name ∧ name.length < 16

def Gap.Valid : Gap → Prop
  | .ws c => c = 32 ∨ c = 10 ∨ c = 9 ∨ c = 13
  | .hash t => 10 ∉ t
  | .slashes t => 10 ∉ t
  | .block t => ¬ [42, 47] <:+: t

def Item.isPunct : Item → Bool
  | .punct _ => true
  | _ => false

/-- Several gaps -/
def gapText (gs : List Gap) : Bytes := gs.flatMap Gap.text

/-- The items, each after some gaps, and the gaps at the end of the file -/
def docText : List (List Gap × Item) → List Gap → Bytes
  | [], tr => gapText tr
  | (gs, i) :: r, tr => gapText gs ++ (i.text ++ docText r tr)

/-- There must be something between two items unless one of them is a punctuation character. -/
def Spaced : List (List Gap × Item) → Prop
  | [] => True
  | (_, i) :: r => (∀ gs j r', r = (gs, j) :: r' → gs = [] → i.isPunct = true ∨ j.isPunct = true) ∧ Spaced r

/-! ## Proof -/

theorem next_move (c : UInt8) (r : Bytes) (ns : Bool) (l : Loc) :
    mNext whole true ⟨[], c :: r, ns, l⟩ = .ok (decide (r ≠ []), ⟨[], r, ns, l.step c⟩) := rfl

theorem next_add (tok : Bytes) (c d : UInt8) (r : Bytes) (ns : Bool) (l : Loc) (h : tok.length + 1 < 1024) :
    mNext whole false ⟨tok, c :: d :: r, ns, l⟩ = .ok (true, ⟨tok ++ [c], d :: r, ns, l.step c⟩) := by
  have : ¬ tok.length + 1 = bufSize := by unfold bufSize; omega
  simp only [mNext, whole, Bool.false_eq_true, if_false, if_neg this]
  simp

theorem next_last (tok : Bytes) (c : UInt8) (ns : Bool) (l : Loc) :
    mNext whole false ⟨tok, [c], ns, l⟩ = .ok (false, ⟨tok ++ [c], [], ns, l.step c⟩) := by
  simp only [mNext, whole, Bool.false_eq_true, if_false]
  split <;> rfl

/-- What may follow an item -/
def isStop (c : UInt8) : Bool := c = 32 || c = 10 || c = 9 || c = 13 || c = 35 || c = 47 || c = 59 || c = 58 || c = 123 || c = 125

def Stop (r : Bytes) : Prop := r = [] ∨ ∃ c r', r = c :: r' ∧ isStop c = true

theorem stop_chars (c : UInt8) (h : isStop c = true) : isLower c = false ∧ isDigit c = false ∧ isUpper c = false ∧ ¬ c = 45 ∧ ¬ c = 46 := by
  have : ∀ n, n < 256 → isStop (UInt8.ofNat n) = true → isLower (UInt8.ofNat n) = false ∧ isDigit (UInt8.ofNat n) = false ∧
      isUpper (UInt8.ofNat n) = false ∧ ¬ (UInt8.ofNat n) = 45 ∧ ¬ (UInt8.ofNat n) = 46 := by decide +kernel
  have := this c.toNat c.toNat_lt
  rw [UInt8.ofNat_toNat] at this
  exact this h

theorem current_cons (tok : Bytes) (c : UInt8) (r : Bytes) (ns : Bool) (l : Loc) : mCurrent whole ⟨tok, c :: r, ns, l⟩ = .ok (c, ⟨tok, c :: r, ns, l⟩) := rfl

/-- Running a bind whose first part is known -/
theorem run_bind {α β : Type} {p : M Whole α} {f : α → M Whole β} {t t' : Whole} {a : α} (h : p t = .ok (a, t')) : (p >>= f) t = f a t' := by
  simp only [bind, StateT.bind, Except.bind, h]

theorem push_len (len : Nat) (buf : Bytes) (c : UInt8) (h0 : 0 < len) (h : buf.length ≤ len) :
    ∃ len', push len buf c = .ok (len', buf ++ [c]) ∧ 0 < len' ∧ (buf ++ [c]).length ≤ len' := push_ok len buf c h0 h

theorem run_stringLoop (s : Bytes) (d : UInt8) (r : Bytes) (ns : Bool) (l : Loc) (n len : Nat) (buf : Bytes) (hn : s.length < n) (h0 : 0 < len)
    (hl : buf.length ≤ len) :
    ∃ l', stringLoop whole n len buf ⟨[], d :: (esc 34 s ++ 34 :: r), ns, l⟩ = .ok (some (buf ++ s), ⟨[], 34 :: r, ns, l'⟩) := by
  induction s generalizing d l n len buf with
  | nil =>
    cases n with
    | zero => simp at hn
    | succ n =>
      refine ⟨l.step d, ?_⟩
      unfold stringLoop
      rw [run_bind (next_move _ _ _ _)]
      simp only [esc, List.nil_append, ne_eq, reduceCtorEq, not_false_eq_true, decide_true, if_true]
      rw [run_bind (current_cons _ _ _ _ _)]
      simp only [if_true, List.append_nil]
      rfl
  | cons c s ih =>
    cases n with
    | zero => simp at hn
    | succ n =>
      simp only [List.length_cons] at hn
      unfold stringLoop
      rw [run_bind (next_move _ _ _ _)]
      by_cases hc : c = 34 ∨ c = 92
      · simp only [esc, if_pos hc, List.cons_append, ne_eq, reduceCtorEq, not_false_eq_true, decide_true, if_true]
        rw [run_bind (current_cons _ _ _ _ _)]
        simp only [show ¬ (92 : UInt8) = 34 by decide, if_false, if_true]
        rw [run_bind (next_move _ _ _ _)]
        simp only [ne_eq, reduceCtorEq, not_false_eq_true, decide_true, if_true]
        rw [run_bind (current_cons _ _ _ _ _)]
        have hc' : ¬ c = 10 := by rcases hc with rfl | rfl <;> decide
        simp only [if_neg hc']
        obtain ⟨len', q1, q2, q3⟩ := push_ok len buf c h0 hl
        rw [q1]
        obtain ⟨l', h⟩ := ih c ((l.step d).step 92) n len' (buf ++ [c]) (by omega) q2 q3
        refine ⟨l', ?_⟩
        rw [List.append_assoc, List.singleton_append] at h
        exact h
      · simp only [esc, if_neg hc, List.cons_append, ne_eq, reduceCtorEq, not_false_eq_true, decide_true, if_true]
        rw [run_bind (current_cons _ _ _ _ _)]
        simp only [not_or] at hc
        simp only [if_neg hc.1, if_neg hc.2]
        obtain ⟨len', q1, q2, q3⟩ := push_ok len buf c h0 hl
        rw [q1]
        obtain ⟨l', h⟩ := ih c (l.step d) n len' (buf ++ [c]) (by omega) q2 q3
        refine ⟨l', ?_⟩
        rw [List.append_assoc, List.singleton_append] at h
        exact h

theorem run_keywordLoop (w : Bytes) (hw : ∀ c ∈ w, (isLower c || isDigit c || c = 45) = true) (tok : Bytes) (d : UInt8) (r : Bytes) (hr : Stop r) (ns : Bool) (l : Loc) (n : Nat)
    (hn : w.length < n) (hl : tok.length + 1 + w.length < 1024) :
    ∃ l', keywordLoop whole n ⟨tok, d :: (w ++ r), ns, l⟩ = .ok ((), ⟨tok ++ d :: w, r, ns, l'⟩) := by
  induction w generalizing tok d l n with
  | nil =>
    cases n with
    | zero => simp at hn
    | succ n =>
      refine ⟨l.step d, ?_⟩
      unfold keywordLoop
      rw [List.nil_append]
      rcases hr with rfl | ⟨e, r', rfl, he⟩
      · rw [run_bind (next_last _ _ _ _)]
        rfl
      · rw [run_bind (next_add _ _ _ _ _ _ (by simpa using hl))]
        simp only [if_true]
        rw [run_bind (current_cons _ _ _ _ _)]
        obtain ⟨h1, h2, _, h3, _⟩ := stop_chars e he
        simp only [h1, h2, decide_eq_false h3, Bool.or_self, Bool.false_eq_true, if_false]
        rfl
  | cons c w ih =>
    cases n with
    | zero => simp at hn
    | succ n =>
      simp only [List.length_cons] at hn hl
      unfold keywordLoop
      rw [List.cons_append, run_bind (next_add _ _ _ _ _ _ (by omega))]
      simp only [if_true]
      rw [run_bind (current_cons _ _ _ _ _)]
      rw [if_pos (hw c List.mem_cons_self)]
      obtain ⟨l', h⟩ := ih (fun x hx => hw x (List.mem_cons_of_mem _ hx)) (tok ++ [d]) c (l.step d) n (by omega)
        (by simp only [List.length_append, List.length_cons, List.length_nil]; omega)
      refine ⟨l', ?_⟩
      rw [h, List.append_assoc, List.singleton_append]

theorem run_numberLoop (w : Bytes) (hw : ∀ c ∈ w, (isDigit c || isLower c || isUpper c) = true) (tok : Bytes) (d : UInt8) (r : Bytes) (hr : Stop r) (ns : Bool) (l : Loc)
    (n : Nat) (b : Bool) (hn : w.length < n) (hl : tok.length + 1 + w.length < 1024) :
    ∃ l', numberLoop whole n b ⟨tok, d :: (w ++ r), ns, l⟩ = .ok (false, ⟨tok ++ d :: w, r, ns, l'⟩) := by
  induction w generalizing tok d l n b with
  | nil =>
    cases n with
    | zero => simp at hn
    | succ n =>
      refine ⟨l.step d, ?_⟩
      unfold numberLoop
      rw [List.nil_append]
      rcases hr with rfl | ⟨e, r', rfl, he⟩
      · rw [run_bind (next_last _ _ _ _)]
        rfl
      · rw [run_bind (next_add _ _ _ _ _ _ (by simpa using hl))]
        simp only [if_true]
        rw [run_bind (current_cons _ _ _ _ _)]
        obtain ⟨h1, h2, h3, _, h4⟩ := stop_chars e he
        rw [if_neg (by simp [h4])]
        simp only [h1, h2, h3, Bool.not_false, if_true, Bool.or_self, Bool.false_eq_true, if_false]
        rfl
  | cons c w ih =>
    cases n with
    | zero => simp at hn
    | succ n =>
      simp only [List.length_cons] at hn hl
      unfold numberLoop
      rw [List.cons_append, run_bind (next_add _ _ _ _ _ _ (by omega))]
      simp only [if_true]
      rw [run_bind (current_cons _ _ _ _ _)]
      have hc := hw c List.mem_cons_self
      have hdot : ¬ (c = 46 ∧ b = true) := by
        rintro ⟨rfl, -⟩
        exact absurd hc (by decide)
      rw [if_neg hdot]
      have fin : ∀ b', ∃ l', numberLoop whole n b' ⟨tok ++ [d], c :: (w ++ r), ns, l.step d⟩ = .ok (false, ⟨tok ++ d :: c :: w, r, ns, l'⟩) := by
        intro b'
        obtain ⟨l', h⟩ := ih (fun x hx => hw x (List.mem_cons_of_mem _ hx)) (tok ++ [d]) c (l.step d) n b' (by omega)
          (by simp only [List.length_append, List.length_cons, List.length_nil]; omega)
        exact ⟨l', by rw [h, List.append_assoc, List.singleton_append]⟩
      by_cases hd : isDigit c = true
      · rw [if_neg (by simp [hd])]
        exact fin b
      · rw [if_pos (by simp [hd])]
        have hu : (isLower c || isUpper c) = true := by simpa [hd] using hc
        rw [if_pos hu]
        exact fin false

/-- The digits before the first dot -/
theorem run_numberLoop_dot (w : Bytes) (hw : ∀ c ∈ w, isDigit c = true) (tok : Bytes) (d : UInt8) (r : Bytes) (ns : Bool) (l : Loc)
    (n : Nat) (hn : w.length < n) (hl : tok.length + 1 + w.length < 1024) :
    ∃ l', numberLoop whole n true ⟨tok, d :: (w ++ 46 :: r), ns, l⟩ = .ok (true, ⟨tok ++ d :: w, 46 :: r, ns, l'⟩) := by
  induction w generalizing tok d l n with
  | nil =>
    cases n with
    | zero => simp at hn
    | succ n =>
      refine ⟨l.step d, ?_⟩
      unfold numberLoop
      rw [List.nil_append, run_bind (next_add _ _ _ _ _ _ (by simpa using hl))]
      simp only [if_true]
      rw [run_bind (current_cons _ _ _ _ _)]
      rfl
  | cons c w ih =>
    cases n with
    | zero => simp at hn
    | succ n =>
      simp only [List.length_cons] at hn hl
      unfold numberLoop
      rw [List.cons_append, run_bind (next_add _ _ _ _ _ _ (by omega))]
      simp only [if_true]
      rw [run_bind (current_cons _ _ _ _ _)]
      have hc := hw c List.mem_cons_self
      have hdot : ¬ (c = 46 ∧ True) := by
        rintro ⟨rfl, -⟩
        exact absurd hc (by decide)
      rw [if_neg hdot, if_neg (by simp [hc])]
      obtain ⟨l', h⟩ := ih (fun x hx => hw x (List.mem_cons_of_mem _ hx)) (tok ++ [d]) c (l.step d) n (by omega)
        (by simp only [List.length_append, List.length_cons, List.length_nil]; omega)
      exact ⟨l', by rw [h, List.append_assoc, List.singleton_append]⟩

theorem run_addr4Loop (w : Bytes) (hw : ∀ c ∈ w, (isDigit c || c = 46) = true) (tok : Bytes) (d : UInt8) (r : Bytes) (hr : Stop r) (ns : Bool) (l : Loc) (n : Nat)
    (hn : w.length < n) (hl : tok.length + 1 + w.length < 1024) :
    ∃ l', addr4Loop whole n ⟨tok, d :: (w ++ r), ns, l⟩ = .ok ((), ⟨tok ++ d :: w, r, ns, l'⟩) := by
  induction w generalizing tok d l n with
  | nil =>
    cases n with
    | zero => simp at hn
    | succ n =>
      refine ⟨l.step d, ?_⟩
      unfold addr4Loop
      rw [List.nil_append]
      rcases hr with rfl | ⟨e, r', rfl, he⟩
      · rw [run_bind (next_last _ _ _ _)]
        rfl
      · rw [run_bind (next_add _ _ _ _ _ _ (by simpa using hl))]
        simp only [if_true]
        rw [run_bind (current_cons _ _ _ _ _)]
        obtain ⟨_, h2, _, _, h4⟩ := stop_chars e he
        simp only [h2, decide_eq_false h4, Bool.or_self, Bool.false_eq_true, if_false]
        rfl
  | cons c w ih =>
    cases n with
    | zero => simp at hn
    | succ n =>
      simp only [List.length_cons] at hn hl
      unfold addr4Loop
      rw [List.cons_append, run_bind (next_add _ _ _ _ _ _ (by omega))]
      simp only [if_true]
      rw [run_bind (current_cons _ _ _ _ _)]
      rw [if_pos (hw c List.mem_cons_self)]
      obtain ⟨l', h⟩ := ih (fun x hx => hw x (List.mem_cons_of_mem _ hx)) (tok ++ [d]) c (l.step d) n (by omega)
        (by simp only [List.length_append, List.length_cons, List.length_nil]; omega)
      refine ⟨l', ?_⟩
      rw [h, List.append_assoc, List.singleton_append]

theorem run_addr6Loop (w : Bytes) (hw : ∀ c ∈ w, isAddr6 c = true) (tok : Bytes) (d e : UInt8) (he : isAddr6 e = false) (r : Bytes) (ns : Bool) (l : Loc) (n : Nat)
    (hn : w.length < n) (hl : tok.length + 1 + w.length < 1024) :
    ∃ l', addr6Loop whole n ⟨tok, d :: (w ++ e :: r), ns, l⟩ = .ok (true, ⟨tok ++ d :: w, e :: r, ns, l'⟩) := by
  induction w generalizing tok d l n with
  | nil =>
    cases n with
    | zero => simp at hn
    | succ n =>
      refine ⟨l.step d, ?_⟩
      unfold addr6Loop
      rw [List.nil_append, run_bind (next_add _ _ _ _ _ _ (by simpa using hl))]
      simp only [if_true]
      rw [run_bind (current_cons _ _ _ _ _), he]
      rfl
  | cons c w ih =>
    cases n with
    | zero => simp at hn
    | succ n =>
      simp only [List.length_cons] at hn hl
      unfold addr6Loop
      rw [List.cons_append, run_bind (next_add _ _ _ _ _ _ (by omega))]
      simp only [if_true]
      rw [run_bind (current_cons _ _ _ _ _)]
      rw [if_pos (hw c List.mem_cons_self)]
      obtain ⟨l', h⟩ := ih (fun x hx => hw x (List.mem_cons_of_mem _ hx)) (tok ++ [d]) c (l.step d) n (by omega)
        (by simp only [List.length_append, List.length_cons, List.length_nil]; omega)
      refine ⟨l', ?_⟩
      rw [h, List.append_assoc, List.singleton_append]

theorem run_ifnameLoop (s : Bytes) (d : UInt8) (r : Bytes) (ns : Bool) (l : Loc) (n : Nat) (buf : Bytes) (hn : s.length < n)
    (hl : buf.length + s.length < 16) :
    ∃ l', ifnameLoop whole n buf ⟨[], d :: (esc 93 s ++ 93 :: r), ns, l⟩ = .ok (some (buf ++ s), ⟨[], 93 :: r, ns, l'⟩) := by
  induction s generalizing d l n buf with
  | nil =>
    cases n with
    | zero => simp at hn
    | succ n =>
      refine ⟨l.step d, ?_⟩
      unfold ifnameLoop
      rw [run_bind (next_move _ _ _ _)]
      simp only [esc, List.nil_append, ne_eq, reduceCtorEq, not_false_eq_true, decide_true, if_true]
      rw [run_bind (current_cons _ _ _ _ _)]
      simp only [if_true, List.append_nil]
      rfl
  | cons c s ih =>
    cases n with
    | zero => simp at hn
    | succ n =>
      simp only [List.length_cons] at hn hl
      have k1 : ¬ buf.length = ifnameSize - 1 := by unfold ifnameSize; omega
      have k2 : buf.length < ifnameSize := by unfold ifnameSize; omega
      unfold ifnameLoop
      rw [run_bind (next_move _ _ _ _)]
      by_cases hc : c = 93 ∨ c = 92
      · simp only [esc, if_pos hc, List.cons_append, ne_eq, reduceCtorEq, not_false_eq_true, decide_true, if_true]
        rw [run_bind (current_cons _ _ _ _ _)]
        simp only [show ¬ (92 : UInt8) = 93 by decide, if_false, if_true]
        rw [run_bind (next_move _ _ _ _)]
        simp only [ne_eq, reduceCtorEq, not_false_eq_true, decide_true, if_true]
        rw [run_bind (current_cons _ _ _ _ _), if_neg k1, if_pos k2]
        obtain ⟨l', h⟩ := ih c ((l.step d).step 92) n (buf ++ [c]) (by omega) (by simp only [List.length_append, List.length_cons, List.length_nil]; omega)
        refine ⟨l', ?_⟩
        rw [List.append_assoc, List.singleton_append] at h
        exact h
      · simp only [esc, if_neg hc, List.cons_append, ne_eq, reduceCtorEq, not_false_eq_true, decide_true, if_true]
        rw [run_bind (current_cons _ _ _ _ _)]
        simp only [not_or] at hc
        simp only [if_neg hc.1, if_neg hc.2, if_neg k1, if_pos k2]
        obtain ⟨l', h⟩ := ih c (l.step d) n (buf ++ [c]) (by omega) (by simp only [List.length_append, List.length_cons, List.length_nil]; omega)
        refine ⟨l', ?_⟩
        rw [List.append_assoc, List.singleton_append] at h
        exact h

theorem run_lineLoop (t : Bytes) (ht : 10 ∉ t) (d : UInt8) (r : Bytes) (ns : Bool) (l : Loc) (n : Nat) (hn : t.length < n) :
    ∃ l', lineLoop whole n ⟨[], d :: (t ++ 10 :: r), ns, l⟩ = .ok ((), ⟨[], 10 :: r, ns, l'⟩) := by
  induction t generalizing d l n with
  | nil =>
    cases n with
    | zero => simp at hn
    | succ n =>
      refine ⟨l.step d, ?_⟩
      unfold lineLoop
      rw [run_bind (next_move _ _ _ _)]
      simp only [List.nil_append, ne_eq, reduceCtorEq, not_false_eq_true, decide_true, if_true]
      rw [run_bind (current_cons _ _ _ _ _)]
      rfl
  | cons c t ih =>
    cases n with
    | zero => simp at hn
    | succ n =>
      simp only [List.length_cons] at hn
      rw [List.mem_cons, not_or] at ht
      unfold lineLoop
      rw [run_bind (next_move _ _ _ _)]
      simp only [List.cons_append, ne_eq, reduceCtorEq, not_false_eq_true, decide_true, if_true]
      rw [run_bind (current_cons _ _ _ _ _), if_neg (fun e => ht.1 e.symm)]
      exact ih ht.2 c (l.step d) n (by omega)

theorem run_skipLine (t : Bytes) (ht : 10 ∉ t) (d : UInt8) (r : Bytes) (ns : Bool) (l : Loc) (n : Nat) (hn : t.length < n) :
    ∃ l', skipLine whole n ⟨[], d :: (t ++ 10 :: r), ns, l⟩ = .ok ((), ⟨[], r, false, l'⟩) := by
  obtain ⟨l', h⟩ := run_lineLoop t ht d r ns l n hn
  refine ⟨l'.step 10, ?_⟩
  unfold skipLine
  rw [run_bind h, run_bind (next_move _ _ _ _)]
  rfl

theorem run_commentLoop (t : Bytes) (p d : UInt8) (ht : ¬ [42, 47] <:+: p :: t) (r : Bytes) (ns : Bool) (l : Loc) (n : Nat) (hn : t.length + 1 < n) :
    ∃ l', commentLoop whole n p ⟨[], d :: (t ++ 42 :: 47 :: r), ns, l⟩ = .ok (true, ⟨[], r, false, l'⟩) := by
  induction t generalizing p d l n with
  | nil =>
    obtain ⟨n, rfl⟩ : ∃ k, n = k + 2 := ⟨n - 2, by simp at hn; omega⟩
    refine ⟨((l.step d).step 42).step 47, ?_⟩
    unfold commentLoop
    rw [run_bind (next_move _ _ _ _)]
    simp only [List.nil_append, ne_eq, reduceCtorEq, not_false_eq_true, decide_true, if_true]
    rw [run_bind (current_cons _ _ _ _ _), if_neg (by rintro ⟨-, h⟩; exact absurd h (by decide)), run_bind (current_cons _ _ _ _ _)]
    unfold commentLoop
    rw [run_bind (next_move _ _ _ _)]
    simp only [ne_eq, reduceCtorEq, not_false_eq_true, decide_true, if_true]
    rw [run_bind (current_cons _ _ _ _ _), if_pos (by simp), run_bind (next_move _ _ _ _)]
    rfl
  | cons c t ih =>
    cases n with
    | zero => simp at hn
    | succ n =>
      simp only [List.length_cons] at hn
      unfold commentLoop
      rw [run_bind (next_move _ _ _ _)]
      simp only [List.cons_append, ne_eq, reduceCtorEq, not_false_eq_true, decide_true, if_true]
      have h1 : ¬ (p = 42 ∧ c = 47) := by
        rintro ⟨rfl, rfl⟩
        exact ht ⟨[], t, rfl⟩
      rw [run_bind (current_cons _ _ _ _ _), if_neg h1, run_bind (current_cons _ _ _ _ _)]
      exact ih c c (fun ⟨a, b, h⟩ => ht ⟨p :: a, b, by rw [← h]; rfl⟩) (l.step d) n (by omega)

/-- The first characters of the tokens -/
theorem lower_first (c : UInt8) (h : isLower c = true) : ¬ (c = 32 ∨ c = 10 ∨ c = 9 ∨ c = 13) ∧ ¬ (c = 59 ∨ c = 58 ∨ c = 123 ∨ c = 125) ∧ ¬ c = 47 ∧
    ¬ c = 35 ∧ ¬ c = 34 ∧ ¬ c = 91 ∧ ¬ isDigit c = true := by
  refine ⟨?_, ?_, ?_, ?_, ?_, ?_, ?_⟩
  · rintro (rfl | rfl | rfl | rfl) <;> exact absurd h (by decide)
  · rintro (rfl | rfl | rfl | rfl) <;> exact absurd h (by decide)
  · rintro rfl; exact absurd h (by decide)
  · rintro rfl; exact absurd h (by decide)
  · rintro rfl; exact absurd h (by decide)
  · rintro rfl; exact absurd h (by decide)
  · intro h'
    simp only [isLower, isDigit, Bool.and_eq_true, decide_eq_true_eq, UInt8.le_iff_toNat_le] at h h'
    have h1 : 97 ≤ c.toNat := h.1
    have h2 : c.toNat ≤ 57 := h'.2
    omega

theorem digit_first (c : UInt8) (h : isDigit c = true) : ¬ (c = 32 ∨ c = 10 ∨ c = 9 ∨ c = 13) ∧ ¬ (c = 59 ∨ c = 58 ∨ c = 123 ∨ c = 125) ∧ ¬ c = 47 ∧
    ¬ c = 35 ∧ ¬ c = 34 ∧ ¬ c = 91 := by
  refine ⟨?_, ?_, ?_, ?_, ?_, ?_⟩
  · rintro (rfl | rfl | rfl | rfl) <;> exact absurd h (by decide)
  · rintro (rfl | rfl | rfl | rfl) <;> exact absurd h (by decide)
  · rintro rfl; exact absurd h (by decide)
  · rintro rfl; exact absurd h (by decide)
  · rintro rfl; exact absurd h (by decide)
  · rintro rfl; exact absurd h (by decide)

/-- The keywords are made of the characters accepted, and start with a letter. -/
theorem keyword_chars (w : Bytes) (name : String) (h : (w, name) ∈ keywords) :
    w.length < 1024 ∧ 0 ∉ w ∧ ∃ d r, w = d :: r ∧ isLower d = true ∧ ∀ c ∈ r, (isLower c || isDigit c || c = 45) = true := by
  have : keywords.all (fun k => k.1.length < 1024 && !k.1.contains 0 && (match k.1 with
      | [] => false
      | d :: r => isLower d && r.all fun c => isLower c || isDigit c || c = 45)) = true := by decide +kernel
  have := List.all_eq_true.1 this _ h
  simp only [Bool.and_eq_true, decide_eq_true_eq, Bool.not_eq_true', List.contains_eq_mem, decide_eq_false_iff_not] at this
  obtain ⟨⟨h1, h2⟩, h3⟩ := this
  refine ⟨h1, h2, ?_⟩
  cases w with
  | nil => cases h3
  | cons d r =>
    simp only [Bool.and_eq_true, List.all_eq_true] at h3
    exact ⟨d, r, rfl, h3⟩

theorem cString_id (s : Bytes) (h : 0 ∉ s) : cString s = s := by
  induction s with
  | nil => rfl
  | cons c s ih =>
    rw [List.mem_cons, not_or] at h
    have h1 : c ≠ 0 := fun e => h.1 e.symm
    unfold cString at ih ⊢
    rw [List.takeWhile_cons, if_pos (by simpa using h1), ih h.2]

theorem lex_more (lc : Libc) (fuel n : Nat) (c : UInt8) (r : Bytes) (ns : Bool) (l : Loc) :
    ∃ l' : Loc, lex whole lc fuel (n + 1) ⟨[], c :: r, ns, l⟩ =
      (if c = 32 ∨ c = 10 ∨ c = 9 ∨ c = 13 then do
        let _ ← mNext whole true
        mConsume whole false
        lex whole lc fuel n
      else if c = 59 ∨ c = 58 ∨ c = 123 ∨ c = 125 then do
        let _ ← mNext whole true
        mConsume whole false
        return .char c
      else if c = 47 then do
        if ← mNext whole true then
          let c ← mCurrent whole
          if c = 42 then
            match ← consumeComment whole fuel with
            | some t => return t
            | none => lex whole lc fuel n
          else if c ≠ 47 then
            return syntaxError
          else
            skipLine whole fuel
            lex whole lc fuel n
        else
          return syntaxError
      else if c = 35 then do
        skipLine whole fuel
        lex whole lc fuel n
      else if c = 34 then
        parseString whole fuel
      else if c = 91 then
        parseAddr6 whole lc fuel
      else if isDigit c then
        parseNumber whole lc fuel
      else if isLower c then
        parseKeyword whole fuel
      else
        return syntaxError : M Whole Tok) ⟨[], c :: r, ns, l'⟩ := ⟨_, rfl⟩

theorem lex_eof (lc : Libc) (fuel n : Nat) (ns : Bool) (l : Loc) : lex whole lc fuel (n + 1) ⟨[], [], ns, l⟩ = .ok (.eof, ⟨[], [], ns, l⟩) := rfl

theorem needspace_false (tok r : Bytes) (l : Loc) : mNeedspace whole ⟨tok, r, false, l⟩ = .ok (false, ⟨tok, r, false, l⟩) := rfl

theorem esc_length (x : UInt8) (s : Bytes) : s.length ≤ (esc x s).length := by
  induction s with
  | nil => exact Nat.le_refl _
  | cons c s ih => unfold esc; split <;> simp only [List.length_cons] <;> omega

/-- Gaps are skipped. -/
theorem lex_gap (lc : Libc) (fuel n : Nat) (g : Gap) (hg : g.Valid) (r : Bytes) (ns : Bool) (l : Loc) (hf : g.text.length < fuel) :
    ∃ l', lex whole lc fuel (n + 1) ⟨[], g.text ++ r, ns, l⟩ = lex whole lc fuel n ⟨[], r, false, l'⟩ := by
  cases g with
  | ws c =>
    obtain ⟨l1, h⟩ := lex_more lc fuel n c r ns l
    refine ⟨l1.step c, ?_⟩
    show lex whole lc fuel (n + 1) ⟨[], c :: r, ns, l⟩ = _
    rw [h, if_pos (show c = 32 ∨ c = 10 ∨ c = 9 ∨ c = 13 from hg), run_bind (next_move _ _ _ _)]
    rfl
  | hash t =>
    have e : (Gap.hash t).text ++ r = 35 :: (t ++ 10 :: r) := by simp [Gap.text]
    simp only [Gap.text, List.length_cons, List.length_append, List.length_nil] at hf
    obtain ⟨l1, h⟩ := lex_more lc fuel n 35 (t ++ 10 :: r) ns l
    obtain ⟨l2, h2⟩ := run_skipLine t hg 35 r ns l1 fuel (by omega)
    refine ⟨l2, ?_⟩
    rw [e, h]
    simp only [show ¬ ((35 : UInt8) = 32 ∨ (35 : UInt8) = 10 ∨ (35 : UInt8) = 9 ∨ (35 : UInt8) = 13) by decide,
      show ¬ ((35 : UInt8) = 59 ∨ (35 : UInt8) = 58 ∨ (35 : UInt8) = 123 ∨ (35 : UInt8) = 125) by decide, show ¬ (35 : UInt8) = 47 by decide,
      if_false, if_true]
    rw [run_bind h2]
  | slashes t =>
    have e : (Gap.slashes t).text ++ r = 47 :: 47 :: (t ++ 10 :: r) := by simp [Gap.text]
    simp only [Gap.text, List.length_cons, List.length_append, List.length_nil] at hf
    obtain ⟨l1, h⟩ := lex_more lc fuel n 47 (47 :: (t ++ 10 :: r)) ns l
    obtain ⟨l2, h2⟩ := run_skipLine t hg 47 r ns (l1.step 47) fuel (by omega)
    refine ⟨l2, ?_⟩
    rw [e, h]
    simp only [show ¬ ((47 : UInt8) = 32 ∨ (47 : UInt8) = 10 ∨ (47 : UInt8) = 9 ∨ (47 : UInt8) = 13) by decide,
      show ¬ ((47 : UInt8) = 59 ∨ (47 : UInt8) = 58 ∨ (47 : UInt8) = 123 ∨ (47 : UInt8) = 125) by decide, if_false, if_true]
    rw [run_bind (next_move _ _ _ _)]
    simp only [ne_eq, reduceCtorEq, not_false_eq_true, decide_true, if_true]
    rw [run_bind (current_cons _ _ _ _ _), if_neg (by decide), if_neg (by decide), run_bind h2]
  | block t =>
    have e : (Gap.block t).text ++ r = 47 :: 42 :: (t ++ 42 :: 47 :: r) := by simp [Gap.text]
    simp only [Gap.text, List.length_cons, List.length_append, List.length_nil] at hf
    obtain ⟨l1, h⟩ := lex_more lc fuel n 47 (42 :: (t ++ 42 :: 47 :: r)) ns l
    have hg' : ¬ [42, 47] <:+: (0 : UInt8) :: t := by
      rintro ⟨a, b, hab⟩
      cases a with
      | nil => simp at hab
      | cons x a =>
        rw [List.cons_append, List.cons_append, List.cons.injEq] at hab
        exact hg ⟨a, b, hab.2⟩
    obtain ⟨l2, h2⟩ := run_commentLoop t 0 42 hg' r ns (l1.step 47) fuel (by omega)
    refine ⟨l2, ?_⟩
    rw [e, h]
    simp only [show ¬ ((47 : UInt8) = 32 ∨ (47 : UInt8) = 10 ∨ (47 : UInt8) = 9 ∨ (47 : UInt8) = 13) by decide,
      show ¬ ((47 : UInt8) = 59 ∨ (47 : UInt8) = 58 ∨ (47 : UInt8) = 123 ∨ (47 : UInt8) = 125) by decide, if_false, if_true]
    rw [run_bind (next_move _ _ _ _)]
    simp only [ne_eq, reduceCtorEq, not_false_eq_true, decide_true, if_true]
    rw [run_bind (current_cons _ _ _ _ _), if_pos rfl]
    have h3 : consumeComment whole fuel ⟨[], 42 :: (t ++ 42 :: 47 :: r), ns, l1.step 47⟩ = .ok (none, ⟨[], r, false, l2⟩) := by
      unfold consumeComment
      rw [run_bind h2]
      rfl
    rw [run_bind h3]

theorem gap_length (g : Gap) : 0 < g.text.length := by cases g <;> simp [Gap.text]

theorem lex_gaps (lc : Libc) (fuel : Nat) (gs : List Gap) (hg : ∀ g ∈ gs, g.Valid) (hf : (gapText gs).length < fuel) (r : Bytes) (ns : Bool) (l : Loc) (n : Nat) :
    ∃ l', lex whole lc fuel (n + gs.length) ⟨[], gapText gs ++ r, ns, l⟩ = lex whole lc fuel n ⟨[], r, if gs = [] then ns else false, l'⟩ := by
  induction gs generalizing ns l with
  | nil => exact ⟨l, rfl⟩
  | cons g gs ih =>
    have e : gapText (g :: gs) = g.text ++ gapText gs := by simp [gapText]
    rw [e, List.length_append] at hf
    obtain ⟨l1, h1⟩ := lex_gap lc fuel (n + gs.length) g (hg g List.mem_cons_self) (gapText gs ++ r) ns l (by omega)
    obtain ⟨l2, h2⟩ := ih (fun x hx => hg x (List.mem_cons_of_mem _ hx)) (by omega) false l1
    refine ⟨l2, ?_⟩
    rw [e, List.append_assoc, List.length_cons, ← Nat.add_assoc, h1, h2]
    simp

theorem addr6_chars (c : UInt8) (h : isAddr6 c = true) : c ≠ 0 := by
  rintro rfl
  exact absurd h (by decide)

theorem lex_item (lc : Libc) (fuel n : Nat) (i : Item) (hi : i.Valid lc) (r : Bytes) (hr : i.isPunct = true ∨ Stop r) (ns : Bool)
    (hns : ns = false ∨ i.isPunct = true) (l : Loc) (hf : i.text.length < fuel) :
    ∃ ns' l', lex whole lc fuel (n + 1) ⟨[], i.text ++ r, ns, l⟩ = .ok (i.tok, ⟨[], r, ns', l'⟩) ∧ (i.isPunct = true → ns' = false) := by
  cases i with
  | punct c =>
    obtain ⟨l1, e⟩ := lex_more lc fuel n c r ns l
    refine ⟨false, l1.step c, ?_, fun _ => rfl⟩
    show lex whole lc fuel (n + 1) ⟨[], c :: r, ns, l⟩ = _
    have hc : c = 59 ∨ c = 58 ∨ c = 123 ∨ c = 125 := hi
    have h1 : ¬ (c = 32 ∨ c = 10 ∨ c = 9 ∨ c = 13) := by rcases hc with rfl | rfl | rfl | rfl <;> decide
    rw [e, if_neg h1, if_pos hc]
    rfl
  | word w name =>
    obtain rfl : ns = false := hns.resolve_right (by simp [Item.isPunct])
    replace hr : Stop r := hr.resolve_left (by simp [Item.isPunct])
    obtain ⟨h1, h2, d, w, rfl, h3, h4⟩ := keyword_chars _ name hi
    obtain ⟨l1, e⟩ := lex_more lc fuel n d (w ++ r) false l
    obtain ⟨k1, k2, k3, k4, k5, k6, k7⟩ := lower_first d h3
    simp only [Item.text, List.length_cons] at hf h1
    obtain ⟨l2, e2⟩ := run_keywordLoop w h4 [] d r hr false l1 fuel (by omega) (by simp only [List.length_nil]; omega)
    refine ⟨true, l2, ?_, by simp [Item.isPunct]⟩
    show lex whole lc fuel (n + 1) ⟨[], d :: (w ++ r), false, l⟩ = _
    rw [e, if_neg k1, if_neg k2, if_neg k3, if_neg k4, if_neg k5, if_neg k6, if_neg k7, if_pos h3]
    unfold parseKeyword
    rw [run_bind (needspace_false _ _ _)]
    simp only [Bool.false_eq_true, if_false]
    rw [run_bind e2]
    have e3 : mToken whole ⟨[] ++ d :: w, r, false, l2⟩ = .ok (d :: w, ⟨[] ++ d :: w, r, false, l2⟩) := by
      show Except.ok (cString (d :: w), _) = _
      rw [cString_id _ h2]
    rw [run_bind e3, (findKeyword_iff _ _).2 hi]
    rfl
  | str s =>
    obtain rfl : ns = false := hns.resolve_right (by simp [Item.isPunct])
    obtain ⟨l1, e⟩ := lex_more lc fuel n 34 (esc 34 s ++ 34 :: r) false l
    simp only [Item.text, List.length_cons, List.length_append, List.length_nil] at hf
    have := esc_length 34 s
    obtain ⟨l2, e2⟩ := run_stringLoop s 34 r false l1 fuel 1024 [] (by omega) (by decide) (by decide)
    refine ⟨true, l2.step 34, ?_, by simp [Item.isPunct]⟩
    have ht : (Item.str s).text ++ r = 34 :: (esc 34 s ++ 34 :: r) := by simp [Item.text]
    rw [ht, e]
    simp only [show ¬ ((34 : UInt8) = 32 ∨ (34 : UInt8) = 10 ∨ (34 : UInt8) = 9 ∨ (34 : UInt8) = 13) by decide,
      show ¬ ((34 : UInt8) = 59 ∨ (34 : UInt8) = 58 ∨ (34 : UInt8) = 123 ∨ (34 : UInt8) = 125) by decide, show ¬ (34 : UInt8) = 47 by decide,
      show ¬ (34 : UInt8) = 35 by decide, if_false, if_true]
    unfold parseString
    rw [run_bind (needspace_false _ _ _)]
    simp only [Bool.false_eq_true, if_false]
    rw [run_bind e2]
    show Except.ok (Tok.string (cString ([] ++ s)), _) = _
    rw [List.nil_append, cString_id s hi]
    rfl
  | num t v =>
    obtain rfl : ns = false := hns.resolve_right (by simp [Item.isPunct])
    replace hr : Stop r := hr.resolve_left (by simp [Item.isPunct])
    obtain ⟨⟨d, w, rfl, h3, h4⟩, h1, h5⟩ := hi
    obtain ⟨l1, e⟩ := lex_more lc fuel n d (w ++ r) false l
    obtain ⟨k1, k2, k3, k4, k5, k6⟩ := digit_first d h3
    simp only [Item.text, List.length_cons] at hf h1
    obtain ⟨l2, e2⟩ := run_numberLoop w h4 [] d r hr false l1 fuel true (by omega) (by simp only [List.length_nil]; omega)
    refine ⟨true, l2, ?_, by simp [Item.isPunct]⟩
    show lex whole lc fuel (n + 1) ⟨[], d :: (w ++ r), false, l⟩ = _
    rw [e, if_neg k1, if_neg k2, if_neg k3, if_neg k4, if_neg k5, if_neg k6, if_pos h3]
    unfold parseNumber
    rw [run_bind (needspace_false _ _ _)]
    simp only [Bool.false_eq_true, if_false]
    rw [run_bind e2]
    simp only [Bool.false_eq_true, if_false]
    have hz : (0 : UInt8) ∉ d :: w := by
      intro h0
      rcases List.mem_cons.1 h0 with h0 | h0
      · rw [← h0] at h3; exact absurd h3 (by decide)
      · exact absurd (h4 0 h0) (by decide)
    have e3 : mToken whole ⟨[] ++ d :: w, r, false, l2⟩ = .ok (d :: w, ⟨[] ++ d :: w, r, false, l2⟩) := by
      show Except.ok (cString (d :: w), _) = _
      rw [cString_id _ hz]
    rw [run_bind e3, h5]
    rfl
  | addr4 t a =>
    obtain rfl : ns = false := hns.resolve_right (by simp [Item.isPunct])
    replace hr : Stop r := hr.resolve_left (by simp [Item.isPunct])
    obtain ⟨⟨d, w, rfl, h3, h4⟩, hdot, h1, h5⟩ := hi
    have hdot' : 46 ∈ w := by
      rcases List.mem_cons.1 hdot with h | h
      · rw [← h] at h3; exact absurd h3 (by decide)
      · exact h
    obtain ⟨w1, w2, rfl, hw1⟩ : ∃ w1 w2, w = w1 ++ 46 :: w2 ∧ ∀ c ∈ w1, isDigit c = true := by
      clear h1 h5 hf hdot hr hns
      induction w with
      | nil => cases hdot'
      | cons c w ih =>
        by_cases hc : c = 46
        · exact ⟨[], w, by rw [hc]; rfl, fun _ h => by cases h⟩
        · obtain ⟨w1, w2, rfl, hw⟩ := ih (fun x hx => h4 x (List.mem_cons_of_mem _ hx))
            ((List.mem_cons.1 hdot').resolve_left (fun e => hc e.symm))
          refine ⟨c :: w1, w2, rfl, fun x hx => ?_⟩
          rcases List.mem_cons.1 hx with rfl | hx
          · simpa [hc] using h4 x List.mem_cons_self
          · exact hw x hx
    obtain ⟨l1, e⟩ := lex_more lc fuel n d (w1 ++ 46 :: (w2 ++ r)) false l
    obtain ⟨k1, k2, k3, k4, k5, k6⟩ := digit_first d h3
    simp only [Item.text, List.length_cons, List.length_append] at hf h1
    obtain ⟨l2, e2⟩ := run_numberLoop_dot w1 hw1 [] d (w2 ++ r) false l1 fuel (by omega) (by simp only [List.length_nil]; omega)
    obtain ⟨l3, e3⟩ := run_addr4Loop w2 (fun c hc => h4 c (by simp [hc])) ([] ++ d :: w1) 46 r hr false l2 fuel (by omega)
      (by simp only [List.length_append, List.length_cons, List.length_nil]; omega)
    refine ⟨true, l3, ?_, by simp [Item.isPunct]⟩
    have ht : (Item.addr4 (d :: (w1 ++ 46 :: w2)) a).text ++ r = d :: (w1 ++ 46 :: (w2 ++ r)) := by simp [Item.text]
    rw [ht, e, if_neg k1, if_neg k2, if_neg k3, if_neg k4, if_neg k5, if_neg k6, if_pos h3]
    unfold parseNumber
    rw [run_bind (needspace_false _ _ _)]
    simp only [Bool.false_eq_true, if_false]
    rw [run_bind e2]
    simp only [if_true]
    unfold parseAddr4
    rw [run_bind (needspace_false _ _ _)]
    simp only [Bool.false_eq_true, if_false]
    rw [run_bind e3]
    have hz : (0 : UInt8) ∉ d :: (w1 ++ 46 :: w2) := by
      intro h0
      rcases List.mem_cons.1 h0 with h0 | h0
      · rw [← h0] at h3; exact absurd h3 (by decide)
      · exact absurd (h4 0 h0) (by decide)
    have et : [] ++ d :: w1 ++ 46 :: w2 = d :: (w1 ++ 46 :: w2) := by simp
    have e4 : mToken whole ⟨[] ++ d :: w1 ++ 46 :: w2, r, false, l3⟩ = .ok (d :: (w1 ++ 46 :: w2), ⟨[] ++ d :: w1 ++ 46 :: w2, r, false, l3⟩) := by
      show Except.ok (cString _, _) = _
      rw [et, cString_id _ hz]
    rw [run_bind e4, h5]
    rfl
  | addr6 t a =>
    obtain rfl : ns = false := hns.resolve_right (by simp [Item.isPunct])
    obtain ⟨h1, h2, h3⟩ := hi
    obtain ⟨l1, e⟩ := lex_more lc fuel n 91 (t ++ 93 :: r) false l
    simp only [Item.text, List.length_cons, List.length_append, List.length_nil] at hf
    obtain ⟨l2, e2⟩ := run_addr6Loop t h1 [] 91 93 (by decide) r false l1 fuel (by omega) (by simp only [List.length_nil]; omega)
    refine ⟨true, l2.step 0, ?_, by simp [Item.isPunct]⟩
    have ht : (Item.addr6 t a).text ++ r = 91 :: (t ++ 93 :: r) := by simp [Item.text]
    rw [ht, e]
    simp only [show ¬ ((91 : UInt8) = 32 ∨ (91 : UInt8) = 10 ∨ (91 : UInt8) = 9 ∨ (91 : UInt8) = 13) by decide,
      show ¬ ((91 : UInt8) = 59 ∨ (91 : UInt8) = 58 ∨ (91 : UInt8) = 123 ∨ (91 : UInt8) = 125) by decide, show ¬ (91 : UInt8) = 47 by decide,
      show ¬ (91 : UInt8) = 35 by decide, show ¬ (91 : UInt8) = 34 by decide, if_false, if_true]
    unfold parseAddr6
    rw [run_bind (needspace_false _ _ _)]
    simp only [Bool.false_eq_true, if_false]
    rw [run_bind e2]
    simp only [if_true]
    rw [run_bind (current_cons _ _ _ _ _), if_pos (Or.inr rfl)]
    have e3 : mCut whole ⟨[] ++ 91 :: t, 93 :: r, false, l2⟩ = .ok (t, ⟨[] ++ 91 :: t, 0 :: r, false, l2⟩) := by
      show Except.ok (cString t, _) = _
      rw [cString_id _ (fun h0 => addr6_chars 0 (h1 0 h0) rfl)]
    rw [run_bind e3, h3]
    rfl
  | addr6Scoped t a name =>
    obtain rfl : ns = false := hns.resolve_right (by simp [Item.isPunct])
    obtain ⟨h1, h2, h3, h4, h5⟩ := hi
    obtain ⟨l1, e⟩ := lex_more lc fuel n 91 (t ++ 37 :: (esc 93 name ++ 93 :: r)) false l
    simp only [Item.text, List.length_cons, List.length_append, List.length_nil] at hf
    have := esc_length 93 name
    obtain ⟨l2, e2⟩ := run_addr6Loop t h1 [] 91 37 (by decide) (esc 93 name ++ 93 :: r) false l1 fuel (by omega) (by simp only [List.length_nil]; omega)
    obtain ⟨l3, e4⟩ := run_ifnameLoop name 0 r false l2 fuel [] (by omega) (by simpa using h5)
    refine ⟨true, l3.step 93, ?_, by simp [Item.isPunct]⟩
    have ht : (Item.addr6Scoped t a name).text ++ r = 91 :: (t ++ 37 :: (esc 93 name ++ 93 :: r)) := by simp [Item.text]
    rw [ht, e]
    simp only [show ¬ ((91 : UInt8) = 32 ∨ (91 : UInt8) = 10 ∨ (91 : UInt8) = 9 ∨ (91 : UInt8) = 13) by decide,
      show ¬ ((91 : UInt8) = 59 ∨ (91 : UInt8) = 58 ∨ (91 : UInt8) = 123 ∨ (91 : UInt8) = 125) by decide, show ¬ (91 : UInt8) = 47 by decide,
      show ¬ (91 : UInt8) = 35 by decide, show ¬ (91 : UInt8) = 34 by decide, if_false, if_true]
    unfold parseAddr6
    rw [run_bind (needspace_false _ _ _)]
    simp only [Bool.false_eq_true, if_false]
    rw [run_bind e2]
    simp only [if_true]
    rw [run_bind (current_cons _ _ _ _ _), if_pos (Or.inl rfl)]
    have e3 : mCut whole ⟨[] ++ 91 :: t, 37 :: (esc 93 name ++ 93 :: r), false, l2⟩ = .ok (t, ⟨[] ++ 91 :: t, 0 :: (esc 93 name ++ 93 :: r), false, l2⟩) := by
      show Except.ok (cString t, _) = _
      rw [cString_id _ (fun h0 => addr6_chars 0 (h1 0 h0) rfl)]
    rw [run_bind e3, h3]
    simp only [if_true]
    have e5 : mConsume whole false ⟨[] ++ 91 :: t, 0 :: (esc 93 name ++ 93 :: r), false, l2⟩ = .ok ((), ⟨[], 0 :: (esc 93 name ++ 93 :: r), false, l2⟩) := rfl
    rw [run_bind e5, run_bind e4]
    simp only [List.nil_append]
    rw [if_pos (show name.length < ifnameSize from h5), run_bind (next_move _ _ _ _), cString_id name h4]
    rfl

/-! ## Documents -/

theorem stop_gaps (g : Gap) (hg : g.Valid) (gs : List Gap) (r : Bytes) : Stop (gapText (g :: gs) ++ r) := by
  right
  cases g with
  | ws c =>
    refine ⟨c, gapText gs ++ r, by simp [gapText, Gap.text], ?_⟩
    rcases hg with rfl | rfl | rfl | rfl <;> rfl
  | hash t => exact ⟨35, _, by simp [gapText, Gap.text]; rfl, rfl⟩
  | slashes t => exact ⟨47, _, by simp [gapText, Gap.text]; rfl, rfl⟩
  | block t => exact ⟨47, _, by simp [gapText, Gap.text]; rfl, rfl⟩

structure DocOk (lc : Libc) (ds : List (List Gap × Item)) (tr : List Gap) : Prop where
  items : ∀ d ∈ ds, d.2.Valid lc
  gaps : ∀ d ∈ ds, ∀ g ∈ d.1, g.Valid
  trail : ∀ g ∈ tr, g.Valid
  spaced : Spaced ds

theorem DocOk.tail {lc : Libc} {d : List Gap × Item} {ds : List (List Gap × Item)} {tr : List Gap} (h : DocOk lc (d :: ds) tr) : DocOk lc ds tr :=
  ⟨fun x hx => h.items x (List.mem_cons_of_mem _ hx), fun x hx => h.gaps x (List.mem_cons_of_mem _ hx), h.trail, h.spaced.2⟩

/-- What follows an item -/
theorem stop_doc {lc : Libc} {gs : List Gap} {i : Item} {ds : List (List Gap × Item)} {tr : List Gap} (h : DocOk lc ((gs, i) :: ds) tr) :
    i.isPunct = true ∨ Stop (docText ds tr) := by
  cases ds with
  | nil =>
    right
    cases tr with
    | nil => exact .inl rfl
    | cons g tr =>
      have := stop_gaps g (h.trail g List.mem_cons_self) tr []
      rw [List.append_nil] at this
      exact this
  | cons d ds =>
    obtain ⟨gs', j⟩ := d
    cases gs' with
    | cons g gs' => exact .inr (stop_gaps g (h.gaps (g :: gs', j) (by simp) g List.mem_cons_self) gs' _)
    | nil =>
      rcases h.spaced.1 [] j ds rfl rfl with h' | h'
      · exact .inl h'
      · right
        cases j with
        | punct c =>
          have hc : c = 59 ∨ c = 58 ∨ c = 123 ∨ c = 125 := h.items ([], .punct c) (by simp)
          refine .inr ⟨c, docText ds tr, rfl, ?_⟩
          rcases hc with rfl | rfl | rfl | rfl <;> rfl
        | _ => cases h'

theorem gaps_length (gs : List Gap) : gs.length ≤ (gapText gs).length := by
  induction gs with
  | nil => exact Nat.le_refl _
  | cons g gs ih =>
    have := gap_length g
    simp only [gapText, List.flatMap_cons, List.length_append, List.length_cons] at ih ⊢
    omega

theorem tokens_doc (lc : Libc) (fuel : Nat) (ds : List (List Gap × Item)) (tr : List Gap) (h : DocOk lc ds tr) (hf : (docText ds tr).length + 1 < fuel)
    (ns : Bool) (hns : ∀ gs j r, ds = (gs, j) :: r → gs = [] → ns = false ∨ j.isPunct = true) (l : Loc) (n : Nat) (hn : ds.length < n) :
    ∃ ts t', tokens whole lc fuel n ⟨[], docText ds tr, ns, l⟩ = .ok (ts, t') ∧ ts.map (·.1) = ds.map (fun d => d.2.tok) ++ [.eof] := by
  induction ds generalizing ns l n with
  | nil =>
    cases n with
    | zero => simp at hn
    | succ n =>
      have hg := gaps_length tr
      simp only [docText] at hf
      obtain ⟨k, rfl⟩ : ∃ k, fuel = k + 1 + tr.length := ⟨fuel - tr.length - 1, by omega⟩
      obtain ⟨l1, e⟩ := lex_gaps lc (k + 1 + tr.length) tr h.trail (by omega) [] ns l (k + 1)
      rw [lex_eof, List.append_nil] at e
      unfold tokens
      exact ⟨[(.eof, l1)], ⟨[], [], if tr = [] then ns else false, l1⟩, by rw [docText, run_bind e]; rfl, rfl⟩
  | cons d ds ih =>
    obtain ⟨gs, i⟩ := d
    cases n with
    | zero => simp at hn
    | succ n =>
      simp only [List.length_cons] at hn
      simp only [docText, List.length_append] at hf
      have hg := gaps_length gs
      obtain ⟨k, rfl⟩ : ∃ k, fuel = k + 1 + gs.length := ⟨fuel - gs.length - 1, by omega⟩
      obtain ⟨l1, e⟩ := lex_gaps lc (k + 1 + gs.length) gs (h.gaps (gs, i) List.mem_cons_self) (by omega) (i.text ++ docText ds tr) ns l (k + 1)
      have hns' : (if gs = [] then ns else false) = false ∨ i.isPunct = true := by
        split
        · rename_i hgs; exact hns gs i ds rfl hgs
        · exact .inl rfl
      obtain ⟨ns2, l2, e2, e2'⟩ := lex_item lc (k + 1 + gs.length) k i (h.items (gs, i) List.mem_cons_self) (docText ds tr) (stop_doc h) _ hns' l1 (by omega)
      obtain ⟨ts, t', e3, e4⟩ := ih h.tail (by omega) ns2 (fun gs' j r hd hgs => by
        rcases h.spaced.1 gs' j r hd hgs with h' | h'
        · exact .inl (e2' h')
        · exact .inr h') l2 n (by omega)
      rw [e2] at e
      unfold tokens
      refine ⟨(i.tok, l2) :: ts, t', ?_, by simp [e4]⟩
      rw [docText, run_bind e, run_bind (show mLoc whole ⟨[], docText ds tr, ns2, l2⟩ = .ok (l2, ⟨[], docText ds tr, ns2, l2⟩) from rfl)]
      cases i <;> (simp only [Item.tok]; rw [run_bind e3]; rfl)

theorem doc_length (ds : List (List Gap × Item)) (tr : List Gap) (lc : Libc) (h : ∀ d ∈ ds, d.2.Valid lc) : ds.length ≤ (docText ds tr).length := by
  induction ds with
  | nil => exact Nat.zero_le _
  | cons d ds ih =>
    obtain ⟨gs, i⟩ := d
    have h1 : 0 < i.text.length := by
      have := h (gs, i) List.mem_cons_self
      cases i with
      | word w name => obtain ⟨_, _, d, w, rfl, _⟩ := keyword_chars _ name this; simp [Item.text]
      | num t v => obtain ⟨⟨d, w, rfl, _⟩, _⟩ := this; simp [Item.text]
      | addr4 t v => obtain ⟨⟨d, w, rfl, _⟩, _⟩ := this; simp [Item.text]
      | _ => simp [Item.text]
    have := ih (fun x hx => h x (List.mem_cons_of_mem _ hx))
    simp only [docText, List.length_append, List.length_cons]
    omega

/-- **C67**: a file which consists of items with white space or comments between them, however it is read, is scanned as exactly these items. In
particular each string without NUL can be given by putting it in quotes, with a backslash before each quote and backslash. -/
theorem C67 (lc : Libc) (ds : List (List Gap × Item)) (tr : List Gap) (hi : ∀ d ∈ ds, d.2.Valid lc) (hg : ∀ d ∈ ds, ∀ g ∈ d.1, g.Valid)
    (ht : ∀ g ∈ tr, g.Valid) (hs : Spaced ds) (file : List Bytes) (hp : ∀ p ∈ file, p ≠ []) (h : file.flatten = docText ds tr) :
    ∃ ts, scan lc file = .ok ts ∧ ts.map (·.1) = ds.map (fun d => d.2.tok) ++ [.eof] := by
  obtain ⟨ts, h1, h2⟩ := scan_eq lc file hp
  refine ⟨ts, h1, ?_⟩
  rw [h] at h2
  unfold scanWhole at h2
  simp only at h2
  have hlen := doc_length ds tr lc hi
  obtain ⟨ts', t', e, e'⟩ := tokens_doc lc ((docText ds tr).length + 2) ds tr ⟨hi, hg, ht, hs⟩ (by omega) false (fun _ _ _ _ _ => .inl rfl) ⟨1, 0, 1, 0⟩
    ((docText ds tr).length + 2) (by omega)
  simp only [e, bind, Except.bind, pure, Except.pure, Except.ok.injEq] at h2
  subst h2
  exact e'

namespace Demo

/-- Strings with a quote, comments and items without a space between them, read in three pieces -/
example : docText [([], .word (lit "on") "TOK_ON"), ([.ws 32], .word (lit "up") "TOK_UP"), ([.ws 32], .str (lit "a\"b")), ([], .punct 59),
      ([.hash (lit " x")], .word (lit "mtu") "TOK_MTU"), ([.block []], .num (lit "42") 42), ([], .punct 59)] [.ws 10] =
    lit "on up \"a\\\"b\";# x\nmtu/**/42;\n" ∧
    (scan libc [lit "on up \"a\\", lit "\"b\";# x\nmt", lit "u/**/42;\n"]).toOption.map (fun ts => ts.map (·.1)) =
      some [.keyword "TOK_ON", .keyword "TOK_UP", .string (lit "a\"b"), .char 59, .keyword "TOK_MTU", .uint 42, .char 59, .eof] := by
  decide +kernel

end Demo

end Fastd.Config.Lex
