import Verif.Log.Format

/-!
# C57: log formatting never overruns its buffer
-/

namespace Fastd.Log

/-! ## Specification -/

/-- The lower-case hexadecimal digit of a number below 16. -/
def digit (n : UInt8) : UInt8 := if n < 10 then 48 + n else 87 + n

/-- Two digits, the high one first. -/
def hex2 (b : UInt8) : Bytes := [digit (b >>> 4), digit (b &&& 15)]

/-- Text of one argument. -/
def argText : Arg → Bytes
  | .text t => t.getD []
  | .eth t => t.getD (str "(null)")
  | .hex d => d.flatMap hex2
  | .addr none => str "(null)"
  | .addr (some .any) => str "any"
  | .addr (some (.text t)) => t.getD []

/-- The argument fits to the conversion character. -/
def Fits (c : UInt8) : Arg → Prop
  | .text _ => c ∈ textConv
  | .eth _ => c = 69
  | .hex _ => c = 72
  | .addr _ => c ∈ addrConv

/-- `Expands fmt args text`: the format with its arguments stands for `text`. -/
inductive Expands : Bytes → List Arg → Bytes → Prop
  | nil (args) : Expands [] args []
  | char {c fmt args t} : c ≠ 37 → Expands fmt args t → Expands (c :: fmt) args (c :: t)
  | percent {fmt args t} : Expands fmt args t → Expands (37 :: 37 :: fmt) args (37 :: t)
  | conv {c a fmt args t} : Fits c a → Expands fmt args t →
      Expands (37 :: c :: fmt) (a :: args) (argText a ++ t)

/-! ## Lemmas -/

theorem ok_bind {α β : Type} (a : α) (f : α → Res β) : (Res.ok a >>= f) = f a := rfl
theorem pure_ok {α : Type} (a : α) : (pure a : Res α) = .ok a := rfl

theorem writeAt_ok (mem : Bytes) (off : Nat) (data : Bytes) (h : off + data.length ≤ mem.length) :
    ∃ m, writeAt mem off data = .ok m ∧ m.length = mem.length ∧
      m.take off = mem.take off ∧ (m.drop off).take data.length = data := by
  refine ⟨_, if_pos h, ?_, ?_, ?_⟩
  · simp; omega
  · rw [List.append_assoc, List.take_append_of_le_length (by simp; omega), List.take_take]
    simp
  · rw [List.append_assoc, List.drop_append_of_le_length (by simp; omega)]
    rw [List.drop_eq_nil_of_le (by simp; omega)]
    simp

theorem take_add_eq {α : Type} (m : List α) (i j : Nat) : m.take (i + j) = m.take i ++ (m.drop i).take j := by
  exact List.take_add

/-- Invariant: `E` is the text so far, printed at offset 0 into a buffer of `size` bytes; the next
position is `off`. -/
structure Inv (size : Nat) (E : Bytes) (mem : Bytes) (off : Nat) : Prop where
  len : mem.length = size
  short : E.length < size → off = E.length ∧ mem.take off = E
  long : size ≤ E.length → size ≤ off ∧ mem.take (size - 1) = E.take (size - 1)

theorem snprintf_inv (size : Nat) (E mem : Bytes) (off : Nat) (h : Inv size E mem off) (hoff : off < size)
    (t : Bytes) :
    ∃ m, snprintf mem off (size - off) t = .ok (m, t.length) ∧
      Inv size (E ++ t) m (off + t.length) ∧
      Inv size (E ++ t) m (off + min t.length (size - off)) := by
  have hE : E.length < size := by
    rcases Nat.lt_or_ge E.length size with h1 | h1
    · exact h1
    · have := (h.long h1).1; omega
  obtain ⟨ho, hm⟩ := h.short hE
  obtain ⟨m, hw, hl, h1, h2⟩ := writeAt_ok mem off (t.take (size - off - 1) ++ [0]) (by
    simp [h.len]; omega)
  refine ⟨m, ?_, ?_⟩
  · rw [snprintf, if_neg (by omega), hw]; rfl
  have hlen : m.length = size := by rw [hl, h.len]
  have key1 : (E ++ t).length < size → m.take (off + t.length) = E ++ t := by
    intro hs
    rw [List.length_append] at hs
    rw [List.take_of_length_le (by omega : t.length ≤ size - off - 1)] at h2
    rw [take_add_eq, h1, hm]
    congr 1
    have := congrArg (List.take t.length) h2
    simpa [List.take_take, Nat.min_eq_left] using this
  have key2 : size ≤ (E ++ t).length → m.take (size - 1) = (E ++ t).take (size - 1) := by
    intro hs
    rw [List.length_append] at hs
    rw [show size - 1 = off + (size - off - 1) by omega, take_add_eq, h1, hm,
      show off = E.length from ho, List.take_length_add_append]
    congr 1
    have := congrArg (List.take (size - off - 1)) h2
    rw [List.take_take, List.take_append_of_le_length (by simp; omega), List.take_take] at this
    rw [Nat.min_self, Nat.min_eq_left (by simp; omega)] at this
    rw [← ho]
    exact this
  constructor
  · refine ⟨hlen, ?_, ?_⟩
    · intro hs; refine ⟨by simp [ho], key1 hs⟩
    · intro hs; refine ⟨?_, key2 hs⟩; rw [List.length_append] at hs; omega
  · refine ⟨hlen, ?_, ?_⟩
    · intro hs
      have : min t.length (size - off) = t.length := by rw [List.length_append] at hs; omega
      rw [this]; exact ⟨by simp [ho], key1 hs⟩
    · intro hs; refine ⟨?_, key2 hs⟩; rw [List.length_append] at hs; omega

theorem snprintfSafe_inv (size : Nat) (E mem : Bytes) (off : Nat) (h : Inv size E mem off)
    (hoff : off < size) (t : Option Bytes) :
    ∃ m n, snprintfSafe mem off (size - off) t = .ok (m, n) ∧ Inv size (E ++ t.getD []) m (off + n) := by
  cases t with
  | none => exact ⟨mem, 0, rfl, by simpa using h⟩
  | some t =>
    obtain ⟨m, h1, _, h3⟩ := snprintf_inv size E mem off h hoff t
    exact ⟨m, _, by simp only [snprintfSafe, h1, ok_bind]; rfl, h3⟩

/-- Text appended when the buffer is already full does not matter. -/
theorem Inv.full {size : Nat} {E mem : Bytes} {off : Nat} (h : Inv size E mem off) (hoff : size ≤ off)
    (t : Bytes) : Inv size (E ++ t) mem off := by
  have hE : size ≤ E.length := by
    rcases Nat.lt_or_ge E.length size with h1 | h1
    · have := (h.short h1).1; omega
    · exact h1
  obtain ⟨h1, h2⟩ := h.long hE
  refine ⟨h.len, ?_, ?_⟩
  · intro hs; rw [List.length_append] at hs; omega
  · intro _; exact ⟨h1, by rw [h2, List.take_append_of_le_length (by omega)]⟩

theorem fmt02x_eq (b : UInt8) : fmt02x b = hex2 b := by
  have h : ∀ n < 256, fmt02x (UInt8.ofNat n) = hex2 (UInt8.ofNat n) := by decide +kernel
  simpa using h b.toNat b.toNat_lt

theorem hexdumpLoop_inv (size : Nat) (off : Nat) (d : Bytes) (E mem : Bytes) (n : Nat)
    (h : Inv size E mem (off + n)) (hoff : off < size) :
    ∃ m k, hexdumpLoop mem off (size - off) d n = .ok (m, k) ∧
      Inv size (E ++ d.flatMap hex2) m (off + k) := by
  induction d generalizing E mem n with
  | nil => exact ⟨mem, n, rfl, by simpa using h⟩
  | cons b d ih =>
    rw [hexdumpLoop]
    by_cases hn : n < size - off
    · rw [if_pos hn]
      obtain ⟨m, k, h1, h2⟩ := snprintfSafe_inv size E mem (off + n) h (by omega) (some (fmt02x b))
      rw [show size - (off + n) = size - off - n by omega] at h1
      rw [h1, ok_bind]
      obtain ⟨m', k', h3, h4⟩ := ih (E ++ fmt02x b) m (n + k) (by simpa [Nat.add_assoc] using h2)
      exact ⟨m', k', h3, by simpa [List.append_assoc, fmt02x_eq] using h4⟩
    · rw [if_neg hn]
      exact ⟨mem, n, rfl, h.full (by omega) _⟩

theorem textConv_ne (c : UInt8) (h : c ∈ textConv) : c ≠ 37 := by
  intro hc; subst hc; exact absurd h (by decide)

/-- Each conversion prints the text of its argument. -/
theorem conv_inv (size : Nat) (E mem : Bytes) (off : Nat) (h : Inv size E mem off) (hoff : off < size)
    (c : UInt8) (a : Arg) (hf : Fits c a) (args : List Arg) :
    ∃ m n, conv mem off (size - off) c (a :: args) = .ok (some (m, n, args)) ∧
      Inv size (E ++ argText a) m (off + n) := by
  cases a with
  | text t =>
    simp only [Fits] at hf
    obtain ⟨m, n, h1, h2⟩ := snprintfSafe_inv size E mem off h hoff t
    refine ⟨m, n, ?_, h2⟩
    unfold conv; rw [if_neg (textConv_ne c hf), if_pos (by simpa using hf)]; simp only [h1]; rfl
  | eth t =>
    simp only [Fits] at hf
    subst hf
    unfold conv; rw [if_neg (by decide), if_neg (by decide), if_pos rfl]
    cases t with
    | none =>
      obtain ⟨m, n, h1, h2⟩ := snprintfSafe_inv size E mem off h hoff (some (str "(null)"))
      exact ⟨m, n, by simp only [h1]; rfl, h2⟩
    | some t =>
      obtain ⟨m, n, h1, h2⟩ := snprintfSafe_inv size E mem off h hoff (some t)
      exact ⟨m, n, by simp only [h1]; rfl, h2⟩
  | hex d =>
    simp only [Fits] at hf
    subst hf
    unfold conv; rw [if_neg (by decide), if_neg (by decide), if_neg (by decide), if_pos rfl]
    obtain ⟨m, n, h1, h2⟩ := hexdumpLoop_inv size off d E mem 0 h hoff
    exact ⟨m, n, by simp only [h1]; rfl, h2⟩
  | addr a =>
    simp only [Fits] at hf
    have hne : ∀ x ∈ addrConv, x ≠ 37 ∧ textConv.contains x = false ∧ x ≠ 69 ∧ x ≠ 72 := by decide
    obtain ⟨e1, e2, e3, e4⟩ := hne c hf
    unfold conv; rw [if_neg e1, if_neg (by rw [e2]; decide), if_neg e3, if_neg e4, if_pos (by simpa using hf)]
    cases a with
    | none =>
      obtain ⟨m, n, h1, h2⟩ := snprintfSafe_inv size E mem off h hoff (some (str "(null)"))
      exact ⟨m, n, by simp only [h1]; rfl, h2⟩
    | some a =>
      cases a with
      | any =>
        obtain ⟨m, h1, h2, _⟩ := snprintf_inv size E mem off h hoff (str "any")
        exact ⟨m, _, by simp only [snprintAddr, h1]; rfl, h2⟩
      | text t =>
        cases t with
        | none => exact ⟨mem, 0, rfl, by simpa [argText] using h⟩
        | some t =>
          obtain ⟨m, n, h1, h2⟩ := snprintfSafe_inv size E mem off h hoff (some t)
          exact ⟨m, n, by simp only [snprintAddr, h1]; rfl, h2⟩

/-- Writing one literal character. -/
theorem char_inv (size : Nat) (E mem : Bytes) (off : Nat) (h : Inv size E mem off) (hoff : off < size)
    (c : UInt8) :
    ∃ m, writeAt mem off [c] = .ok m ∧ Inv size (E ++ [c]) m (off + 1) := by
  have hE : E.length < size := by
    rcases Nat.lt_or_ge E.length size with h1 | h1
    · exact h1
    · have := (h.long h1).1; omega
  obtain ⟨ho, hm⟩ := h.short hE
  obtain ⟨m, hw, hl, h1, h2⟩ := writeAt_ok mem off [c] (by simp [h.len]; omega)
  have ht : m.take (off + 1) = E ++ [c] := by
    rw [take_add_eq, h1, hm]; congr 1
  refine ⟨m, hw, by rw [hl, h.len], ?_, ?_⟩
  · intro _; exact ⟨by simp [ho], ht⟩
  · intro hs
    rw [List.length_append, List.length_singleton] at hs
    refine ⟨by omega, ?_⟩
    rw [← ht, List.take_take]; congr 1; omega

/-- State after formatting: the text, and a NUL behind it if there is room. -/
def Final (size : Nat) (E mem : Bytes) : Prop :=
  mem.length = size ∧ (E.length < size → mem.take (E.length + 1) = E ++ [0]) ∧
    (size ≤ E.length → mem.take (size - 1) = E.take (size - 1))

theorem finish_inv (size : Nat) (E mem : Bytes) (off : Nat) (h : Inv size E mem off) :
    ∃ m, finish mem size off = Res.ok m ∧ Final size E m := by
  unfold finish
  by_cases hoff : off < size
  · have hE : E.length < size := by
      rcases Nat.lt_or_ge E.length size with h1 | h1
      · exact h1
      · have := (h.long h1).1; omega
    obtain ⟨ho, hm⟩ := h.short hE
    obtain ⟨m, hw, hl, h1, h2⟩ := writeAt_ok mem off [0] (by simp [h.len]; omega)
    refine ⟨m, by rw [if_pos hoff, hw], by rw [hl, h.len], ?_, by omega⟩
    intro _
    rw [← ho, take_add_eq, h1, hm]; congr 1
  · have hE : size ≤ E.length := by
      rcases Nat.lt_or_ge E.length size with h1 | h1
      · have := (h.short h1).1; omega
      · exact h1
    exact ⟨mem, by rw [if_neg hoff], h.len, by omega, fun _ => (h.long hE).2⟩

theorem Final.full {size : Nat} {E mem : Bytes} {off : Nat} (h : Inv size E mem off) (hoff : size ≤ off)
    (t : Bytes) : Final size (E ++ t) mem := by
  have h' := h.full hoff t
  obtain ⟨m, h1, h2⟩ := finish_inv size _ _ _ h'
  rw [finish, if_neg (by omega)] at h1
  cases h1
  exact h2

theorem vsnprintfLoop_inv (size : Nat) (fmt : Bytes) (args : List Arg) (t : Bytes)
    (hx : Expands fmt args t) (E mem : Bytes) (off : Nat) (h : Inv size E mem off) :
    ∃ m n, vsnprintfLoop mem size fmt off args = .ok (m, some n) ∧ Final size (E ++ t) m := by
  induction hx generalizing E mem off with
  | nil args =>
    obtain ⟨m, h1, h2⟩ := finish_inv size E mem off h
    exact ⟨m, off, by simp only [vsnprintfLoop, h1, ok_bind, pure_ok], by simpa using h2⟩
  | @char c fmt args t hc hx ih =>
    by_cases hoff : off ≥ size
    · refine ⟨mem, off, ?_, Final.full h hoff _⟩
      cases fmt <;> (rw [vsnprintfLoop, if_pos hoff]; rfl)
    · obtain ⟨m, h1, h2⟩ := char_inv size E mem off h (by omega) c
      obtain ⟨m', n, h3, h4⟩ := ih (E ++ [c]) m (off + 1) h2
      refine ⟨m', n, ?_, by simpa [List.append_assoc] using h4⟩
      cases fmt with
      | nil =>
        rw [vsnprintfLoop, if_neg hoff, if_pos hc, h1, ok_bind]
        rw [vsnprintfLoop] at h3
        exact h3
      | cons c' fmt =>
        rw [vsnprintfLoop, if_neg hoff, if_pos hc, h1, ok_bind]
        exact h3
  | @percent fmt args t hx ih =>
    by_cases hoff : off ≥ size
    · refine ⟨mem, off, ?_, Final.full h hoff _⟩
      rw [vsnprintfLoop, if_pos hoff]; rfl
    · obtain ⟨m, n, h1, h2⟩ := snprintfSafe_inv size E mem off h (by omega) (some (str "%"))
      obtain ⟨m', n', h3, h4⟩ := ih (E ++ str "%") m (off + n) h2
      refine ⟨m', n', ?_, by simpa [List.append_assoc, str] using h4⟩
      rw [vsnprintfLoop, if_neg hoff, if_neg (by decide)]; unfold conv; rw [if_pos rfl, h1]
      exact h3
  | @conv c a fmt args t hf hx ih =>
    by_cases hoff : off ≥ size
    · refine ⟨mem, off, ?_, Final.full h hoff _⟩
      rw [vsnprintfLoop, if_pos hoff]; rfl
    · obtain ⟨m, n, h1, h2⟩ := conv_inv size E mem off h (by omega) c a hf args
      obtain ⟨m', n', h3, h4⟩ := ih (E ++ argText a) m (off + n) h2
      refine ⟨m', n', ?_, by simpa [List.append_assoc] using h4⟩
      rw [vsnprintfLoop, if_neg hoff, if_neg (by decide), h1]
      exact h3

/-- Weaker invariant for arbitrary formats: everything stays inside. -/
theorem snprintf_len (mem : Bytes) (off : Nat) (h : off < mem.length) (t : Bytes) :
    ∃ m, snprintf mem off (mem.length - off) t = .ok (m, t.length) ∧ m.length = mem.length := by
  obtain ⟨m, hw, hl, _, _⟩ := writeAt_ok mem off (t.take (mem.length - off - 1) ++ [0]) (by
    simp; omega)
  exact ⟨m, by rw [snprintf, if_neg (by omega), hw]; rfl, hl⟩

theorem snprintfSafe_len (mem : Bytes) (off : Nat) (h : off < mem.length) (t : Option Bytes) :
    ∃ m n, snprintfSafe mem off (mem.length - off) t = .ok (m, n) ∧ m.length = mem.length := by
  cases t with
  | none => exact ⟨mem, 0, rfl, rfl⟩
  | some t =>
    obtain ⟨m, h1, h2⟩ := snprintf_len mem off h t
    exact ⟨m, _, by simp only [snprintfSafe, h1, ok_bind]; rfl, h2⟩

theorem hexdumpLoop_len (d : Bytes) (mem : Bytes) (off n : Nat) (h : off < mem.length) :
    ∃ m k, hexdumpLoop mem off (mem.length - off) d n = .ok (m, k) ∧ m.length = mem.length := by
  induction d generalizing mem n with
  | nil => exact ⟨mem, n, rfl, rfl⟩
  | cons b d ih =>
    rw [hexdumpLoop]
    by_cases hn : n < mem.length - off
    · rw [if_pos hn]
      obtain ⟨m, k, h1, h2⟩ := snprintfSafe_len mem (off + n) (by omega) (some (fmt02x b))
      rw [show mem.length - (off + n) = mem.length - off - n by omega] at h1
      rw [h1, ok_bind]
      obtain ⟨m', k', h3, h4⟩ := ih m (n + k) (by omega)
      exact ⟨m', k', by rw [h2] at h3; exact h3, by omega⟩
    · rw [if_neg hn]; exact ⟨mem, n, rfl, rfl⟩

theorem conv_len (mem : Bytes) (off : Nat) (h : off < mem.length) (c : UInt8) (args : List Arg) :
    conv mem off (mem.length - off) c args = .badArg ∨
    conv mem off (mem.length - off) c args = .ok none ∨
    ∃ m n args', conv mem off (mem.length - off) c args = .ok (some (m, n, args')) ∧
      m.length = mem.length := by
  have hs := fun t => snprintfSafe_len mem off h t
  unfold conv
  split
  · obtain ⟨m, n, h1, h2⟩ := hs (some (str "%"))
    exact .inr (.inr ⟨m, n, args, by simp only [h1]; rfl, h2⟩)
  split
  · split
    · rename_i t args
      obtain ⟨m, n, h1, h2⟩ := hs t
      exact .inr (.inr ⟨m, n, args, by simp only [h1]; rfl, h2⟩)
    · exact .inl rfl
  split
  · split
    · rename_i t args
      obtain ⟨m, n, h1, h2⟩ := hs (some t)
      exact .inr (.inr ⟨m, n, args, by simp only [h1]; rfl, h2⟩)
    · rename_i args
      obtain ⟨m, n, h1, h2⟩ := hs (some (str "(null)"))
      exact .inr (.inr ⟨m, n, args, by simp only [h1]; rfl, h2⟩)
    · exact .inl rfl
  split
  · split
    · rename_i d args
      obtain ⟨m, n, h1, h2⟩ := hexdumpLoop_len d mem off 0 h
      exact .inr (.inr ⟨m, n, args, by simp only [h1]; rfl, h2⟩)
    · exact .inl rfl
  split
  · split
    · rename_i a args
      cases a with
      | any =>
        obtain ⟨m, h1, h2⟩ := snprintf_len mem off h (str "any")
        exact .inr (.inr ⟨m, _, args, by simp only [snprintAddr, h1]; rfl, h2⟩)
      | text t =>
        cases t with
        | none => exact .inr (.inr ⟨mem, 0, args, rfl, rfl⟩)
        | some t =>
          obtain ⟨m, n, h1, h2⟩ := hs (some t)
          exact .inr (.inr ⟨m, n, args, by simp only [snprintAddr, h1]; rfl, h2⟩)
    · rename_i args
      obtain ⟨m, n, h1, h2⟩ := hs (some (str "(null)"))
      exact .inr (.inr ⟨m, n, args, by simp only [h1]; rfl, h2⟩)
    · exact .inl rfl
  · exact .inr (.inl rfl)

theorem vsnprintfLoop_len (fmt : Bytes) (mem : Bytes) (hpos : 0 < mem.length) (off : Nat)
    (args : List Arg) :
    vsnprintfLoop mem mem.length fmt off args = .badArg ∨
    ∃ m r, vsnprintfLoop mem mem.length fmt off args = .ok (m, r) ∧ m.length = mem.length := by
  induction hn : fmt.length using Nat.strongRecOn generalizing fmt mem off args with
  | ind k ih =>
    have w1 : ∀ (mem : Bytes) (o : Nat) (c : UInt8), o < mem.length →
        ∃ m, writeAt mem o [c] = .ok m ∧ m.length = mem.length := by
      intro mem o c ho
      obtain ⟨m, hw, hl, _, _⟩ := writeAt_ok mem o [c] (by simp; omega)
      exact ⟨m, hw, hl⟩
    match fmt, hn with
    | [], _ =>
      rw [vsnprintfLoop]
      by_cases hoff : off < mem.length
      · obtain ⟨m, h1, h2⟩ := w1 mem off 0 hoff
        exact .inr ⟨m, _, by rw [finish, if_pos hoff, h1]; rfl, h2⟩
      · exact .inr ⟨mem, _, by rw [finish, if_neg hoff]; rfl, rfl⟩
    | [c], _ =>
      rw [vsnprintfLoop]
      by_cases hoff : off ≥ mem.length
      · exact .inr ⟨mem, _, by rw [if_pos hoff]; rfl, rfl⟩
      · rw [if_neg hoff]
        by_cases hc : c ≠ 37
        · rw [if_pos hc]
          obtain ⟨m, h1, h2⟩ := w1 mem off c (by omega)
          rw [h1, ok_bind]
          by_cases ho : off + 1 < mem.length
          · obtain ⟨m', h3, h4⟩ := w1 m (off + 1) 0 (by omega)
            exact .inr ⟨m', _, by rw [finish, if_pos ho, h3]; rfl, by omega⟩
          · exact .inr ⟨m, _, by rw [finish, if_neg ho]; rfl, h2⟩
        · rw [if_neg hc]
          obtain ⟨m, h1, h2⟩ := w1 mem 0 0 hpos
          exact .inr ⟨m, _, by rw [h1]; rfl, h2⟩
    | c :: c' :: fmt, hn =>
      rw [vsnprintfLoop]
      by_cases hoff : off ≥ mem.length
      · exact .inr ⟨mem, _, by rw [if_pos hoff]; rfl, rfl⟩
      · rw [if_neg hoff]
        by_cases hc : c ≠ 37
        · rw [if_pos hc]
          obtain ⟨m, h1, h2⟩ := w1 mem off c (by omega)
          rw [h1, ok_bind]
          have := ih (c' :: fmt).length (by rw [← hn]; simp) (c' :: fmt) m (by omega) (off + 1) args rfl
          rw [h2] at this
          exact this
        · rw [if_neg hc]
          rcases conv_len mem off (by omega) c' args with h1 | h1 | ⟨m, n, args', h1, h2⟩
          · rw [h1]; exact .inl rfl
          · rw [h1]
            obtain ⟨m, h1, h2⟩ := w1 mem 0 0 hpos
            exact .inr ⟨m, none, by simp only [ok_bind, h1]; rfl, h2⟩
          · rw [h1]
            have := ih fmt.length (by rw [← hn]; simp; omega) fmt m (by omega) (off + n) args' rfl
            rw [h2] at this
            exact this

/-! ## C57 -/

/-- C57. Formatting never writes outside of the given buffer, for every non-empty buffer, every
format (also malformed ones) and all arguments; neither does `fastd_logf`. -/
theorem C57_no_overrun (mem : Bytes) (hpos : 0 < mem.length) (fmt : Bytes) (args : List Arg) :
    vsnprintf mem fmt args ≠ .overrun ∧ (mem.length = logSize → logText mem fmt args ≠ .overrun) := by
  obtain ⟨m, hw, hl, _, _⟩ := writeAt_ok mem 0 [0] (by simp; omega)
  have h := vsnprintfLoop_len fmt m (by omega) 0 args
  have e : vsnprintf mem fmt args = vsnprintfLoop m m.length fmt 0 args := by
    rw [vsnprintf, hw]; rfl
  constructor
  · rw [e]
    rcases h with h | ⟨m', r, h, _⟩ <;> (rw [h]; simp)
  · intro hs
    rw [logText, e]
    rcases h with h | ⟨m', r, h, hl'⟩
    · rw [h]; simp [Bind.bind, Res.bind]
    · rw [h, ok_bind]
      obtain ⟨m'', h1, _⟩ := writeAt_ok m' (logSize - 1) [0] (by
        rw [hl', hl, hs]; decide)
      simp [h1, ok_bind, pure_ok]

theorem takeWhile_ne_zero (t : Bytes) (h : (0 : UInt8) ∉ t) (r : Bytes) :
    (t ++ 0 :: r).takeWhile (· ≠ 0) = t := by
  induction t with
  | nil => simp
  | cons a t ih =>
    simp only [List.mem_cons, not_or] at h
    rw [List.cons_append, List.takeWhile_cons, if_pos (by simpa using fun e => h.1 e.symm)]
    rw [ih h.2]

/-- C57. For every format with matching arguments the logged text is exactly the expansion of the
format, truncated to 1023 bytes: it is always terminated, and nothing of the previous content of the
buffer shows up. -/
theorem C57_text (garbage : Bytes) (hg : garbage.length = 1024) (fmt : Bytes) (args : List Arg) (t : Bytes)
    (hx : Expands fmt args t) (hz : (0 : UInt8) ∉ t) :
    logText garbage fmt args = .ok (t.take 1023) := by
  obtain ⟨m0, hw, hl, _, _⟩ := writeAt_ok garbage 0 [0] (by simp; omega)
  have hm0 : m0.length = 1024 := by omega
  obtain ⟨m, n, h1, h2, h3, h4⟩ := vsnprintfLoop_inv 1024 fmt args t hx [] m0 0
    ⟨hm0, by simp, by simp⟩
  simp only [List.nil_append] at h3 h4
  have e : vsnprintf garbage fmt args = .ok (m, some n) := by
    rw [vsnprintf, hw, ok_bind, hm0, h1]
  rw [logText, e, ok_bind]
  have hls : logSize - 1 = 1023 := rfl
  rw [hls]
  have hwf : writeAt m 1023 [0] = .ok (m.take 1023 ++ [0]) := by
    rw [writeAt, if_pos (by rw [h2]; decide)]
    simp [List.drop_eq_nil_of_le, h2]
  simp only [hwf, ok_bind, pure_ok]
  congr 1
  rcases Nat.lt_or_ge t.length 1023 with hs | hs
  · have := h3 (by omega)
    rw [List.take_of_length_le (by omega : t.length ≤ 1023)]
    have e2 : m.take 1023 = t ++ 0 :: (m.drop (t.length + 1)).take (1023 - (t.length + 1)) := by
      conv => lhs; rw [show 1023 = (t.length + 1) + (1023 - (t.length + 1)) by omega, take_add_eq, this]
      simp
    rw [e2, List.append_assoc, List.cons_append]
    exact takeWhile_ne_zero t hz _
  · have e2 : m.take 1023 = t.take 1023 := by
      rcases Nat.lt_or_ge t.length 1024 with ht | ht
      · have := h3 ht
        have ht' : t.length = 1023 := by omega
        have := congrArg (List.take 1023) this
        rw [List.take_take, ht', List.take_append_of_le_length (by omega)] at this
        simpa using this
      · exact h4 ht
    rw [e2]
    exact takeWhile_ne_zero _ (fun h => hz (List.mem_of_mem_take h)) []

/-- A message with several conversions, and one that is truncated in the middle of a hexdump. -/
example : logText (List.replicate 1024 0xaa) (str "peer %P at %I: %H%%")
    [.text (some (str "<a>")), .addr (some .any), .hex [0x0f, 0xa0]] =
    .ok (str "peer <a> at any: 0fa0%") := by decide +kernel

example : logText (List.replicate 1024 0xaa) (str "%s%H")
    [.text (some (List.replicate 1020 0x78)), .hex [0x12, 0x34, 0x56]] =
    .ok (List.replicate 1020 0x78 ++ str "123") := by decide +kernel

/-- The truncated `AF_UNSPEC` address makes the function count 3 bytes although fewer were left; this
is harmless as the loop ends. -/
example : logText (List.replicate 1024 0xaa) (str "%s%Ixyz")
    [.text (some (List.replicate 1022 0x78)), .addr (some .any)] =
    .ok (List.replicate 1022 0x78 ++ str "a") := by decide +kernel

/-- Observation (not part of C57, which is about formats in use): the warning printed for an unknown
conversion character itself contains the unknown conversion `%c`, so that `fastd_logf` with such a
format recurses without end when warnings are enabled. No format string in fastd has an unknown
conversion, except this one. -/
theorem unknown_conversion_recurses (garbage : Bytes) (hg : garbage.length = 1024) (fuel : Nat) :
    logf garbage fuel warnFmt [.text (some [])] = none := by
  induction fuel with
  | zero => rfl
  | succ fuel ih =>
    have key : ∀ (fmt : Bytes) (mem : Bytes) (off : Nat), mem.length = 1024 →
        off + fmt.length < 1024 → (∀ c ∈ fmt, c ≠ 37) →
        ∃ m, vsnprintfLoop mem 1024 (fmt ++ str "%c'") off [.text (some [])] = .ok (m, none) := by
      intro fmt
      induction fmt with
      | nil =>
        intro mem off hm hoff _
        obtain ⟨m, hw, _, _, _⟩ := writeAt_ok mem 0 [0] (by rw [hm]; decide)
        refine ⟨m, ?_⟩
        have hs : ([] : Bytes) ++ str "%c'" = 37 :: 99 :: [39] := by decide
        rw [hs, vsnprintfLoop, if_neg (by simpa using hoff), if_neg (by decide)]
        have hc : conv mem off (1024 - off) 99 [.text (some [])] = .ok none := by
          unfold conv
          rw [if_neg (by decide), if_neg (by decide), if_neg (by decide), if_neg (by decide),
            if_neg (by decide)]
          rfl
        rw [hc, ok_bind]
        simp only [hw, ok_bind, pure_ok]
      | cons c fmt ihf =>
        intro mem off hm hoff hc
        simp only [List.length_cons] at hoff
        obtain ⟨m, hw, hl, _, _⟩ := writeAt_ok mem off [c] (by simp [hm]; omega)
        obtain ⟨m', h'⟩ := ihf m (off + 1) (by omega) (by omega) (fun x hx => hc x (by simp [hx]))
        refine ⟨m', ?_⟩
        have : ∃ d r, fmt ++ str "%c'" = d :: r := by
          cases fmt with
          | nil => exact ⟨_, _, rfl⟩
          | cons d r => exact ⟨_, _, rfl⟩
        obtain ⟨d, r, hd⟩ := this
        rw [List.cons_append, hd, vsnprintfLoop, if_neg (by omega), if_pos (hc c (by simp)), hw, ok_bind,
          ← hd]
        exact h'
    obtain ⟨m0, hw, hl, _, _⟩ := writeAt_ok garbage 0 [0] (by simp; omega)
    obtain ⟨m, hm⟩ := key (str "fastd_vsnprintf: unknown format conversion specifier '") m0 0 (by omega)
      (by decide +kernel) (by decide +kernel)
    have hv : vsnprintf garbage warnFmt [.text (some [])] = .ok (m, none) := by
      rw [vsnprintf, hw, ok_bind, show m0.length = 1024 by omega, ← hm]
      congr 1
    rw [logf, hv]
    simp only [ih, Option.bind_eq_bind, Option.bind_none]

end Fastd.Log
