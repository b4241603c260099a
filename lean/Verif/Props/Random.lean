import Verif.Main.Random

/-!
# C119: random data comes from the system, and none of it is used twice
-/

namespace Fastd.Random

/-- All bytes that were read from a device, in order -/
def got (d : Dev) (t : List Ev) : Bytes :=
  t.flatMap fun
    | .read e _ l => if e = d then l else []
    | _ => []

/-- A call that was not successful -/
def Ev.Fails : Ev → Prop
  | .notOpened _ => True
  | .readError _ _ => True
  | .read _ _ l => l = []
  | _ => False

/-- The results of generated keys (`gen`), or of all other uses -/
def results (gen : Bool) : List Use → List Bytes → List Bytes
  | u :: us, r :: rs => if decide (u = .generatedKey) = gen then r :: results gen us rs else results gen us rs
  | _, _ => []

/-- The number of bytes that are needed: seeds are 32 bit numbers, secret keys have 256 bits. -/
def needs : Use → Nat
  | .seed => 4
  | .unknownSeed => 4
  | .tableSeed => 4
  | .handshakeKey => 32
  | .generatedKey => 32

/-- Pieces of the data one after the other, maybe with gaps -/
def Pieces : List Bytes → Bytes → Prop
  | [], _ => True
  | r :: rs, d => ∃ gap rest, d = gap ++ r ++ rest ∧ Pieces rs rest

/-! ## Lemmas -/

/-- The results of the uses of one of the two devices -/
def resultsBy (secure : Bool) : List Use → List Bytes → List Bytes
  | u :: us, r :: rs => if u.secure = secure then r :: resultsBy secure us rs else resultsBy secure us rs
  | _, _ => []

theorem got_append (d : Dev) (t u : List Ev) : got d (t ++ u) = got d t ++ got d u := by simp [got]

/-- `fread` calls only `read` for the one device. -/
def OnlyReads (d : Dev) (evs : List Ev) : Prop := ∀ e ∈ evs, (∃ n l, e = .read d n l) ∨ ∃ n, e = .readError d n

theorem got_other {d e : Dev} (h : e ≠ d) {evs : List Ev} (ho : OnlyReads d evs) : got e evs = [] := by
  simp only [got, List.flatMap_eq_nil_iff]
  intro x hx
  rcases ho x hx with ⟨n, l, rfl⟩ | ⟨n, rfl⟩
  · simp [Ne.symm h]
  · rfl

theorem freadLoop_spec (sys : Sys) (d : Dev) (fuel n : Nat) (buf : Bytes) (t : List Ev) (hfuel : n + (if buf = [] then 1 else 0) < fuel) :
    ∃ evs, (freadLoop sys d fuel n buf t).2.2 = t ++ evs ∧ OnlyReads d evs ∧
      match (freadLoop sys d fuel n buf t).1 with
      | some r => r.length = n ∧ buf ++ got d evs = r ++ (freadLoop sys d fuel n buf t).2.1 ∧ ∀ e ∈ evs, ¬ e.Fails
      | none => ∃ l e, evs = l ++ [e] ∧ e.Fails ∧ ∀ e ∈ l, ¬ e.Fails := by
  fun_induction freadLoop sys d fuel n buf t with
  | case1 n buf t => omega
  | case2 fuel n buf t h => exact ⟨[], by simp, by simp [OnlyReads], by simp [h], by simp [got], by simp⟩
  | case3 fuel n buf t h hr =>
    exact ⟨[_], rfl, fun e he => .inr ⟨_, by simpa using he⟩, [], _, rfl, trivial, by simp⟩
  | case4 fuel n buf t h hr =>
    exact ⟨[_], rfl, fun e he => .inl ⟨_, _, by simpa using he⟩, [], _, rfl, rfl, by simp⟩
  | case5 fuel n buf t h x l hr r b t' he ih =>
    rw [he] at ih
    have hfu : n - buf.length + (if x :: l = [] then 1 else 0) < fuel := by
      by_cases hb : buf = []
      · subst hb; simp at hfuel ⊢; omega
      · have := List.length_pos_iff.mpr hb
        simp at hfuel ⊢; omega
    obtain ⟨evs, ht, ho, hl, hd, hf⟩ := ih hfu
    refine ⟨Ev.read d (request (n - buf.length)) (x :: l) :: evs, ?_, ?_, ?_, ?_, ?_⟩
    · simpa using ht
    · intro e h; rcases List.mem_cons.mp h with rfl | h
      · exact .inl ⟨_, _, rfl⟩
      · exact ho e h
    · simp [hl]; omega
    · simp only [got, List.flatMap_cons] at hd ⊢
      simpa using hd
    · intro e h; rcases List.mem_cons.mp h with rfl | h
      · simp [Ev.Fails]
      · exact hf e h
  | case6 fuel n buf t h x l hr b t' he ih =>
    rw [he] at ih
    have hfu : n - buf.length + (if x :: l = [] then 1 else 0) < fuel := by
      by_cases hb : buf = []
      · subst hb; simp at hfuel ⊢; omega
      · have := List.length_pos_iff.mpr hb
        simp at hfuel ⊢; omega
    obtain ⟨evs, ht, ho, k, e, rfl, hfe, hf⟩ := ih hfu
    refine ⟨Ev.read d (request (n - buf.length)) (x :: l) :: (k ++ [e]), ?_, ?_, Ev.read d (request (n - buf.length)) (x :: l) :: k, e, rfl, hfe, ?_⟩
    · simpa using ht
    · intro e h; rcases List.mem_cons.mp h with rfl | h
      · exact .inl ⟨_, _, rfl⟩
      · exact ho e h
    · intro e h; rcases List.mem_cons.mp h with rfl | h
      · simp [Ev.Fails]
      · exact hf e h

theorem fread_spec (sys : Sys) (d : Dev) (n : Nat) (buf : Bytes) (t : List Ev) :
    ∃ evs, (fread sys d n buf t).2.2 = t ++ evs ∧ OnlyReads d evs ∧
      match (fread sys d n buf t).1 with
      | some r => r.length = n ∧ buf ++ got d evs = r ++ (fread sys d n buf t).2.1 ∧ ∀ e ∈ evs, ¬ e.Fails
      | none => ∃ l e, evs = l ++ [e] ∧ e.Fails ∧ ∀ e ∈ l, ¬ e.Fails :=
  freadLoop_spec sys d (n + 2) n buf t (by split <;> omega)

/-- How often a device was opened, and closed -/
def opens (d : Dev) (t : List Ev) : Nat := t.count (.opened d)
def closes (d : Dev) (t : List Ev) : Nat := t.count (.closed d)

theorem opens_append (d : Dev) (t u : List Ev) : opens d (t ++ u) = opens d t + opens d u := by simp [opens]
theorem closes_append (d : Dev) (t u : List Ev) : closes d (t ++ u) = closes d t + closes d u := by simp [closes]

theorem opens_reads {d e : Dev} {evs : List Ev} (ho : OnlyReads d evs) : opens e evs = 0 := by
  rw [opens, List.count_eq_zero]
  intro h; rcases ho _ h with ⟨n, l, h⟩ | ⟨n, h⟩ <;> cases h

theorem closes_reads {d e : Dev} {evs : List Ev} (ho : OnlyReads d evs) : closes e evs = 0 := by
  rw [closes, List.count_eq_zero]
  intro h; rcases ho _ h with ⟨n, l, h⟩ | ⟨n, h⟩ <;> cases h

/-- What a sequence of uses with the given resultsBy does -/
structure Fine (us : List Use) (s : St) (rs : List Bytes) (s' : St) (evs : List Ev) : Prop where
  trace : s'.trace = s.trace ++ evs
  size : rs.map List.length = us.map Use.size
  urandom : s.buf ++ got .urandom evs = (resultsBy false us rs).flatten ++ s'.buf
  random : Pieces (resultsBy true us rs) (got .random evs)
  fails : ∀ e ∈ evs, ¬ e.Fails
  files : ∀ d, opens d evs = closes d evs
  urandomOnce : opens .urandom evs = 0
  randomEach : opens .random evs = (resultsBy true us rs).length

/-- What a sequence of uses does which ends the process -/
def Ends (s s' : St) : Prop := ∃ l e, s'.trace = s.trace ++ l ++ [e] ∧ e.Fails ∧ ∀ e ∈ l, ¬ e.Fails

theorem use_spec (sys : Sys) (u : Use) (s : St) :
    match randomBytes sys u.size u.secure s with
    | (some r, s') => ∃ evs, Fine [u] s [r] s' evs
    | (none, s') => Ends s s' := by
  have h0 : u.size ≠ 0 := by cases u <;> simp [Use.size]
  by_cases hs : u.secure = true
  · simp only [randomBytes, hs, if_true]
    by_cases hc : sys.canOpen s.trace .random = true
    · simp only [hc, if_true]
      obtain ⟨evs, ht, ho, h⟩ := fread_spec sys .random u.size [] (s.trace ++ [.opened .random])
      rcases hf : fread sys .random u.size [] (s.trace ++ [.opened .random]) with ⟨_ | r, b, t⟩ <;> rw [hf] at ht h <;> simp only [hf] at ht h ⊢
      · obtain ⟨l, e, rfl, he, hl⟩ := h
        refine ⟨.opened .random :: l, e, by simp [ht], he, ?_⟩
        intro e h; rcases List.mem_cons.mp h with rfl | h
        · simp [Ev.Fails]
        · exact hl e h
      · obtain ⟨hn, hd, hl⟩ := h
        simp only [h0, if_false]
        refine ⟨.opened .random :: (evs ++ [.closed .random]), by simp [ht], by simp [hn], ?_, ?_, ?_, ?_, ?_, ?_⟩
        · have : got .urandom evs = [] := got_other (by decide) ho
          simp only [resultsBy, hs, got, List.flatMap_cons, List.flatMap_append] at this ⊢
          simp [this]
        · simp only [resultsBy, hs, if_true]
          refine ⟨[], b, ?_, trivial⟩
          simp only [got, List.flatMap_cons, List.flatMap_append] at hd ⊢
          simpa using hd
        · intro e h; rcases List.mem_cons.mp h with rfl | h
          · simp [Ev.Fails]
          · rcases List.mem_append.mp h with h | h
            · exact hl e h
            · rw [List.mem_singleton.mp h]; simp [Ev.Fails]
        · intro d
          have h1 := opens_reads (e := d) ho
          have h2 := closes_reads (e := d) ho
          simp only [opens, closes, List.count_cons, List.count_append, List.count_nil] at h1 h2 ⊢
          rw [h1, h2]
          cases d <;> decide
        · have h1 := opens_reads (e := .urandom) ho
          simp only [opens, List.count_cons, List.count_append, List.count_nil] at h1 ⊢
          rw [h1]; decide
        · have h1 := opens_reads (e := .random) ho
          simp only [opens, List.count_cons, List.count_append, List.count_nil] at h1 ⊢
          rw [h1]; simp [resultsBy, hs]
    · simp only [hc]
      exact ⟨[], .notOpened .random, by simp, trivial, by simp⟩
  · have hs : u.secure = false := by simpa using hs
    simp only [randomBytes, hs, Bool.false_eq_true, if_false]
    obtain ⟨evs, ht, ho, h⟩ := fread_spec sys .urandom u.size s.buf s.trace
    rcases hf : fread sys .urandom u.size s.buf s.trace with ⟨_ | r, b, t⟩ <;> rw [hf] at ht h <;> simp only at ht h ⊢
    · obtain ⟨l, e, rfl, he, hl⟩ := h
      exact ⟨l, e, by simp [ht], he, hl⟩
    · obtain ⟨hn, hd, hl⟩ := h
      simp only [h0, if_false]
      refine ⟨evs, by simp [ht], by simp [hn], by simpa [resultsBy, hs] using hd, by simp [resultsBy, hs, Pieces], hl, ?_, opens_reads ho, ?_⟩
      · intro d; rw [opens_reads ho, closes_reads ho]
      · rw [opens_reads ho]; simp [resultsBy, hs]

theorem Pieces.shift {rs : List Bytes} {d : Bytes} (h : Pieces rs d) (a : Bytes) : Pieces rs (a ++ d) := by
  cases rs with
  | nil => trivial
  | cons r rs =>
    obtain ⟨g, x, rfl, h⟩ := h
    exact ⟨a ++ g, x, by simp, h⟩

theorem Pieces.append {rs : List Bytes} {d : Bytes} (h : Pieces rs d) (a : Bytes) : Pieces rs (d ++ a) := by
  induction rs generalizing d with
  | nil => trivial
  | cons r rs ih =>
    obtain ⟨g, x, rfl, h⟩ := h
    exact ⟨g, x ++ a, by simp, ih h⟩

theorem uses_spec (sys : Sys) (us : List Use) (s : St) :
    match uses sys us s with
    | (some rs, s') => ∃ evs, Fine us s rs s' evs
    | (none, s') => Ends s s' := by
  induction us generalizing s with
  | nil => exact ⟨[], by simp, rfl, by simp [got, resultsBy], trivial, by simp, fun d => by simp [opens, closes], rfl, rfl⟩
  | cons u us ih =>
    have h1 := use_spec sys u s
    rw [uses]
    rcases hr : randomBytes sys u.size u.secure s with ⟨_ | r, s1⟩ <;> rw [hr] at h1 <;> simp only at h1 ⊢
    · exact h1
    · obtain ⟨e1, h1⟩ := h1
      have h2 := ih s1
      rcases hu : uses sys us s1 with ⟨_ | rs, s2⟩ <;> rw [hu] at h2 <;> simp only at h2 ⊢
      · obtain ⟨l, e, ht, he, hl⟩ := h2
        refine ⟨e1 ++ l, e, by simp [ht, h1.trace], he, ?_⟩
        intro x hx
        rcases List.mem_append.mp hx with h | h
        · exact h1.fails x h
        · exact hl x h
      · obtain ⟨e2, h2⟩ := h2
        refine ⟨e1 ++ e2, by simp [h2.trace, h1.trace], ?_, ?_, ?_, ?_, ?_, ?_, ?_⟩
        · have a := h1.size; have b := h2.size
          simp only [List.map_cons, List.map_nil, List.cons.injEq, and_true] at a ⊢
          exact ⟨a, b⟩
        · rw [got_append, ← List.append_assoc, h1.urandom, List.append_assoc, h2.urandom]
          by_cases h : u.secure = false <;> simp [resultsBy, h]
        · rw [got_append]
          have a := h1.random; have b := h2.random
          by_cases h : u.secure = true
          · simp only [resultsBy, h, if_true] at a ⊢
            obtain ⟨g, x, hg, -⟩ := a
            exact ⟨g, x ++ got .random e2, by simp [hg], b.shift x⟩
          · simp only [resultsBy, h]
            exact b.shift _
        · intro x hx
          rcases List.mem_append.mp hx with h | h
          · exact h1.fails x h
          · exact h2.fails x h
        · intro d; rw [opens_append, closes_append, h1.files d, h2.files d]
        · rw [opens_append, h1.urandomOnce, h2.urandomOnce]
        · rw [opens_append, h1.randomEach, h2.randomEach]
          by_cases h : u.secure = true <;> simp [resultsBy, h]; omega

theorem pieces_of_flatten {rs : List Bytes} {b d : Bytes} (h : d = rs.flatten ++ b) : Pieces rs d := by
  induction rs generalizing d with
  | nil => trivial
  | cons r rs ih => exact ⟨[], rs.flatten ++ b, by simp [h], ih rfl⟩

theorem drop_behind (x y : Bytes) (n : Nat) : (x ++ y).drop (x.length + n) = y.drop n := by simp [List.drop_append]

/-- Pieces at different places are disjoint. -/
theorem pieces_disjoint {rs : List Bytes} {d : Bytes} (h : Pieces rs d) {i j : Nat} (hij : i < j) (hj : j < rs.length) :
    ∃ a b, a + rs[i].length ≤ b ∧ b + rs[j].length ≤ d.length ∧ (d.drop a).take rs[i].length = rs[i] ∧ (d.drop b).take rs[j].length = rs[j] := by
  have one : ∀ {rs : List Bytes} {d : Bytes}, Pieces rs d → ∀ j (hj : j < rs.length),
      ∃ b, b + rs[j].length ≤ d.length ∧ (d.drop b).take rs[j].length = rs[j] := by
    intro rs
    induction rs with
    | nil => intro d h j hj; simp at hj
    | cons r rs ih =>
      intro d h j hj
      obtain ⟨g, x, rfl, h⟩ := h
      cases j with
      | zero => exact ⟨g.length, by simp, by simp⟩
      | succ j =>
        obtain ⟨b, hb, hd⟩ := ih h j (by simpa using hj)
        refine ⟨(g ++ r).length + b, ?_, ?_⟩
        · simp at hb ⊢; omega
        · rw [drop_behind]; exact hd
  induction rs generalizing d i j with
  | nil => simp at hj
  | cons r rs ih =>
    obtain ⟨g, x, rfl, h⟩ := h
    cases j with
    | zero => omega
    | succ j =>
      have hj' : j < rs.length := by simpa using hj
      cases i with
      | zero =>
        obtain ⟨b, hb, hd⟩ := one h j hj'
        refine ⟨g.length, (g ++ r).length + b, by simp, ?_, by simp, ?_⟩
        · simp at hb ⊢; omega
        · rw [drop_behind]; exact hd
      | succ i =>
        obtain ⟨a, b, hab, hb, h1, h2⟩ := ih h (show i < j by omega) hj'
        refine ⟨(g ++ r).length + a, (g ++ r).length + b, ?_, ?_, ?_, ?_⟩
        · simp at hab ⊢; omega
        · simp at hb ⊢; omega
        · rw [drop_behind]; exact h1
        · rw [drop_behind]; exact h2

theorem run_spec (sys : Sys) (us : List Use) :
    match run sys us with
    | (some rs, s) => ∃ evs b, s.trace = .opened .urandom :: (evs ++ [.closed .urandom]) ∧ Fine us ⟨[], [.opened .urandom]⟩ rs ⟨b, .opened .urandom :: evs⟩ evs
    | (none, s) => ∃ l e, s.trace = l ++ [e] ∧ e.Fails ∧ ∀ e ∈ l, ¬ e.Fails := by
  rw [run, init]
  by_cases hc : sys.canOpen [] .urandom = true
  · simp only [hc, if_true]
    have h := uses_spec sys us ⟨[], [.opened .urandom]⟩
    rcases hu : uses sys us ⟨[], [.opened .urandom]⟩ with ⟨_ | rs, s⟩ <;> rw [hu] at h <;> simp only at h ⊢
    · obtain ⟨l, e, ht, he, hl⟩ := h
      refine ⟨.opened .urandom :: l, e, by simpa using ht, he, ?_⟩
      intro x hx; rcases List.mem_cons.mp hx with rfl | hx
      · simp [Ev.Fails]
      · exact hl x hx
    · obtain ⟨evs, h⟩ := h
      obtain ⟨b, t⟩ := s
      have ht : t = .opened .urandom :: evs := h.trace
      subst ht
      exact ⟨evs, b, by simp, h⟩
  · simp only [hc]
    exact ⟨[], .notOpened .urandom, rfl, trivial, by simp⟩

theorem got_run (d : Dev) (evs : List Ev) : got d (.opened .urandom :: (evs ++ [.closed .urandom])) = got d evs := by
  simp [got]

theorem secure_eq (u : Use) : u.secure = decide (u = .generatedKey) := by cases u <;> rfl

theorem size_eq : Use.size = needs := by funext u; cases u <;> rfl

theorem results_eq (b : Bool) (us : List Use) (rs : List Bytes) : resultsBy b us rs = results b us rs := by
  induction us generalizing rs with
  | nil => rfl
  | cons u us ih => cases rs <;> simp only [resultsBy, results, secure_eq, ih]

/-! ## Properties -/

/-- C119: as long as the process does not exit, every use gets exactly the number of bytes it needs. All bytes given out for seeds and handshake keys, in this
order, are the beginning of what was read from /dev/urandom: no byte is used twice, left out or made up. What generated keys get are pieces of what was
read from /dev/random, one after the other. This holds for all ways in which the system may answer, in particular for reads that return less than was asked for. -/
theorem C119_bytes (sys : Sys) (us : List Use) (rs : List Bytes) (s : St) (h : run sys us = (some rs, s)) :
    rs.map List.length = us.map needs ∧
    (results false us rs).flatten <+: got .urandom s.trace ∧
    Pieces (results true us rs) (got .random s.trace) := by
  have hs := run_spec sys us
  rw [h] at hs
  obtain ⟨evs, b, ht, hf⟩ := hs
  rw [ht, got_run, got_run]
  rw [← size_eq, ← results_eq, ← results_eq]
  exact ⟨hf.size, ⟨b, by simpa using hf.urandom.symm⟩, hf.random⟩

/-- C119: two uses of the same device get bytes from different places in what was read from it. -/
theorem C119_disjoint (sys : Sys) (us : List Use) (rs : List Bytes) (s : St) (h : run sys us = (some rs, s)) (secure : Bool)
    {i j : Nat} (hij : i < j) (hj : j < (results secure us rs).length) :
    ∃ a b, a + (results secure us rs)[i].length ≤ b ∧
      b + (results secure us rs)[j].length ≤ (got (if secure then .random else .urandom) s.trace).length ∧
      ((got (if secure then .random else .urandom) s.trace).drop a).take (results secure us rs)[i].length = (results secure us rs)[i] ∧
      ((got (if secure then .random else .urandom) s.trace).drop b).take (results secure us rs)[j].length = (results secure us rs)[j] := by
  obtain ⟨-, ⟨b, hu⟩, hr⟩ := C119_bytes sys us rs s h
  cases secure with
  | true => exact pieces_disjoint hr hij hj
  | false => exact pieces_disjoint (pieces_of_flatten hu.symm) hij hj

/-- C119: the process exits if and only if a device can't be opened or read, and then at once: this is the last call it makes. -/
theorem C119_exit (sys : Sys) (us : List Use) :
    ((run sys us).1 = none ↔ ∃ e ∈ (run sys us).2.trace, e.Fails) ∧
    ∀ l e r, (run sys us).2.trace = l ++ e :: r → e.Fails → r = [] := by
  have hs := run_spec sys us
  rcases h : run sys us with ⟨_ | rs, s⟩ <;> rw [h] at hs <;> simp only at hs ⊢
  · obtain ⟨k, x, ht, hx, hk⟩ := hs
    refine ⟨⟨fun _ => ⟨x, by simp [ht], hx⟩, fun _ => trivial⟩, ?_⟩
    intro l e r hl he
    rw [ht] at hl
    rcases List.eq_nil_or_concat r with rfl | ⟨r', y, rfl⟩
    · rfl
    · have : k ++ [x] = (l ++ e :: r') ++ [y] := by simpa using hl
      have := (List.append_inj' this rfl).1
      exact absurd he (hk e (by simp [this]))
  · obtain ⟨evs, b, ht, hf⟩ := hs
    have no : ∀ e ∈ s.trace, ¬ e.Fails := by
      intro e he
      rw [ht] at he
      simp only [List.mem_cons, List.mem_append, List.not_mem_nil, or_false] at he
      rcases he with rfl | he | rfl
      · simp [Ev.Fails]
      · exact hf.fails e he
      · simp [Ev.Fails]
    refine ⟨⟨fun h => by simp at h, fun ⟨e, he, hx⟩ => absurd hx (no e he)⟩, ?_⟩
    intro l e r hl he
    exact absurd he (no e (by simp [hl]))

/-- C119: every device that is opened is closed again; /dev/urandom is opened once, and /dev/random once for every generated key. -/
theorem C119_files (sys : Sys) (us : List Use) (rs : List Bytes) (s : St) (h : run sys us = (some rs, s)) :
    (∀ d, s.trace.count (.opened d) = s.trace.count (.closed d)) ∧
    s.trace.count (.opened .urandom) = 1 ∧
    s.trace.count (.opened .random) = us.count .generatedKey := by
  have hs := run_spec sys us
  rw [h] at hs
  obtain ⟨evs, b, ht, hf⟩ := hs
  have hr : ∀ (us : List Use) (rs : List Bytes), rs.map List.length = us.map Use.size →
      (results true us rs).length = us.count .generatedKey := by
    intro us
    induction us with
    | nil => intro rs h; simp [results]
    | cons u us ih =>
      intro rs h
      cases rs with
      | nil => simp at h
      | cons r rs =>
        have := ih rs (by simpa using (List.cons.inj h).2)
        by_cases hu : u = .generatedKey <;> simp [results, hu, this]
  have h1 := hf.files; have h2 := hf.urandomOnce; have h3 := hf.randomEach
  simp only [opens, closes] at h1 h2 h3
  rw [results_eq, hr _ _ hf.size] at h3
  rw [ht]
  simp only [List.count_cons, List.count_append, List.count_nil]
  refine ⟨fun d => ?_, ?_, ?_⟩
  · rw [h1 d]; cases d <;> simp
  · rw [h2]; decide
  · rw [h3]; simp

/-! ## Examples -/

/-- Bytes that count up; reads return at most 20 bytes. -/
def demo : Sys where
  canOpen _ _ := true
  read t d n := some ((List.range (min n 20)).map fun i => UInt8.ofNat ((got d t).length + i))

/-- The first bytes are the seed, the next ones the handshake keys; the second key needs two more reads. -/
example : (run demo [.seed, .handshakeKey, .generatedKey, .handshakeKey]).1 =
    some [[0, 1, 2, 3], (List.range 32).map fun i => UInt8.ofNat (4 + i), (List.range 32).map UInt8.ofNat,
      (List.range 32).map fun i => UInt8.ofNat (36 + i)] := by decide +kernel

/-- If the device ends after 40 bytes then there is no second key. -/
example : (run { demo with read := fun t d n => if (got d t).length ≥ 40 then some [] else demo.read t d n } [.seed, .handshakeKey, .handshakeKey]).1 =
    none := by decide +kernel

end Fastd.Random
