import Verif.Config.Keywords

/-!
# C55: every keyword is recognised
-/

namespace Fastd.Config

/-- Specification: the keyword tokens declared by the grammar (src/config.y:47-119). -/
def grammarTokens : List String := [
  "TOK_ADDRESSES", "TOK_ANY", "TOK_AS", "TOK_ASYNC", "TOK_AUTO", "TOK_BIND", "TOK_CAPABILITIES",
  "TOK_CIPHER", "TOK_CONNECT", "TOK_DEBUG", "TOK_DEBUG2", "TOK_DEFAULT", "TOK_DISESTABLISH",
  "TOK_DOWN", "TOK_DROP", "TOK_EARLY", "TOK_ERROR", "TOK_ESTABLISH", "TOK_FATAL", "TOK_FLOAT",
  "TOK_FORCE", "TOK_FORWARD", "TOK_FROM", "TOK_GROUP", "TOK_HANDSHAKES", "TOK_HIDE",
  "TOK_INCLUDE", "TOK_INFO", "TOK_INTERFACE", "TOK_IP", "TOK_IPV4", "TOK_IPV6", "TOK_KEY",
  "TOK_L2TP", "TOK_LEVEL", "TOK_LIMIT", "TOK_LOG", "TOK_MAC", "TOK_MARK", "TOK_METHOD",
  "TOK_MODE", "TOK_MTU", "TOK_MULTITAP", "TOK_NO", "TOK_OFFLOAD", "TOK_ON", "TOK_PACKET",
  "TOK_PEER", "TOK_PEERS", "TOK_PERSIST", "TOK_PMTU", "TOK_PORT", "TOK_POST_DOWN", "TOK_PRE_UP",
  "TOK_PROTOCOL", "TOK_REMOTE", "TOK_SECRET", "TOK_SECURE", "TOK_SOCKET", "TOK_STATUS",
  "TOK_STDERR", "TOK_SYNC", "TOK_SYSLOG", "TOK_TAP", "TOK_TO", "TOK_TUN", "TOK_UP", "TOK_USE",
  "TOK_USER", "TOK_VERBOSE", "TOK_VERIFY", "TOK_WARN", "TOK_YES"]

/-- Specification: the spelling of a keyword token: without the prefix `TOK_`, in lower case, with
`-` instead of `_`. -/
def spelling (t : String) : String :=
  String.ofList ((t.toList.drop 4).map fun c => if c = '_' then '-' else c.toLower)

theorem strcmp_eq (s t : Bytes) : strcmp s t = .eq ↔ s = t := by
  induction s generalizing t with
  | nil => cases t <;> simp [strcmp]
  | cons a s ih =>
    cases t with
    | nil => simp [strcmp]
    | cons b t =>
      simp only [strcmp, List.cons.injEq]
      split
      · rename_i h; simp only [reduceCtorEq, false_iff]; rintro ⟨rfl, _⟩; exact absurd h (UInt8.lt_irrefl _)
      · split
        · rename_i h; simp only [reduceCtorEq, false_iff]; rintro ⟨rfl, _⟩; exact absurd h (UInt8.lt_irrefl _)
        · rename_i h1 h2
          rw [ih]
          have : a = b := UInt8.le_antisymm (UInt8.not_lt.mp h2) (UInt8.not_lt.mp h1)
          simp [this]

theorem strcmp_gt (s t : Bytes) : strcmp s t = .gt ↔ strcmp t s = .lt := by
  induction s generalizing t with
  | nil => cases t <;> simp [strcmp]
  | cons a s ih =>
    cases t with
    | nil => simp [strcmp]
    | cons b t =>
      simp only [strcmp]
      by_cases h1 : a < b
      · have h2 : ¬ b < a := UInt8.not_lt.mpr (UInt8.le_of_lt h1)
        simp [h1, h2]
      · by_cases h2 : b < a
        · simp [h1, h2]
        · simp [h1, h2, ih]

theorem strcmp_trans (s t u : Bytes) (h1 : strcmp s t = .lt) (h2 : strcmp t u = .lt) :
    strcmp s u = .lt := by
  induction s generalizing t u with
  | nil =>
    cases u with
    | nil => cases t <;> simp [strcmp] at h2
    | cons c u => rfl
  | cons a s ih =>
    cases t with
    | nil => simp [strcmp] at h1
    | cons b t =>
      cases u with
      | nil => simp [strcmp] at h2
      | cons c u =>
        simp only [strcmp] at *
        by_cases hab : a < b
        · by_cases hbc : b < c
          · simp [UInt8.lt_trans hab hbc]
          · by_cases hcb : c < b
            · simp [hbc, hcb] at h2
            · have : b = c := UInt8.le_antisymm (UInt8.not_lt.mp hcb) (UInt8.not_lt.mp hbc)
              subst this; simp [hab]
        · by_cases hba : b < a
          · simp [hab, hba] at h1
          · have : a = b := UInt8.le_antisymm (UInt8.not_lt.mp hba) (UInt8.not_lt.mp hab)
            subst this
            simp only [hab, if_false] at h1
            by_cases hac : a < c
            · simp [hac]
            · by_cases hca : c < a
              · simp [hac, hca] at h2
              · simp only [hac, hca, if_false] at h2 ⊢
                exact ih t u h1 h2

/-- The table is sorted. -/
theorem keywords_sorted : keywords.Pairwise fun x y => strcmp x.1 y.1 = .lt := by
  have h : (keywords.zip keywords.tail).all (fun p => strcmp p.1.1 p.2.1 == .lt) = true := by
    decide +kernel
  have aux : ∀ l : List (Bytes × String),
      (l.zip l.tail).all (fun p => strcmp p.1.1 p.2.1 == .lt) = true →
      l.Pairwise fun x y => strcmp x.1 y.1 = .lt := by
    intro l
    induction l with
    | nil => intro _; exact List.Pairwise.nil
    | cons a l ih =>
      intro hl
      cases l with
      | nil => simp
      | cons b l =>
        simp only [List.tail_cons, List.zip_cons_cons, List.all_cons, Bool.and_eq_true, beq_iff_eq] at hl
        have hp := ih (by simpa using hl.2)
        refine List.Pairwise.cons ?_ hp
        intro c hc
        rcases List.mem_cons.mp hc with rfl | hc
        · exact hl.1
        · exact strcmp_trans _ _ _ hl.1 ((List.pairwise_cons.mp hp).1 c hc)
  exact aux _ h

theorem sortedFor_keywords (w : Bytes) : Data.SortedFor (fun k => strcmp w k.1) keywords := by
  intro i j hi hj hij
  have h := List.pairwise_iff_getElem.mp keywords_sorted i j hi hj hij
  constructor
  · intro h1; exact strcmp_trans _ _ _ h1 h
  · intro h1
    rw [strcmp_gt] at h1 ⊢
    exact strcmp_trans _ _ _ h h1

theorem keywords_unique (x y : Bytes × String) (hx : x ∈ keywords) (hy : y ∈ keywords) (h : x.1 = y.1) :
    x = y := by
  obtain ⟨i, hi, rfl⟩ := List.getElem_of_mem hx
  obtain ⟨j, hj, rfl⟩ := List.getElem_of_mem hy
  have hlt := List.pairwise_iff_getElem.mp keywords_sorted
  rcases Nat.lt_trichotomy i j with hij | rfl | hij
  · have := hlt i j hi hj hij
    rw [h, (strcmp_eq _ _).mpr rfl] at this; cases this
  · rfl
  · have := hlt j i hj hi hij
    rw [h, (strcmp_eq _ _).mpr rfl] at this; cases this

/-- The lookup finds exactly the entries of the table. -/
theorem findKeyword_iff (w : Bytes) (t : String) : findKeyword w = some t ↔ (w, t) ∈ keywords := by
  have hs := sortedFor_keywords w
  unfold findKeyword
  cases hb : Data.bsearch (fun k => strcmp w k.1) keywords with
  | none =>
    have := Data.bsearch_none hs hb
    simp only [Option.bind_eq_bind, Option.bind_none, reduceCtorEq, false_iff]
    intro hm
    exact this _ hm ((strcmp_eq _ _).mpr rfl)
  | some i =>
    obtain ⟨e, he, hc⟩ := Data.bsearch_some hs hb
    have hw : w = e.1 := (strcmp_eq _ _).mp hc
    have hm : e ∈ keywords := List.mem_of_getElem? he
    simp only [Option.bind_eq_bind, Option.bind_some, he, Option.pure_def, Option.some.injEq]
    constructor
    · rintro rfl; rw [hw]; exact hm
    · intro h
      have := keywords_unique _ _ hm h (by simp [hw])
      rw [this]

/-- C55. A word is recognised exactly if it is the spelling of a keyword of the grammar, and yields
this keyword's token. -/
theorem C55_keywords (w : Bytes) (t : String) :
    findKeyword w = some t ↔ t ∈ grammarTokens ∧ w = lit (spelling t) := by
  rw [findKeyword_iff]
  have h : keywords = grammarTokens.map fun t => (lit (spelling t), t) := by decide +kernel
  rw [h, List.mem_map]
  constructor
  · rintro ⟨t', h1, h2⟩
    simp only [Prod.mk.injEq] at h2
    obtain ⟨h2, rfl⟩ := h2
    exact ⟨h1, h2.symm⟩
  · rintro ⟨h1, rfl⟩
    exact ⟨t, h1, rfl⟩

example : findKeyword (lit "post-down") = some "TOK_POST_DOWN" ∧ findKeyword (lit "peer") = some "TOK_PEER" ∧
    findKeyword (lit "peers") = some "TOK_PEERS" ∧ findKeyword (lit "pee") = none ∧
    findKeyword (lit "zzz") = none ∧ findKeyword [] = none := by decide +kernel

end Fastd.Config
