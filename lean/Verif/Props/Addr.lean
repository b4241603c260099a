import Verif.Daemon.Addr

/-!
# C16, C17: comparing and normalising peer addresses
-/

namespace Fastd.Daemon

/-! ### Specification

The endpoint an address stands for, written down without reference to the code: IP address in its
16 byte form (IPv4 addresses as ::ffff:a.b.c.d), port, and interface for link-local addresses. -/

structure Endpoint where
  ip : List UInt8
  port : UInt16
  iface : Option UInt32
deriving DecidableEq

def endpoint : Addr → Option Endpoint
  | .unspec _ => none
  | .v4 ip port => some ⟨[0, 0, 0, 0, 0, 0, 0, 0, 0, 0, 0xff, 0xff] ++ ip.toList, port, none⟩
  | .v6 ip port _ scope =>
    some ⟨ip.toList, port,
      if ip[0] = 0xfe ∧ ip[1] ≥ 0x80 ∧ ip[1] < 0xc0 then some scope else none⟩

/-! ### Lemmas -/

theorem toList_inj {n : Nat} {a b : Vector UInt8 n} : a.toList = b.toList ↔ a = b :=
  Vector.toList_inj

theorem byte_range : ∀ b : UInt8, (b &&& 0xc0) = 0x80 ↔ b ≥ 0x80 ∧ b < 0xc0 := by
  intro b
  have h : ∀ n : Fin 256, (UInt8.ofNat n &&& 0xc0) = 0x80 ↔ UInt8.ofNat n ≥ 0x80 ∧ UInt8.ofNat n < 0xc0 := by
    decide +kernel
  have := h ⟨b.toNat, b.toNat_lt⟩
  simpa using this

theorem linkLocal_iff (ip : Vector UInt8 16) :
    linkLocal ip = true ↔ ip[0] = 0xfe ∧ ip[1] ≥ 0x80 ∧ ip[1] < 0xc0 := by
  simp only [linkLocal, Bool.and_eq_true, decide_eq_true_eq, byte_range]

theorem vec4 (v : Vector UInt8 4) : v = #v[v[0], v[1], v[2], v[3]] := by
  obtain ⟨⟨l⟩, h⟩ := v
  simp only [List.size_toArray] at h
  match l, h with
  | [_, _, _, _], _ => rfl

theorem vec4l (v : Vector UInt8 4) : v.toList = [v[0], v[1], v[2], v[3]] := by
  obtain ⟨⟨l⟩, h⟩ := v
  simp only [List.size_toArray] at h
  match l, h with
  | [_, _, _, _], _ => rfl

theorem vec16 (v : Vector UInt8 16) :
    v.toList = [v[0], v[1], v[2], v[3], v[4], v[5], v[6], v[7], v[8], v[9], v[10], v[11], v[12],
      v[13], v[14], v[15]] := by
  obtain ⟨⟨l⟩, h⟩ := v
  simp only [List.size_toArray] at h
  match l, h with
  | [_, _, _, _, _, _, _, _, _, _, _, _, _, _, _, _], _ => rfl

theorem v4Mapped_toList (ip : Vector UInt8 16) (h : v4Mapped ip = true) :
    ip.toList = ([0, 0, 0, 0, 0, 0, 0, 0, 0, 0, 0xff, 0xff] : List UInt8) ++ [ip[12], ip[13], ip[14], ip[15]] := by
  simp only [v4Mapped] at h
  rw [vec16 ip] at h ⊢
  simp at h
  simp [h]

theorem v4Mapped_mapV4 (ip : Vector UInt8 4) : v4Mapped (mapV4 ip) = true := by
  simp only [v4Mapped, Bool.and_eq_true, decide_eq_true_eq]
  exact ⟨⟨rfl, rfl⟩, rfl⟩

theorem not_v4Mapped_of_toList (ip : Vector UInt8 16) (l : List UInt8)
    (h : ip.toList = [0, 0, 0, 0, 0, 0, 0, 0, 0, 0, 0xff, 0xff] ++ l) : v4Mapped ip = true := by
  have h' := h
  rw [vec16 ip] at h'
  simp at h'
  simp only [v4Mapped, h]
  simp [h']

theorem v4Mapped_not_ll (ip : Vector UInt8 16) (h : v4Mapped ip = true) : linkLocal ip = false := by
  have h' := v4Mapped_toList ip h
  rw [vec16 ip] at h'
  simp at h'
  simp [linkLocal, h'.1]

/-- Equality on addresses is equality of endpoints, for addresses of the same family. -/
theorem addrEq_iff (a b : Addr) :
    addrEq a b = true ↔
      (match a, b with
        | .unspec _, .unspec _ => True
        | .v4 .., .v4 .. => endpoint a = endpoint b
        | .v6 .., .v6 .. => endpoint a = endpoint b
        | _, _ => False) := by
  cases a with
  | unspec p => cases b <;> simp [addrEq]
  | v4 i p =>
    cases b with
    | unspec => simp [addrEq]
    | v6 => simp [addrEq]
    | v4 i' p' =>
      simp only [addrEq, endpoint, Option.some.injEq, Endpoint.mk.injEq, List.append_cancel_left_eq,
        toList_inj]
      split
      · simp_all
      · split <;> simp_all
  | v6 i p f s =>
    cases b with
    | unspec => simp [addrEq]
    | v4 => simp [addrEq]
    | v6 i' p' f' s' =>
      simp only [addrEq, endpoint, Option.some.injEq, Endpoint.mk.injEq, toList_inj,
        ← linkLocal_iff]
      by_cases h1 : i = i' <;> by_cases h2 : p = p' <;> by_cases h3 : linkLocal i = true <;>
        by_cases h4 : s = s' <;> simp_all

theorem addrEq_refl (a : Addr) : addrEq a a = true := by
  rw [addrEq_iff]; cases a <;> simp

theorem addrEq_symm {a b : Addr} (h : addrEq a b = true) : addrEq b a = true := by
  rw [addrEq_iff] at h ⊢
  cases a <;> cases b <;> simp_all

theorem addrEq_trans {a b c : Addr} (h : addrEq a b = true) (h' : addrEq b c = true) :
    addrEq a c = true := by
  rw [addrEq_iff] at h h' ⊢
  cases a <;> cases b <;> cases c <;> simp_all

theorem addrEq_comm (a b : Addr) : addrEq a b = addrEq b a := by
  rw [Bool.eq_iff_iff]; exact ⟨addrEq_symm, addrEq_symm⟩

theorem addrEq_isSet {a b : Addr} (h : addrEq a b = true) : a.isSet = b.isSet := by
  cases a <;> cases b <;> simp_all [addrEq, Addr.isSet]

theorem hashInput_congr {a b : Addr} (h : addrEq a b = true) : addrHashInput a = addrHashInput b := by
  cases a with
  | unspec p => cases b <;> simp_all [addrEq, addrHashInput]
  | v4 i p =>
    cases b with
    | unspec => simp [addrEq] at h
    | v6 => simp [addrEq] at h
    | v4 i' p' =>
      simp only [addrEq] at h
      by_cases h1 : i = i' <;> by_cases h2 : p = p' <;> simp_all [addrHashInput]
  | v6 i p f s =>
    cases b with
    | unspec => simp [addrEq] at h
    | v4 => simp [addrEq] at h
    | v6 i' p' f' s' =>
      simp only [addrEq] at h
      by_cases h1 : i = i' <;> by_cases h2 : p = p' <;> by_cases h3 : linkLocal i = true <;>
        by_cases h4 : s = s' <;> simp_all [addrHashInput]

/-! ### C16 -/

/-- Comparing addresses is an equivalence relation, and equal addresses fall into the same bucket
for every seed and table size. The hash function is defined for every address except `AF_UNSPEC`. -/
theorem C16_equivalence :
    (∀ a, addrEq a a = true) ∧
    (∀ a b, addrEq a b = true → addrEq b a = true) ∧
    (∀ a b c, addrEq a b = true → addrEq b c = true → addrEq a c = true) ∧
    (∀ a b seed size, addrEq a b = true → bucket seed size a = bucket seed size b) ∧
    (∀ a seed size, (bucket seed size a).isSome = a.isSet) ∧
    (∀ a seed size k, 0 < size → bucket seed size a = some k → k < size) := by
  refine ⟨addrEq_refl, fun _ _ => addrEq_symm, fun _ _ _ => addrEq_trans, ?_, ?_, ?_⟩
  · intro a b seed size h
    simp only [bucket, hashInput_congr h]
  · intro a seed size
    cases a <;> rfl
  · intro a seed size k hs h
    simp only [bucket, Option.map_eq_some_iff] at h
    obtain ⟨d, _, rfl⟩ := h
    exact Nat.mod_lt _ hs

/-- What comparison decides: same endpoint (IP, port, and interface for link-local addresses), for
addresses of the same family; the flow label never matters, the scope only for link-local ones. -/
theorem C16_exact :
    (∀ i p i' p', addrEq (.v4 i p) (.v4 i' p') = true ↔
      endpoint (.v4 i p) = endpoint (.v4 i' p')) ∧
    (∀ i p f s i' p' f' s', addrEq (.v6 i p f s) (.v6 i' p' f' s') = true ↔
      endpoint (.v6 i p f s) = endpoint (.v6 i' p' f' s')) ∧
    (∀ i p i' p' f s, addrEq (.v4 i p) (.v6 i' p' f s) = false) ∧
    (∀ a p, addrEq a (.unspec p) = !a.isSet) := by
  refine ⟨fun i p i' p' => addrEq_iff _ _, fun i p f s i' p' f' s' => addrEq_iff _ _, ?_, ?_⟩
  · intros; rfl
  · intro a p; cases a <;> rfl

/-- fe80::1 -/
def exLL : Vector UInt8 16 := #v[0xfe, 0x80, 0, 0, 0, 0, 0, 0, 0, 0, 0, 0, 0, 0, 0, 1]
/-- 2001:db8::1 -/
def exGlobal : Vector UInt8 16 := #v[0x20, 1, 0x0d, 0xb8, 0, 0, 0, 0, 0, 0, 0, 0, 0, 0, 0, 1]

example : addrEq (.v6 exLL 7 0 1) (.v6 exLL 7 0 2) = false := by decide
example : addrEq (.v6 exGlobal 7 5 1) (.v6 exGlobal 7 9 2) = true := by decide
example : addrEq (.v6 exGlobal 7 0 0) (.v6 exGlobal 8 0 0) = false := by decide
example : addrEq (.v4 #v[10, 0, 0, 1] 7) (.v4 #v[10, 0, 0, 1] 7) = true := by decide
example : bucket 12345 1024 (.v6 exLL 7 0 1) ≠ bucket 12345 1024 (.v6 exLL 7 0 2) := by decide +kernel

/-! ### C17 -/

/-- Simplifying is idempotent; an address and its widened form simplify to the same value; neither
changes the endpoint that is meant. -/
theorem C17_normalise (a : Addr) :
    simplify (simplify a) = simplify a ∧
    simplify (widen a) = simplify a ∧
    endpoint (simplify a) = endpoint a ∧
    endpoint (widen a) = endpoint a := by
  cases a with
  | unspec p => simp [simplify, widen]
  | v4 i p =>
    refine ⟨rfl, ?_, rfl, ?_⟩
    · simp only [widen, simplify, v4Mapped_mapV4, if_true, Addr.v4.injEq, and_true]
      exact (vec4 i).symm
    · have hl := v4Mapped_not_ll _ (v4Mapped_mapV4 i)
      have hl' : ¬ ((mapV4 i)[0] = 0xfe ∧ (mapV4 i)[1] ≥ 0x80 ∧ (mapV4 i)[1] < 0xc0) := by
        rw [← linkLocal_iff, hl]; simp
      simp only [widen, endpoint, if_neg hl', Option.some.injEq, Endpoint.mk.injEq, and_true]
      rw [vec16]
      rw [vec4l]; rfl
  | v6 i p f s =>
    by_cases h : v4Mapped i = true
    · have hs : simplify (.v6 i p f s) = .v4 #v[i[12], i[13], i[14], i[15]] p := by
        simp [simplify, h]
      have hl := v4Mapped_not_ll _ h
      have hl' : ¬ (i[0] = 0xfe ∧ i[1] ≥ 0x80 ∧ i[1] < 0xc0) := by
        rw [← linkLocal_iff, hl]; simp
      refine ⟨by rw [hs]; rfl, rfl, ?_, rfl⟩
      rw [hs]
      simp only [endpoint, if_neg hl', Option.some.injEq, Endpoint.mk.injEq, and_true]
      rw [v4Mapped_toList i h]; rfl
    · have hs : simplify (.v6 i p f s) = .v6 i p f s := by simp [simplify, h]
      refine ⟨by rw [hs, hs], rfl, by rw [hs], rfl⟩

/-- After simplifying, comparison decides exactly whether two addresses mean the same endpoint,
whatever form they arrived in: simplified addresses are a normal form. -/
theorem C17_canonical (a b : Addr) :
    addrEq (simplify a) (simplify b) = true ↔ endpoint a = endpoint b := by
  have hend : ∀ x, endpoint (simplify x) = endpoint x := fun x => (C17_normalise x).2.2.1
  rw [addrEq_iff, ← hend a, ← hend b]
  have key : ∀ (x : Addr) i p f s, simplify x = .v6 i p f s → v4Mapped i = false := by
    intro x i p f s h
    cases x with
    | unspec => simp [simplify] at h
    | v4 => simp [simplify] at h
    | v6 i' p' f' s' =>
      simp only [simplify] at h
      split at h
      · cases h
      · rename_i hm
        cases h
        simpa using hm
  rcases ha : simplify a with p | ⟨i, p⟩ | ⟨i, p, f, s⟩ <;>
    rcases hb : simplify b with p' | ⟨i', p'⟩ | ⟨i', p', f', s'⟩ <;>
    simp only [reduceCtorEq, endpoint]
  · simp only [Option.some.injEq, Endpoint.mk.injEq, false_iff, not_and]
    intro h
    have := key b _ _ _ _ hb
    rw [not_v4Mapped_of_toList i' _ h.symm] at this
    cases this
  · simp only [Option.some.injEq, Endpoint.mk.injEq, false_iff, not_and]
    intro h
    have := key a _ _ _ _ ha
    rw [not_v4Mapped_of_toList i _ h] at this
    cases this

example : simplify (.v6 (mapV4 #v[10, 1, 2, 3]) 80 0 4) = .v4 #v[10, 1, 2, 3] 80 := by decide
example : simplify (.v6 exGlobal 80 0 0) = .v6 exGlobal 80 0 0 := by decide
example : addrEq (.v6 (mapV4 #v[10, 1, 2, 3]) 80 0 0) (.v4 #v[10, 1, 2, 3] 80) = false := by decide

end Fastd.Daemon
