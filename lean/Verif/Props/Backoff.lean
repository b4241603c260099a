import Verif.Daemon.Backoff
import Verif.Props.Addr

/-!
# C43: unknown senders can not trigger unlimited handshakes
-/

namespace Fastd.Daemon.Backoff

/-- A packet from an unknown address: time, address, random number. -/
structure Pkt where
  now : Time
  addr : Addr
  rnd : Nat

/-- Processing of a sequence of packets: outcomes and final tables. -/
def run (t : Tables) : List Pkt → List Outcome × Tables
  | [] => ([], t)
  | p :: ps =>
    let (o, t) := backoffUnknown t p.now p.addr p.rnd
    let (os, t) := run t ps
    (o :: os, t)

/-! ## Lemmas -/

theorem tableInterval_eq : tableInterval = 1000 := rfl

theorem slot_congr (seed : UInt32) (base : Int) (i : Nat) {a b : Addr} (h : addrEq a b = true) :
    slot seed base i a = slot seed base i b := by
  simp only [slot, hashInput_congr h]

theorem slot_shift (seed : UInt32) {base base' : Int} {i j : Nat} (a : Addr) (h : base - i = base' - j) :
    slot seed base i a = slot seed base' j a := by
  simp only [slot, h]

/-- The search succeeds if some slot holds the address. -/
theorem search_found (t : Tables) (now : Time) (base : Int) (addr : Addr) (hset : addr.isSet = true)
    (n i fe : Nat) (h : ∃ k, i ≤ k ∧ k < i + n ∧ ∃ a b, slot t.seed base k addr = some (a, b) ∧
      now < (t.tab a b).timeout ∧ addrEq addr (t.tab a b).address = true) :
    search t now base addr n i fe = .found := by
  induction n generalizing i fe with
  | zero => obtain ⟨k, h1, h2, -⟩ := h; omega
  | succ n ih =>
    rw [search]
    have hs : ∃ x, slot t.seed base i addr = some x := by
      cases addr with
      | unspec p => cases hset
      | v4 => exact ⟨_, rfl⟩
      | v6 => exact ⟨_, rfl⟩
    obtain ⟨⟨a, b⟩, hs⟩ := hs
    rw [hs]
    simp only []
    obtain ⟨k, h1, h2, h3⟩ := h
    by_cases hk : k = i
    · subst hk
      obtain ⟨a', b', h4, h5, h6⟩ := h3
      rw [hs] at h4
      simp only [Option.some.injEq, Prod.mk.injEq] at h4
      obtain ⟨rfl, rfl⟩ := h4
      rw [if_neg (by simp [h5]), if_neg (by simp [h6])]
    · split
      · exact ih _ _ ⟨k, by omega, by omega, h3⟩
      · split
        · exact ih _ _ ⟨k, by omega, by omega, h3⟩
        · rfl

theorem search_set (t : Tables) (now : Time) (base : Int) (addr : Addr) (n i fe r : Nat)
    (hf : fe ≠ UNKNOWN_TABLES) (h : search t now base addr n i fe = .firstEmpty r) : r = fe := by
  induction n generalizing i with
  | zero => rw [search] at h; injection h with h; exact h.symm
  | succ n ih =>
    rw [search] at h
    cases hs : slot t.seed base i addr with
    | none => rw [hs] at h; cases h
    | some x =>
      rw [hs] at h
      simp only [] at h
      split at h
      · exact ih _ h
      · split at h
        · exact ih _ h
        · cases h

/-- The slot of `addr` with index `k` is in use: it holds an unexpired record of another address. -/
def InUse (t : Tables) (now : Time) (addr : Addr) (k : Nat) : Prop :=
  ∃ a b, slot t.seed (now / tableInterval) k addr = some (a, b) ∧ now < (t.tab a b).timeout ∧
    addrEq addr (t.tab a b).address = false

/-- What an unsuccessful search tells about the slot chosen. -/
theorem search_firstEmpty (t : Tables) (now : Time) (addr : Addr) (n i r : Nat) (hn : i + n ≤ UNKNOWN_TABLES)
    (h : search t now (now / tableInterval) addr n i UNKNOWN_TABLES = .firstEmpty r) :
    (r = UNKNOWN_TABLES ∧ ∀ k, i ≤ k → k < i + n → InUse t now addr k) ∨
    (i ≤ r ∧ r < i + n ∧
      (∃ a b, slot t.seed (now / tableInterval) r addr = some (a, b) ∧ (t.tab a b).timeout ≤ now) ∧
      ∀ k, i ≤ k → k < r → InUse t now addr k) := by
  induction n generalizing i with
  | zero => rw [search] at h; injection h with h; exact .inl ⟨h.symm, fun k _ _ => by omega⟩
  | succ n ih =>
    rw [search] at h
    cases hs : slot t.seed (now / tableInterval) i addr with
    | none => rw [hs] at h; cases h
    | some x =>
      obtain ⟨a, b⟩ := x
      rw [hs] at h
      simp only [] at h
      by_cases ht : timedOut (t.tab a b).timeout now = true
      · rw [if_pos ht] at h
        rw [timedOut_iff] at ht
        simp only [if_true] at h
        have := search_set _ _ _ _ _ _ _ _ (by omega) h
        subst this
        exact .inr ⟨Nat.le_refl _, by omega, ⟨a, b, hs, ht⟩, fun k h1 h2 => by omega⟩
      · rw [if_neg ht] at h
        have ht : now < (t.tab a b).timeout := by simpa using ht
        cases ha : addrEq addr (t.tab a b).address with
        | true => rw [ha] at h; cases h
        | false =>
          rw [ha] at h
          simp only [Bool.not_false, if_true] at h
          have hi : InUse t now addr i := ⟨a, b, hs, ht, ha⟩
          rcases ih _ (by omega) h with ⟨h1, h2⟩ | ⟨h2, h3, h4, h5⟩
          · refine .inl ⟨h1, fun k hk1 hk2 => ?_⟩
            by_cases hk : k = i
            · subst hk; exact hi
            · exact h2 k (by omega) (by omega)
          · refine .inr ⟨by omega, by omega, h4, fun k hk1 hk2 => ?_⟩
            by_cases hk : k = i
            · subst hk; exact hi
            · exact h5 k (by omega) hk2

/-- The cases of `backoff_unknown` that send a handshake. -/
theorem backoff_send {t t' : Tables} {p : Pkt} {i : Nat} {d : Bool}
    (h : backoffUnknown t p.now p.addr p.rnd = (.send i d, t')) :
    t'.seed = t.seed ∧ i < UNKNOWN_TABLES ∧
    (∃ a b, slot t.seed (p.now / tableInterval) i p.addr = some (a, b) ∧
      (∀ a' b', t'.tab a' b' = if a' = a ∧ b' = b then ⟨p.addr, p.now + 15000 - i * 1000⟩ else t.tab a' b') ∧
      (d = false → (t.tab a b).timeout ≤ p.now)) ∧
    (d = true → ∀ k < UNKNOWN_TABLES, InUse t p.now p.addr k) ∧
    (d = false → ∀ k < i, InUse t p.now p.addr k) := by
  unfold backoffUnknown at h
  simp only [] at h
  cases hs : search t p.now (p.now / tableInterval) p.addr UNKNOWN_TABLES 0 UNKNOWN_TABLES with
  | found => rw [hs] at h; cases h
  | bug => rw [hs] at h; cases h
  | firstEmpty fe =>
    rw [hs] at h
    simp only [] at h
    cases hsl : slot t.seed (p.now / tableInterval) (if fe = UNKNOWN_TABLES then p.rnd % UNKNOWN_TABLES else fe) p.addr with
    | none => rw [hsl] at h; cases h
    | some x =>
      obtain ⟨a, b⟩ := x
      rw [hsl] at h
      simp only [Prod.mk.injEq, Outcome.send.injEq] at h
      obtain ⟨⟨h1, h2⟩, h3⟩ := h
      subst h3
      rw [h1] at hsl
      rcases search_firstEmpty t p.now p.addr _ _ _ (Nat.le_refl _) hs with ⟨h4, h5⟩ | ⟨h4, h5, h6, h7⟩
      · rw [if_pos h4] at h1
        simp only [h4, decide_true] at h2
        subst h2
        refine ⟨rfl, ?_, ⟨a, b, hsl, ?_, by simp⟩, fun _ k hk => h5 k (by omega) (by omega), by simp⟩
        · rw [← h1]; exact Nat.mod_lt _ (by decide)
        · intro a' b'
          simp only [h4, if_true, h1, MIN_HANDSHAKE_INTERVAL, tableInterval_eq]
      · have hne : fe ≠ UNKNOWN_TABLES := by omega
        rw [if_neg hne] at h1
        subst h1
        simp only [hne, decide_false] at h2
        subst h2
        refine ⟨rfl, by omega, ⟨a, b, hsl, ?_, fun _ => ?_⟩, by simp, fun _ k hk => h7 k (by omega) hk⟩
        · intro a' b'
          simp only [if_neg hne, MIN_HANDSHAKE_INTERVAL, tableInterval_eq]
        · obtain ⟨a', b', h8, h9⟩ := h6
          rw [hsl] at h8
          simp only [Option.some.injEq, Prod.mk.injEq] at h8
          rw [h8.1, h8.2]; exact h9

/-- The tables contain a record for `addr` valid until `T`. `s` is the time slice it was made for. -/
def Rec (t : Tables) (addr : Addr) (T : Time) (s : Int) : Prop :=
  T < 1000 * (s + 16) ∧ ∃ a b, slot t.seed s 0 addr = some (a, b) ∧ (t.tab a b).timeout = T ∧
    addrEq addr (t.tab a b).address = true

theorem rec_found {t : Tables} {addr : Addr} {T : Time} {s : Int} (h : Rec t addr T s) {p : Pkt}
    (hp : addrEq p.addr addr = true) (hs : s ≤ p.now / 1000) (hT : p.now < T) :
    backoffUnknown t p.now p.addr p.rnd = (.backoff, t) := by
  obtain ⟨hTs, a, b, h1, h2, h3⟩ := h
  unfold backoffUnknown
  simp only []
  have hset : p.addr.isSet = true := by
    rw [addrEq_isSet hp]
    cases addr with
    | unspec => simp [slot, addrHashInput] at h1
    | v4 => rfl
    | v6 => rfl
  have hk : ∃ k : Nat, p.now / 1000 - k = s ∧ k < 16 := by
    refine ⟨(p.now / 1000 - s).toNat, by omega, by omega⟩
  obtain ⟨k, hk, hk16⟩ := hk
  have h1' : slot t.seed (p.now / tableInterval) k p.addr = some (a, b) := by
    rw [← h1, slot_congr _ _ _ hp]
    refine slot_shift _ _ ?_
    rw [tableInterval_eq]
    omega
  rw [search_found t p.now _ p.addr hset UNKNOWN_TABLES 0 UNKNOWN_TABLES
    ⟨k, by omega, by simpa [UNKNOWN_TABLES] using hk16, a, b, h1', by omega, addrEq_trans hp h3⟩]

theorem rec_keep {t t' : Tables} {addr : Addr} {T : Time} {s : Int} (h : Rec t addr T s) {p : Pkt} {o : Outcome}
    (hT : p.now < T) (hb : backoffUnknown t p.now p.addr p.rnd = (o, t')) (hd : ∀ i, o ≠ .send i true) :
    Rec t' addr T s := by
  cases o with
  | send i d =>
    cases d with
    | true => exact absurd rfl (hd i)
    | false =>
      obtain ⟨h1, h2, ⟨a', b', h3, h4, h5⟩, -, -⟩ := backoff_send hb
      obtain ⟨hTs, a, b, h6, h7, h8⟩ := h
      have hne : ¬ (a = a' ∧ b = b') := by
        rintro ⟨rfl, rfl⟩
        have := h5 rfl
        omega
      refine ⟨hTs, a, b, by rw [h1]; exact h6, ?_, ?_⟩
      · rw [h4, if_neg hne]; exact h7
      · rw [h4, if_neg hne]; exact h8
  | backoff =>
    have : t' = t := by
      unfold backoffUnknown at hb
      simp only [] at hb
      split at hb
      · simp only [Prod.mk.injEq] at hb; exact hb.2.symm
      · simp at hb
      · split at hb <;> simp at hb
    rw [this]; exact h
  | bug =>
    have : t' = t := by
      unfold backoffUnknown at hb
      simp only [] at hb
      split at hb
      · simp at hb
      · simp only [Prod.mk.injEq] at hb; exact hb.2.symm
      · split at hb
        · simp only [Prod.mk.injEq] at hb; exact hb.2.symm
        · simp at hb
    rw [this]; exact h

/-! ## The property -/

/-- The times of the packets do not decrease and are not before `t0`. -/
def Ordered : Time → List Pkt → Prop
  | _, [] => True
  | t0, p :: ps => t0 ≤ p.now ∧ Ordered p.now ps

/-- No packet of the sequence displaced a record. -/
def NoneDisplaced (os : List Outcome) : Prop := ∀ o ∈ os, ∀ i, o ≠ .send i true

theorem run_keep {t : Tables} {addr : Addr} {T t0 : Time} {s : Int} (ps : List Pkt) (h : Rec t addr T s)
    (ho : Ordered t0 ps) (hT : ∀ p ∈ ps, p.now < T) (hd : NoneDisplaced (run t ps).1) :
    Rec (run t ps).2 addr T s := by
  induction ps generalizing t t0 with
  | nil => exact h
  | cons p ps ih =>
    simp only [run] at hd ⊢
    generalize hb : backoffUnknown t p.now p.addr p.rnd = x at *
    obtain ⟨o, t'⟩ := x
    simp only [] at hd ⊢
    refine ih (rec_keep h (hT p (by simp)) hb (hd o (by simp))) ho.2 (fun q hq => hT q (by simp [hq])) ?_
    intro o' ho'
    exact hd o' (by simp [ho'])

theorem ordered_le {t0 : Time} {ps : List Pkt} {q : Pkt} (h : Ordered t0 (ps ++ [q])) :
    t0 ≤ q.now ∧ ∀ p ∈ ps, p.now ≤ q.now := by
  induction ps generalizing t0 with
  | nil => exact ⟨h.1, by simp⟩
  | cons p ps ih =>
    obtain ⟨h1, h2⟩ := ih h.2
    refine ⟨Int.le_trans h.1 h1, ?_⟩
    intro p' hp'
    simp only [List.mem_cons] at hp'
    rcases hp' with rfl | hp'
    · exact h1
    · exact h2 p' hp'

theorem ordered_append {t0 : Time} {ps qs : List Pkt} (h : Ordered t0 (ps ++ qs)) : Ordered t0 ps := by
  induction ps generalizing t0 with
  | nil => trivial
  | cons p ps ih => exact ⟨h.1, ih h.2⟩

/-- C43: when packet `p` from an address triggered a handshake, having been recorded in its slot `i`, and
then any packets `ps` from any addresses are received none of which displaces a record, no packet `q` from
the same address triggers a handshake before 15 - i seconds have passed since `p`. The tables `t` are
arbitrary. -/
theorem C43_backoff (t t' : Tables) (p : Pkt) (i : Nat) (d : Bool) (ps : List Pkt) (q : Pkt)
    (hp : backoffUnknown t p.now p.addr p.rnd = (.send i d, t'))
    (ho : Ordered p.now (ps ++ [q]))
    (hd : NoneDisplaced (run t' ps).1)
    (hq : addrEq q.addr p.addr = true)
    (ht : q.now < p.now + 15000 - 1000 * i) :
    backoffUnknown (run t' ps).2 q.now q.addr q.rnd = (.backoff, (run t' ps).2) := by
  obtain ⟨h1, h2, ⟨a, b, h3, h4, -⟩, -, -⟩ := backoff_send hp
  obtain ⟨ho1, ho2⟩ := ordered_le ho
  have hi16 : i < 16 := h2
  have hr : Rec t' p.addr (p.now + 15000 - i * 1000) (p.now / 1000 - i) := by
    refine ⟨by omega, a, b, ?_, ?_, ?_⟩
    · rw [← h3, h1]
      refine slot_shift _ _ ?_
      rw [tableInterval_eq]; simp
    · rw [h4, if_pos ⟨rfl, rfl⟩]
    · rw [h4, if_pos ⟨rfl, rfl⟩]; exact addrEq_refl _
  refine rec_found (run_keep ps hr (ordered_append ho) (fun p' hp' => ?_) hd) hq (by omega) (by omega)
  have := ho2 p' hp'
  omega

/-- C43: a record is displaced only when all 16 slots of the new address are in use by unexpired records of
other addresses; the index of the slot recorded otherwise is the number of slots in use before it, so
that the interval is the full 15 seconds unless the first slot is in use. -/
theorem C43_displaced (t t' : Tables) (p : Pkt) (i : Nat) (d : Bool)
    (hp : backoffUnknown t p.now p.addr p.rnd = (.send i d, t')) :
    (d = true → ∀ k < 16, InUse t p.now p.addr k) ∧ (d = false → i < 16 ∧ ∀ k < i, InUse t p.now p.addr k) := by
  obtain ⟨-, h2, -, h4, h5⟩ := backoff_send hp
  exact ⟨h4, fun hd => ⟨h2, h5 hd⟩⟩

/-- C43: whenever two packets from an address trigger handshakes and no record is displaced in between, the
second is at least the recorded interval later. -/
theorem C43_spacing (t t' : Tables) (p : Pkt) (i : Nat) (d : Bool) (ps : List Pkt) (q : Pkt) (j : Nat)
    (d' : Bool) (t'' : Tables)
    (hp : backoffUnknown t p.now p.addr p.rnd = (.send i d, t'))
    (ho : Ordered p.now (ps ++ [q]))
    (hd : NoneDisplaced (run t' ps).1)
    (hq : addrEq q.addr p.addr = true)
    (hs : backoffUnknown (run t' ps).2 q.now q.addr q.rnd = (.send j d', t'')) :
    p.now + 15000 - 1000 * i ≤ q.now := by
  by_cases h : q.now < p.now + 15000 - 1000 * i
  · rw [C43_backoff t t' p i d ps q hp ho hd hq h] at hs
    simp at hs
  · omega

/-- C43: for addresses received from a socket the hash function's abort is not reached. -/
theorem C43_no_bug (t : Tables) (p : Pkt) (h : p.addr.isSet = true) :
    (backoffUnknown t p.now p.addr p.rnd).1 ≠ .bug := by
  have hs : ∀ base i, ∃ x, slot t.seed base i p.addr = some x := by
    intro base i
    cases ha : p.addr with
    | unspec => rw [ha] at h; cases h
    | v4 => exact ⟨_, rfl⟩
    | v6 => exact ⟨_, rfl⟩
  have hb : ∀ base n i fe, search t p.now base p.addr n i fe ≠ .bug := by
    intro base n
    induction n with
    | zero => intro i fe; simp [search]
    | succ n ih =>
      intro i fe
      rw [search]
      obtain ⟨x, hx⟩ := hs base i
      rw [hx]
      simp only []
      split
      · exact ih _ _
      · split
        · exact ih _ _
        · simp
  unfold backoffUnknown
  simp only []
  split
  · simp
  · rename_i h; exact absurd h (hb _ _ _ _)
  · rename_i fe _
    obtain ⟨x, hx⟩ := hs (p.now / tableInterval) (if fe = UNKNOWN_TABLES then p.rnd % UNKNOWN_TABLES else fe)
    rw [hx]
    simp

/-! ## Examples -/

private def a1 : Addr := .v4 #v[192, 0, 2, 1] 10000
private def a2 : Addr := .v4 #v[192, 0, 2, 2] 10000

example : (run (init 5000 99) [⟨5000, a1, 0⟩, ⟨5001, a1, 0⟩, ⟨6000, a2, 0⟩, ⟨19999, a1, 0⟩, ⟨20000, a1, 0⟩]).1 =
    [.send 0 false, .backoff, .send 0 false, .backoff, .send 0 false] := by decide +kernel

end Fastd.Daemon.Backoff
