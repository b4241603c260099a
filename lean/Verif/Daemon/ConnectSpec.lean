import Verif.Daemon.ConnectPkt
import Verif.Daemon.KeysSpec

/-!
# A handshake between compatible peers: what each end does with the packets of the other

Helper lemmas for C83.
-/

namespace Fastd.Daemon

set_option linter.unusedSectionVars false

open Handshake (pktOf parsedOf encAll Fits lastRec baseRecords controlHeader)

variable [Env] {α β : Type}

/-! ### Computations that succeed -/

/-- The computation succeeds and the result satisfies `Q`. -/
def must (m : M α) (Q : α → Ctx → Prop) (c : Ctx) : Prop := ∃ a c', m c = .ok (a, c') ∧ Q a c'

/-- The computation does not end the process. -/
def NoExit (m : M α) (c : Ctx) : Prop := ∀ e, m c = .error e → e ≠ .config ∧ e ≠ .exit

theorem noExit_of_ks {m : M α} (hk : Ks true m) (c : Ctx) : NoExit m c := by
  intro e h
  have h1 := hk c
  rw [h] at h1
  exact ⟨h1.1, h1.2 rfl⟩

theorem noExit_bind {m : M α} {f : α → M β} {c : Ctx} (h : NoExit m c) (h' : ∀ a c', m c = .ok (a, c') → NoExit (f a) c') :
    NoExit (m >>= f) c := by
  unfold NoExit at *
  rw [bind_def]
  cases hm : m c with
  | ok v => obtain ⟨a, c'⟩ := v; exact h' a c' hm
  | error e => rw [hm] at h; exact fun _ h2 => by cases h2; exact h _ rfl

theorem must_of_wp_at {m : M α} {Q : α → Ctx → Prop} {c : Ctx} (hk : NoExit m c) (h : wp True m Q c) : must m Q c := by
  unfold wp at h
  cases hm : m c with
  | ok v => obtain ⟨a, c'⟩ := v; rw [hm] at h; exact ⟨a, c', hm, h⟩
  | error e =>
    rw [hm] at h
    cases e with
    | exit => exact absurd rfl (hk _ hm).2
    | config => exact absurd rfl (hk _ hm).1
    | bug => exact absurd trivial h
    | mem => exact absurd trivial h
    | fuel => exact h.elim

theorem must_of_wp {m : M α} {Q : α → Ctx → Prop} {c : Ctx} (hk : Ks true m) (h : wp True m Q c) : must m Q c :=
  must_of_wp_at (noExit_of_ks hk c) h

theorem must_bind {m : M α} {f : α → M β} {Q : β → Ctx → Prop} {c : Ctx} (h : must m (fun a c' => must (f a) Q c') c) :
    must (m >>= f) Q c := by
  obtain ⟨a, c1, h1, b, c2, h2, h3⟩ := h
  exact ⟨b, c2, by rw [bind_def, h1]; exact h2, h3⟩

theorem must_pure {a : α} {Q : α → Ctx → Prop} {c : Ctx} (h : Q a c) : must (pure a) Q c := ⟨a, c, rfl, h⟩

theorem must_mono {m : M α} {Q R : α → Ctx → Prop} {c : Ctx} (h : must m Q c) (hqr : ∀ a c', Q a c' → R a c') :
    must m R c := by
  obtain ⟨a, c', h1, h2⟩ := h
  exact ⟨a, c', h1, hqr a c' h2⟩

theorem must_ok {m : M α} {Q : α → Ctx → Prop} {c c' : Ctx} {a : α} (h : m c = .ok (a, c')) (hq : Q a c') : must m Q c :=
  ⟨a, c', h, hq⟩

theorem must_get {Q : Ctx → Ctx → Prop} {c : Ctx} (h : Q c c) : must get Q c := ⟨c, c, rfl, h⟩

theorem must_getP {c : Ctx} (hs : Sorted c.peers) {p : Peer} (hp : p ∈ c.peers) {i : Nat} (hi : p.id = i)
    {Q : Peer → Ctx → Prop} (h : Q p c) : must (getP i) Q c :=
  must_of_wp Ks.getP ((wp_getP' hs hp hi).2 h)

theorem must_field {type : UInt8} {rs : List (Nat × Bytes)} (h : Fits rs) {t n : Nat} (ht : t < 16) (hn : n ≠ 0)
    {c : Ctx} {d : Bytes} (hd : lastRec rs t = some d) (hl : d.length = n) {Q : Option Bytes → Ctx → Prop}
    (hQ : Q (some d) c) : must (field (rcvOf type rs) t n) Q c := by
  refine must_ok (rcvOf_field h ht hn c) ?_
  rw [hd, Option.filter_some, if_pos (by simpa using hl)]
  exact hQ

theorem must_record {type : UInt8} {rs : List (Nat × Bytes)} (h : Fits rs) {t : Nat} (ht : t < 16) {c : Ctx}
    {Q : Option Bytes → Ctx → Prop} (hQ : Q (lastRec rs t) c) : must (record (rcvOf type rs) t) Q c :=
  must_ok (rcvOf_record h ht c) hQ

/-! ### Handshake keys of reachable states -/

/-- The zeroed key is never preferred; other keys can be used for 15 s after they are no longer preferred. -/
def KeysOk (ks : Protocol.HKeys Nat) (now : Time) : Prop :=
  (ks.cur.serial = 0 → ks.cur.preferredTill ≤ now) ∧
    (ks.cur.serial ≠ 0 → ks.cur.validTill = ks.cur.preferredTill + 15000)

theorem KeysOk.maintenance {ks : Protocol.HKeys Nat} {now : Time} (h : KeysOk ks now) (fresh : Nat) :
    KeysOk (ks.maintenance now fresh) now ∧ (ks.maintenance now fresh).cur.serial ≠ 0 ∧
      now < (ks.maintenance now fresh).cur.preferredTill := by
  unfold Protocol.HKeys.maintenance Protocol.HKey.preferred timedOut
  by_cases hp : ks.cur.preferredTill ≤ now
  · rw [if_pos (by simpa using hp)]
    refine ⟨⟨fun h0 => by simp at h0, fun _ => by show now + 30000 = now + 15000 + 15000; omega⟩, by simp, ?_⟩
    show now < now + 15000
    omega
  · rw [if_neg (by simpa using hp)]
    exact ⟨h, fun h0 => hp (h.1 h0), by omega⟩

theorem KeysOk.steps {k k' : Protocol.HKeys Nat} {now : Time} (hs : KSteps now k k') (h : KeysOk k now) : KeysOk k' now := by
  induction hs with
  | refl => exact h
  | step f _ ih => exact (ih.maintenance f).1

theorem ks_ok {b : Bool} {m : M α} (h : Ks b m) {c c' : Ctx} {a : α} (hm : m c = .ok (a, c')) : KRel c c' := by
  have := h c
  rw [hm] at this
  exact this

theorem Event.krel {e : Event} {c c' : Ctx} (he : handle e c = .ok ((), c')) :
    (∃ d : Nat, c' = { c with now := c.now + d }) ∨ KRel c c' := by
  by_cases hd : ∃ d, e = .tick d
  · obtain ⟨d, rfl⟩ := hd
    cases he
    exact .inl ⟨d, rfl⟩
  · exact .inr (ks_ok (ks_handle e fun d h => hd ⟨d, h⟩) he)

theorem Reach.keysOk {P : Event → Ctx → Prop} {c : Ctx} (h : Reach P c) : KeysOk c.keys c.now := by
  induction h with
  | start _ _ he =>
    obtain ⟨h1, h2⟩ := krel_startup he
    rw [h1]
    exact KeysOk.steps h2 ⟨fun _ => Int.le_refl _, fun h0 => absurd rfl h0⟩
  | step _ _ _ he ih =>
    rcases Event.krel he with ⟨d, rfl⟩ | ⟨h1, h2⟩
    · exact ⟨fun h0 => Int.le_trans (ih.1 h0) (Int.le_add_of_nonneg_right (Int.natCast_nonneg d)), ih.2⟩
    · rw [h1]; exact KeysOk.steps h2 ih

/-- The key `K` was the current one at `t` and is not replaced twice before `t + 15 s`. -/
def KeyIn (K : Protocol.HKey Nat) (t : Time) (ks : Protocol.HKeys Nat) : Prop :=
  ks.cur = K ∨ (ks.prev = K ∧ t + 15000 < ks.cur.preferredTill)

theorem KeyIn.maintenance {K : Protocol.HKey Nat} {t now : Time} {ks : Protocol.HKeys Nat} (h : KeyIn K t ks)
    (hp : t < K.preferredTill) (hn : now < t + 15000) (fresh : Nat) : KeyIn K t (ks.maintenance now fresh) := by
  unfold Protocol.HKeys.maintenance Protocol.HKey.preferred timedOut
  by_cases hc : ks.cur.preferredTill ≤ now
  · rw [if_pos (by simpa using hc)]
    rcases h with h | ⟨_, h⟩
    · refine .inr ⟨h, ?_⟩
      rw [h] at hc
      show t + 15000 < now + 15000
      omega
    · omega
  · rw [if_neg (by simpa using hc)]
    exact h

theorem KeyIn.ksteps {K : Protocol.HKey Nat} {t now : Time} {k k' : Protocol.HKeys Nat} (hs : KSteps now k k')
    (h : KeyIn K t k) (hp : t < K.preferredTill) (hn : now < t + 15000) : KeyIn K t k' := by
  induction hs with
  | refl => exact h
  | step f _ ih => exact ih.maintenance hp hn f

theorem Steps.now_le {P : Event → Ctx → Prop} {c c' : Ctx} (h : Steps P c c') : c.now ≤ c'.now := by
  induction h with
  | refl => exact Int.le_refl _
  | step _ _ _ he ih =>
    rcases Event.krel he with ⟨d, rfl⟩ | ⟨h1, _⟩
    · show _ ≤ _ + (d : Int)
      omega
    · rw [h1]; exact ih

theorem Steps.keyIn {P : Event → Ctx → Prop} {K : Protocol.HKey Nat} {t : Time} {c c' : Ctx} (hs : Steps P c c')
    (h : KeyIn K t c.keys) (hp : t < K.preferredTill) (hn : c'.now < t + 15000) : KeyIn K t c'.keys := by
  induction hs with
  | refl => exact h
  | step _ _ _ he ih =>
    rcases Event.krel he with ⟨d, rfl⟩ | ⟨h1, h2⟩
    · exact ih (by have : _ + (d : Int) < t + 15000 := hn; omega)
    · rw [h1] at hn
      exact KeyIn.ksteps h2 (ih hn) hp hn

/-- The key is found by its public key; if another one has the same public key that one is at least as recent. -/
theorem KeyIn.find {K : Protocol.HKey Nat} {t now : Time} {ks : Protocol.HKeys Nat} (h : KeyIn K t ks)
    (hv : now < K.validTill) (hser : ks.prev.serial ≤ ks.cur.serial) {f : Nat → Bool} (hf : f K.key = true) :
    ∃ hk, ks.find now f = some hk ∧ K.serial ≤ hk.serial ∧ f hk.key = true ∧ (hk = ks.cur ∨ hk = ks.prev) := by
  have hK : K.valid now = true := by unfold Protocol.HKey.valid timedOut; simpa using hv
  unfold Protocol.HKeys.find
  by_cases hc : (ks.cur.valid now && f ks.cur.key) = true
  · rw [if_pos hc]
    rw [Bool.and_eq_true] at hc
    refine ⟨ks.cur, rfl, ?_, hc.2, .inl rfl⟩
    rcases h with h | ⟨h, _⟩
    · rw [h]
    · rw [← h]; exact hser
  · rw [if_neg hc]
    rcases h with h | ⟨h, _⟩
    · rw [h, hK, hf] at hc; exact absurd rfl hc
    · rw [h, hK, hf]
      exact ⟨K, rfl, Nat.le_refl _, hf, .inr rfl⟩

/-! ### Finding the sender -/

theorem findKeyAddr_rest {key : Key} {a : Addr} {i : Nat} : ∀ {ps : List Peer}, (∀ q ∈ ps, q.key ≠ key) →
    (∀ q ∈ ps, q.isEnabled = true → ownsAddress q a = false) → findKeyAddr key a ps (some i) = .peer i
  | [], _, _ => rfl
  | q :: ps, hk, ho => by
    unfold findKeyAddr
    have ih := findKeyAddr_rest (i := i) (fun q hq => hk q (List.mem_cons_of_mem _ hq))
      fun q hq => ho q (List.mem_cons_of_mem _ hq)
    cases he : q.isEnabled with
    | false => simpa using ih
    | true =>
      rw [if_neg (by simp), if_neg (hk q List.mem_cons_self), ho q List.mem_cons_self he]
      simpa using ih

theorem findKeyAddr_found {key : Key} {a : Addr} {p : Peer} : ∀ {ps : List Peer}, (ps.map (·.key)).Nodup → p ∈ ps →
    p.key = key → p.isEnabled = true → matchesAddress p a = true →
    (∀ q ∈ ps, q ≠ p → q.isEnabled = true → ownsAddress q a = false) → findKeyAddr key a ps none = .peer p.id
  | [], _, hp, _, _, _, _ => by cases hp
  | q :: ps, hn, hp, hk, he, hm, ho => by
    unfold findKeyAddr
    rw [List.map_cons, List.nodup_cons] at hn
    rcases List.mem_cons.1 hp with rfl | hp'
    · rw [he, if_neg (by simp), if_pos hk, hm, if_neg (by simp)]
      have hne : ∀ q ∈ ps, q.key ≠ key := fun q hq h => hn.1 (by
        rw [hk, ← h]; exact List.mem_map_of_mem (f := (·.key)) hq)
      exact findKeyAddr_rest hne fun q hq => ho q (List.mem_cons_of_mem _ hq) fun h => hne q hq (by rw [h, hk])
    · have hqp : q ≠ p := fun h => hn.1 (by rw [h]; exact List.mem_map_of_mem (f := (·.key)) hp')
      have hqk : q.key ≠ key := fun h => hn.1 (by
        rw [h, ← hk]; exact List.mem_map_of_mem (f := (·.key)) hp')
      have ih := findKeyAddr_found hn.2 hp' hk he hm fun r hr => ho r (List.mem_cons_of_mem _ hr)
      cases hqe : q.isEnabled with
      | false => simpa using ih
      | true =>
        rw [if_neg (by simp), if_neg hqk, ho q List.mem_cons_self hqp hqe]
        simpa using ih

theorem claimScan_free_of {i : Nat} {a : Addr} {ps : List Peer}
    (h : ∀ q ∈ ps, q.id ≠ i → q.isEnabled = true → addrEq q.addr a = false ∧ ownsAddress q a = false) :
    claimScan i a ps = .free := by
  induction ps with
  | nil => rfl
  | cons q ps ih =>
    have ih' := ih fun r hr => h r (List.mem_cons_of_mem _ hr)
    unfold claimScan
    by_cases hq : q.id = i
    · rw [if_pos hq]; exact ih'
    · rw [if_neg hq]
      cases he : q.isEnabled with
      | false => simpa using ih'
      | true =>
        obtain ⟨h1, h2⟩ := h q List.mem_cons_self hq he
        rw [h1, h2]
        simpa using ih'

end Fastd.Daemon
