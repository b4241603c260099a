import Verif.Method.WindowLemmas

/-!
# Properties C01 - C06 and C61: data packet counters and sessions
-/

namespace Fastd.Method

open Spec

/-! ## Reading off observations (specification side) -/

/-- Nonces whose payload was delivered, in order of delivery. -/
def delivered (os : List Obs) : List Nonce :=
  os.filterMap fun o => match o with
    | .received _ n .inOrder => some n
    | .received _ n .reordered => some n
    | _ => none

/-- Nonces used for sending, in order. -/
def sentNonces (os : List Obs) : List Nonce :=
  os.filterMap fun o => match o with
    | .sent _ n => some n
    | _ => none

/-- Parity of the packet numbers used by the *other* side. -/
def otherParity (initiator : Bool) : Nat := if initiator then 0 else 1

/-! ## Helper lemmas -/

theorem init_receive_val (ini c : Bool) (t0 sp : Time) :
    (Common.init ini c t0 sp).receiveNonce.val = otherParity ini := by
  cases ini <;> rfl

theorem init_win (ini c : Bool) (t0 sp : Time) :
    Win (Common.init ini c t0 sp) [otherParity ini] := by
  constructor
  · intro m hm; rw [init_receive_val]; simp_all
  · intro m hm; rw [init_receive_val]; simp_all
  · rw [init_receive_val]; simp
  · intro k hk
    rw [init_receive_val]
    simp [Common.init]

theorem isValid_iff (s : Common) (now : Time) :
    s.isValid now = true ↔ s.sendNonce.val < 2 ^ 48 - 2 ^ 32 ∧ now < s.validTill := by
  have h2 := first_two s.sendNonce
  unfold Common.isValid
  by_cases h : s.sendNonce[0] = 0xff ∧ s.sendNonce[1] = 0xff
  · rw [if_pos h]
    have := h2.1 h
    simp only [Bool.false_eq_true, false_iff]
    omega
  · rw [if_neg h]
    have : ¬ 0xffff * 2 ^ 32 ≤ s.sendNonce.val := fun x => h (h2.2 x)
    simp only [Bool.not_eq_true', timedOut_false_iff]
    omega

/-- One received packet of the right parity: exact outcome. -/
theorem receive_cases (s : Common) (seen : List Nat) (now : Time) (n : Nonce) (hw : Win s seen)
    (hp : n.val % 2 = s.receiveNonce.val % 2) :
    ((s.isValid now = false ∨ ¬ topMatch s n) ∧ receive s now n = (.rejected, s)) ∨
    (s.isValid now = true ∧ topMatch s n ∧ s.receiveNonce.val < n.val ∧
      ∃ s', receive s now n = (.inOrder, s') ∧ Win s' (n.val :: seen) ∧ s'.receiveNonce = n ∧
        s'.reorderTimeout = now + REORDER_TIME ∧ s'.sendNonce = s.sendNonce ∧
        s'.validTill = s.validTill) ∨
    (s.isValid now = true ∧ topMatch s n ∧ n.val ≤ s.receiveNonce.val ∧
      (s.reorderTimeout ≤ now ∨ n.val + 2 * 64 < s.receiveNonce.val) ∧
      receive s now n = (.rejected, s)) ∨
    (s.isValid now = true ∧ topMatch s n ∧ n.val ≤ s.receiveNonce.val ∧
      ¬ (s.reorderTimeout ≤ now ∨ n.val + 2 * 64 < s.receiveNonce.val) ∧ n.val ∈ seen ∧
      receive s now n = (.duplicate, s)) ∨
    (s.isValid now = true ∧ topMatch s n ∧ n.val ≤ s.receiveNonce.val ∧
      ¬ (s.reorderTimeout ≤ now ∨ n.val + 2 * 64 < s.receiveNonce.val) ∧ n.val ∉ seen ∧
      ∃ s', receive s now n = (.reordered, s') ∧ Win s' (n.val :: seen) ∧
        s'.receiveNonce = s.receiveNonce ∧ s'.reorderTimeout = s.reorderTimeout ∧
        s'.sendNonce = s.sendNonce ∧ s'.validTill = s.validTill) := by
  unfold receive
  by_cases hv : s.isValid now = true
  · rw [if_pos hv]
    by_cases ht : topMatch s n
    · rw [isNonceValid_eq s now n hp ht]
      right
      by_cases h1 : s.receiveNonce.val < n.val
      · left
        rw [if_pos h1]
        obtain ⟨s', e, rest⟩ := win_inOrder (now := now) hw hp h1
        exact ⟨hv, ht, h1, s', by simp only [e], rest⟩
      · right
        rw [if_neg h1]
        by_cases h2 : s.reorderTimeout ≤ now ∨ n.val + 2 * 64 < s.receiveNonce.val
        · left
          rw [if_pos h2]
          exact ⟨hv, ht, by omega, h2, rfl⟩
        · right
          rw [if_neg h2]
          by_cases h3 : n.val ∈ seen
          · left
            exact ⟨hv, ht, by omega, h2, h3, by
              simp only [win_dup (now := now) hw hp (by omega) (by omega) h3]⟩
          · right
            obtain ⟨s', e, rest⟩ := win_reordered (now := now) hw hp (by omega) (by omega) h3
            exact ⟨hv, ht, by omega, h2, h3, s', by simp only [e], rest⟩
    · left
      rw [isNonceValid_top s now n ht]
      exact ⟨Or.inr ht, rfl⟩
  · left
    rw [if_neg hv]
    exact ⟨Or.inl (by simpa using hv), rfl⟩

theorem send_effect {s s' : Common} {now : Time} {n : Nonce} (h : send s now = some (n, s')) :
    s.isValid now = true ∧ n = s.sendNonce ∧ s' = { s with sendNonce := incrNonce s.sendNonce } ∧
      s'.sendNonce.val = s.sendNonce.val + 2 := by
  unfold send at h
  split at h
  · rename_i hv
    simp only [Option.some.injEq, Prod.mk.injEq] at h
    obtain ⟨rfl, rfl⟩ := h
    refine ⟨hv, rfl, rfl, ?_⟩
    have := (isValid_iff s now).1 hv
    exact incrNonce_val _ (by omega)
  · simp at h

theorem superseded_fields (s : Common) (now : Time) :
    (s.superseded now).sendNonce = s.sendNonce ∧
    (s.superseded now).receiveNonce = s.receiveNonce ∧
    (s.superseded now).reorderTimeout = s.reorderTimeout ∧
    (s.superseded now).reorderSeen = s.reorderSeen ∧
    (s.superseded now).validTill = min s.validTill (now + KEY_VALID_OLD) := by
  unfold Common.superseded
  simp only []
  split
  · refine ⟨rfl, rfl, rfl, rfl, ?_⟩
    simp only []; omega
  · refine ⟨rfl, rfl, rfl, rfl, ?_⟩
    omega

theorem win_congr {s s' : Common} {seen : List Nat} (h1 : s'.receiveNonce = s.receiveNonce)
    (h2 : s'.reorderSeen = s.reorderSeen) (hw : Win s seen) : Win s' seen := by
  constructor
  · rw [h1]; exact hw.le
  · rw [h1]; exact hw.par
  · rw [h1]; exact hw.mem
  · rw [h1, h2]; exact hw.bits

/-! ## C01 -/

theorem replay_gen (evs : List Event) (s : Common) (seen : List Nat) (p : Nat) (hw : Win s seen)
    (hsp : s.receiveNonce.val % 2 = p % 2)
    (hpar : ∀ now n, Event.receive now n ∈ evs → n.val % 2 = p % 2) :
    (delivered (run s evs).1).Nodup ∧ ∀ n ∈ delivered (run s evs).1, n.val ∉ seen := by
  induction evs generalizing s seen with
  | nil => simp [run, delivered]
  | cons e es ih =>
    have hpar' : ∀ now n, Event.receive now n ∈ es → n.val % 2 = p % 2 :=
      fun now n h => hpar now n (List.mem_cons_of_mem _ h)
    cases e with
    | send now =>
      simp only [run, step]
      cases hs : send s now with
      | none => simpa [delivered] using ih s seen hw hsp hpar'
      | some q =>
        obtain ⟨n, s'⟩ := q
        obtain ⟨_, rfl, rfl, _⟩ := send_effect hs
        simpa [delivered] using ih { s with sendNonce := incrNonce s.sendNonce } seen (win_congr (s := s) rfl rfl hw) hsp hpar'
    | supersede now =>
      obtain ⟨_, h2, _, h4, _⟩ := superseded_fields s now
      simpa [run, step, delivered] using
        ih (s.superseded now) seen (win_congr h2 h4 hw) (by rw [h2]; exact hsp) hpar'
    | receive now n =>
      have hp : n.val % 2 = s.receiveNonce.val % 2 := by
        rw [hsp]; exact hpar now n (by simp)
      simp only [run, step]
      have accept : ∀ (s' : Common), Win s' (n.val :: seen) →
          s'.receiveNonce.val % 2 = p % 2 → n.val ∉ seen →
          (n :: delivered (run s' es).1).Nodup ∧
            ∀ m ∈ n :: delivered (run s' es).1, m.val ∉ seen := by
        intro s' hw' hp' hn
        obtain ⟨i1, i2⟩ := ih s' _ hw' hp' hpar'
        refine ⟨List.nodup_cons.2 ⟨fun hm => ?_, i1⟩, ?_⟩
        · exact i2 n hm (by simp)
        · intro m hm
          rcases List.mem_cons.1 hm with rfl | hm
          · exact hn
          · exact fun h => i2 m hm (List.mem_cons_of_mem _ h)
      rcases receive_cases s seen now n hw hp with h | h | h | h | h
      · obtain ⟨_, e⟩ := h
        rw [e]; simpa [delivered] using ih s seen hw hsp hpar'
      · obtain ⟨_, _, hlt, s', e, w, e1, _⟩ := h
        rw [e]
        have hn : n.val ∉ seen := fun hm => by have := hw.le _ hm; omega
        have := accept s' w (by rw [e1, hp, hsp]) hn
        simpa [delivered] using this
      · obtain ⟨_, _, _, _, e⟩ := h
        rw [e]; simpa [delivered] using ih s seen hw hsp hpar'
      · obtain ⟨_, _, _, _, _, e⟩ := h
        rw [e]; simpa [delivered] using ih s seen hw hsp hpar'
      · obtain ⟨_, _, _, _, hn, s', e, w, e1, _⟩ := h
        rw [e]
        have := accept s' w (by rw [e1, hsp]) hn
        simpa [delivered] using this

/-- **C01 (partial).** In every history of a fresh session (any interleaving of sent and received
packets and superseding, any clock), if all authenticated packets that arrive carry numbers of the
*other* side (parity of the last nonce byte), then no nonce is delivered twice. The full claim
(without the parity hypothesis) is false for the code, see `C01_no_replay_false`. -/
theorem C01_no_replay_partial (initiator compat : Bool) (t0 splay : Time) (evs : List Event)
    (hpar : ∀ now n, Event.receive now n ∈ evs → n.val % 2 = otherParity initiator) :
    (delivered (run (Common.init initiator compat t0 splay) evs).1).Nodup := by
  refine (replay_gen evs _ _ (otherParity initiator) (init_win initiator compat t0 splay) ?_ ?_).1
  · rw [init_receive_val]
  · intro now n h
    rw [hpar now n h]
    cases initiator <;> rfl

/-- The hypotheses of C01 are met by a history in which a replay is attempted and refused while a
late packet is delivered. -/
example :
    let evs := [Event.receive 5 (lastByteNonce 2), .receive 6 (lastByteNonce 6),
      .receive 7 (lastByteNonce 2), .receive 8 (lastByteNonce 4), .receive 9 (lastByteNonce 4)]
    (∀ now n, Event.receive now n ∈ evs → n.val % 2 = otherParity true) ∧
    delivered (run (Common.init true false 0 0) evs).1 =
      [lastByteNonce 2, lastByteNonce 6, lastByteNonce 4] := by
  refine ⟨?_, by decide +kernel⟩
  intro now n h
  simp only [List.mem_cons, Event.receive.injEq, List.not_mem_nil, or_false] at h
  rcases h with h | h | h | h | h <;> (rw [h.2]; decide)

/-- **C01 refuted for the code as written.** The parity test of src/methods/common.c:38 looks at the
most significant byte, so the initiator's own packet number 7, reflected by the network, shifts the
window by half a step and packet 2 is delivered a second time. Times are non-decreasing and every
packet involved was really sent in this session. -/
theorem C01_no_replay_false :
    ∃ evs : List Event,
      delivered (run (Common.init true false 0 0) evs).1 =
        [lastByteNonce 2, lastByteNonce 6, lastByteNonce 7, lastByteNonce 2] ∧
      sentNonces (run (Common.init true false 0 0) evs).1 =
        [lastByteNonce 3, lastByteNonce 5, lastByteNonce 7] :=
  ⟨[.receive 1 (lastByteNonce 2), .receive 2 (lastByteNonce 6), .send 3, .send 4, .send 5,
    .receive 6 (lastByteNonce 7), .receive 7 (lastByteNonce 2)], by decide +kernel⟩

/-! ## C02 -/

/-- **C02 refuted for the code as written**: an initiator accepts its own first packet. -/
theorem C02_reflection_false :
    (run (Common.init true false 0 0) [.send 1, .receive 2 (lastByteNonce 3)]).1 =
      [.sent 1 (lastByteNonce 3), .received 2 (lastByteNonce 3) .inOrder] := by
  decide +kernel

/-- A responder accepts its own packets as well. -/
theorem C02_reflection_responder_false :
    (run (Common.init false false 0 0) [.send 1, .receive 2 (lastByteNonce 2)]).1 =
      [.sent 1 (lastByteNonce 2), .received 2 (lastByteNonce 2) .inOrder] := by
  decide +kernel

/-- **C02 (partial).** What the code does guarantee in every session state, for a packet of either
parity: a packet not newer than the newest received one is refused once the newest one is 10 s old,
and a packet more than 65 sender steps older is refused at any time; also the two packet number
ranges whose topmost byte has the wrong parity are refused. Missing: reflected packets that are
newer or recent. -/
theorem C02_reflection_partial (s : Common) (now : Time) (n : Nonce)
    (h : (n.val ≤ s.receiveNonce.val ∧
        (s.reorderTimeout ≤ now ∨ n.val + 2 * 65 ≤ s.receiveNonce.val)) ∨
      n.val / 2 ^ 40 % 2 ≠ s.receiveNonce.val / 2 ^ 40 % 2) :
    receive s now n = (.rejected, s) := by
  unfold receive
  have : isNonceValid s now n = none := by
    rcases h with ⟨h1, h2⟩ | h
    · unfold isNonceValid
      split
      · rfl
      · simp only []
        rw [nonceAge_eq, Int.fdiv_eq_ediv_of_nonneg _ (by omega)]
        rw [if_pos (by omega)]
        rcases h2 with h2 | h2
        · simp [h2]
        · split
          · rfl
          · rw [if_pos (by omega)]
    · exact isNonceValid_top s now n h
  rw [this]
  split <;> rfl

example : receive { Common.init true false 0 0 with
      receiveNonce := lastByteNonce 200, reorderTimeout := 500 } 499 (lastByteNonce 69) =
    (.rejected, { Common.init true false 0 0 with
      receiveNonce := lastByteNonce 200, reorderTimeout := 500 }) := by decide +kernel

/-! ## C03 -/

theorem nonceOf_val (n : Nonce) : Ideal.step.nonceOf n.val = n := by
  apply val_inj
  have h := val_lt n
  rw [Ideal.step.nonceOf, val6]
  simp only [UInt8.toNat_ofNat']
  omega

/-- Simulation relation between the code's session and the ideal one. -/
structure Sim (s : Common) (w : Ideal) : Prop where
  next : w.next = s.sendNonce.val
  till : w.validTill = s.validTill
  newest : w.newest = s.receiveNonce.val
  win : Win s w.seen
  deadline : w.deadline = s.reorderTimeout
  small : s.receiveNonce.val < 2 ^ 40

theorem live_eq {s : Common} {w : Ideal} (h : Sim s w) (now : Time) :
    w.live now = s.isValid now := by
  rw [Bool.eq_iff_iff, isValid_iff, Ideal.live, h.next, h.till]
  simp
  exact And.comm

theorem sim_step {s : Common} {w : Ideal} (h : Sim s w) (e : Event)
    (he : ∀ now n, e = .receive now n →
      n.val % 2 = s.receiveNonce.val % 2 ∧ n.val < 2 ^ 40) :
    (step s e).1 = (w.step e).1 ∧ Sim (step s e).2 (w.step e).2 ∧
      (step s e).2.receiveNonce.val % 2 = s.receiveNonce.val % 2 := by
  cases e with
  | send now =>
    simp only [step, Ideal.step, live_eq h]
    cases hs : send s now with
    | none =>
      have : s.isValid now = false := by
        unfold send at hs; split at hs <;> simp_all
      rw [this]
      exact ⟨rfl, h, rfl⟩
    | some q =>
      obtain ⟨n, s'⟩ := q
      obtain ⟨hv, rfl, rfl, hval⟩ := send_effect hs
      rw [hv]
      simp only [if_true]
      refine ⟨?_, ⟨?_, h.till, h.newest, win_congr (s := s) rfl rfl h.win, h.deadline, h.small⟩, trivial⟩
      · simp [h.next, nonceOf_val]
      · simp only []; rw [h.next]; exact hval.symm
  | supersede now =>
    obtain ⟨h1, h2, h3, h4, h5⟩ := superseded_fields s now
    refine ⟨rfl, ⟨?_, ?_, ?_, ?_, ?_, ?_⟩, ?_⟩
    · simp [step, Ideal.step, h1, h.next]
    · simp only [step, Ideal.step, h5, h.till]; rfl
    · simp [step, Ideal.step, h2, h.newest]
    · exact win_congr h2 h4 h.win
    · simp [step, Ideal.step, h3, h.deadline]
    · simp only [step, h2]; exact h.small
    · simp [step, h2]
  | receive now n =>
    obtain ⟨hp, hs⟩ := he now n rfl
    have ht : topMatch s n := by
      unfold topMatch
      have := h.small
      rw [Nat.div_eq_of_lt hs, Nat.div_eq_of_lt this]
    simp only [step, Ideal.step]
    rcases receive_cases s w.seen now n h.win hp with c | c | c | c | c
    · obtain ⟨c1, e⟩ := c
      have hv : w.live now = false := by
        rw [live_eq h]; rcases c1 with c1 | c1
        · exact c1
        · exact absurd ht c1
      have : w.judge now n.val = .rejected := by simp [Ideal.judge, hv]
      rw [e, this]
      exact ⟨rfl, h, rfl⟩
    · obtain ⟨hv, _, hlt, s', e, w1, w2, w3, w4, w5⟩ := c
      have : w.judge now n.val = .inOrder := by
        rw [← live_eq h] at hv
        unfold Ideal.judge
        rw [if_neg (by simp [hv]), if_pos (by rw [h.newest]; exact hlt)]
      rw [e, this]
      refine ⟨rfl, ⟨?_, ?_, ?_, w1, ?_, ?_⟩, ?_⟩
      · simp [w4, h.next]
      · simp [w5, h.till]
      · simp [w2]
      · simp only [w3]; rfl
      · simp only [w2]; exact hs
      · simp [w2, hp]
    · obtain ⟨hv, _, hle, hor, e⟩ := c
      have : w.judge now n.val = .rejected := by
        rw [← live_eq h] at hv
        unfold Ideal.judge
        rw [if_neg (by simp [hv]), if_neg (by rw [h.newest]; omega),
          if_pos (by rw [h.newest, h.deadline]; exact hor)]
      rw [e, this]
      exact ⟨rfl, h, rfl⟩
    · obtain ⟨hv, _, hle, hor, hm, e⟩ := c
      have : w.judge now n.val = .duplicate := by
        rw [← live_eq h] at hv
        unfold Ideal.judge
        rw [if_neg (by simp [hv]), if_neg (by rw [h.newest]; omega),
          if_neg (by rw [h.newest, h.deadline]; exact hor), if_pos hm]
      rw [e, this]
      exact ⟨rfl, h, rfl⟩
    · obtain ⟨hv, _, hle, hor, hm, s', e, w1, w2, w3, w4, w5⟩ := c
      have : w.judge now n.val = .reordered := by
        rw [← live_eq h] at hv
        unfold Ideal.judge
        rw [if_neg (by simp [hv]), if_neg (by rw [h.newest]; omega),
          if_neg (by rw [h.newest, h.deadline]; exact hor), if_neg hm]
      rw [e, this]
      refine ⟨rfl, ⟨?_, ?_, ?_, w1, ?_, ?_⟩, ?_⟩
      · simp [w4, h.next]
      · simp [w5, h.till]
      · simp [w2, h.newest]
      · simp [w3, h.deadline]
      · simp only [w2]; exact h.small
      · simp [w2]

theorem sim_run (evs : List Event) (s : Common) (w : Ideal) (h : Sim s w)
    (he : ∀ now n, Event.receive now n ∈ evs →
      n.val % 2 = s.receiveNonce.val % 2 ∧ n.val < 2 ^ 40) :
    (run s evs).1 = w.run evs := by
  induction evs generalizing s w with
  | nil => rfl
  | cons e es ih =>
    obtain ⟨h1, h2, h3⟩ := sim_step h e (fun now n he' => he now n (by simp [he']))
    simp only [run, Ideal.run]
    rw [h1, ih _ _ h2]
    intro now n hm
    rw [h3]
    exact he now n (List.mem_cons_of_mem _ hm)

/-- **C03 (partial).** For every history of a fresh session in which the received packets carry
numbers of the other side below 2^40, the code behaves exactly like the ideal session of
`Spec.Ideal`: newest packets are accepted in order, unseen packets at most 64 packets older than
the newest are accepted as reordered within 10 s, everything else is refused; superseding and
sending have exactly the specified effect. Missing: numbers from 2^40 on (refused by the misplaced
parity test, `C03_fresh_accepted_false`) and reflected packets (C02). -/
theorem C03_window_partial (initiator compat : Bool) (t0 splay : Time) (evs : List Event)
    (he : ∀ now n, Event.receive now n ∈ evs →
      n.val % 2 = otherParity initiator ∧ n.val < 2 ^ 40) :
    (run (Common.init initiator compat t0 splay) evs).1 = (Ideal.fresh initiator t0).run evs := by
  apply sim_run
  · constructor
    · cases initiator <;> rfl
    · rfl
    · cases initiator <;> rfl
    · have := init_win initiator compat t0 splay
      cases initiator <;> exact this
    · rfl
    · rw [init_receive_val]; cases initiator <;> decide
  · intro now n h
    rw [init_receive_val]
    obtain ⟨h1, h2⟩ := he now n h
    refine ⟨?_, h2⟩
    rw [h1]; cases initiator <;> rfl

example :
    let evs := [Event.receive 5 (lastByteNonce 200), .receive 6 (lastByteNonce 72),
      .receive 7 (lastByteNonce 70), .send 8, .supersede 9, .receive 10005 (lastByteNonce 74)]
    (∀ now n, Event.receive now n ∈ evs → n.val % 2 = otherParity true ∧ n.val < 2 ^ 40) ∧
    (run (Common.init true false 0 0) evs).1 =
      [.received 5 (lastByteNonce 200) .inOrder, .received 6 (lastByteNonce 72) .reordered,
       .received 7 (lastByteNonce 70) .rejected, .sent 8 (lastByteNonce 3), .superseded 9,
       .received 10005 (lastByteNonce 74) .rejected] := by
  refine ⟨?_, by decide +kernel⟩
  intro now n h
  simp only [List.mem_cons, Event.receive.injEq, List.not_mem_nil, or_false, reduceCtorEq,
    false_or] at h
  rcases h with h | h | h | h <;> (rw [h.2]; decide)

/-- **C03 refuted at the upper end**: the other side's packet number 2^40 is newer than everything
received and the session is live, yet it is refused. -/
theorem C03_fresh_accepted_false :
    (run (Common.init true false 0 0) [.receive 1 (lastByteNonce 2),
      .receive 2 #v[1, 0, 0, 0, 0, 0]]).1 =
      [.received 1 (lastByteNonce 2) .inOrder, .received 2 #v[1, 0, 0, 0, 0, 0] .rejected] := by
  decide +kernel

/-! ## C04 -/

/-- The `k`-th number a side uses. -/
def kthNumber (initiator : Bool) (k : Nat) : Nat := (if initiator then 3 else 2) + 2 * k

theorem sent_gen (evs : List Event) (s : Common) :
    (sentNonces (run s evs).1).map Nonce.val =
      List.range' s.sendNonce.val (sentNonces (run s evs).1).length 2 ∧
    ∀ n ∈ sentNonces (run s evs).1, n.val < 2 ^ 48 - 2 ^ 32 := by
  induction evs generalizing s with
  | nil => simp [run, sentNonces]
  | cons e es ih =>
    cases e with
    | send now =>
      simp only [run, step]
      cases hs : send s now with
      | none => simpa [sentNonces] using ih s
      | some q =>
        obtain ⟨n, s'⟩ := q
        obtain ⟨hv, rfl, rfl, hval⟩ := send_effect hs
        obtain ⟨i1, i2⟩ := ih { s with sendNonce := incrNonce s.sendNonce }
        rw [hval] at i1
        simp only [sentNonces, List.filterMap_cons] at i1 i2 ⊢
        refine ⟨?_, ?_⟩
        · simp only [List.map_cons, List.length_cons, List.range'_succ]
          rw [i1]
        · intro m hm
          rcases List.mem_cons.1 hm with rfl | hm
          · exact ((isValid_iff s now).1 hv).1
          · exact i2 m hm
    | supersede now =>
      obtain ⟨h1, _⟩ := superseded_fields s now
      have := ih (s.superseded now)
      rw [h1] at this
      simpa [run, step, sentNonces] using this
    | receive now n =>
      have hsn : (receive s now n).2.sendNonce = s.sendNonce := by
        unfold receive reorderCheck
        split
        · split
          · rfl
          · simp only []
            rename_i age _
            by_cases ha : age < 0
            · simp [ha]
            · by_cases hb : age = 0 ∨
                (s.reorderSeen &&& ((1 : BitVec 64) <<< (age - 1).toNat)) ≠ 0
              · simp only [ha, hb, if_true, if_false]
              · simp only [ha, hb, if_false]
        · rfl
      have := ih (receive s now n).2
      rw [hsn] at this
      simpa [run, step, sentNonces] using this

/-- **C04.** In every history the packets sent in a session carry, in order, exactly the numbers
`3, 5, 7, …` (initiator) or `2, 4, 6, …` (responder), all below `2^48 - 2^32`. -/
theorem C04_sent_numbers (initiator compat : Bool) (t0 splay : Time) (evs : List Event) :
    let sent := sentNonces (run (Common.init initiator compat t0 splay) evs).1
    (∀ k (h : k < sent.length), sent[k].val = kthNumber initiator k) ∧
    ∀ n ∈ sent, n.val < 2 ^ 48 - 2 ^ 32 := by
  intro sent
  obtain ⟨h1, h2⟩ := sent_gen evs (Common.init initiator compat t0 splay)
  refine ⟨?_, h2⟩
  intro k hk
  have h3 : (sent.map Nonce.val)[k]? = (List.range' (Common.init initiator compat t0
      splay).sendNonce.val sent.length 2)[k]? := by rw [h1]
  rw [List.getElem?_map, List.getElem?_eq_getElem hk, List.getElem?_range' hk] at h3
  simp only [Option.map_some, Option.some.injEq] at h3
  rw [h3]
  cases initiator <;> rfl

/-- **C04.** No nonce is used twice for sending in a session. -/
theorem C04_send_unique (initiator compat : Bool) (t0 splay : Time) (evs : List Event) :
    (sentNonces (run (Common.init initiator compat t0 splay) evs).1).Nodup := by
  have h := (sent_gen evs (Common.init initiator compat t0 splay)).1
  have : ((sentNonces (run (Common.init initiator compat t0 splay) evs).1).map Nonce.val).Nodup := by
    rw [h]; exact List.nodup_range' 2
  exact List.Pairwise.of_map _ (fun a b h e => h (congrArg _ e)) this

/-- **C04.** The two directions of a session never use the same nonce. -/
theorem C04_directions_disjoint (c c' : Bool) (t0 t0' sp sp' : Time) (evs evs' : List Event) :
    ∀ n ∈ sentNonces (run (Common.init true c t0 sp) evs).1,
      n ∉ sentNonces (run (Common.init false c' t0' sp') evs').1 := by
  intro n hn hn'
  obtain ⟨k, hk, rfl⟩ := List.getElem_of_mem hn
  obtain ⟨j, hj, e⟩ := List.getElem_of_mem hn'
  have h1 := (C04_sent_numbers true c t0 sp evs).1 k hk
  have h2 := (C04_sent_numbers false c' t0' sp' evs').1 j hj
  rw [e, h1] at h2
  simp [kthNumber] at h2
  omega

/-- **C04.** A session whose counter comes within `2^32` of the wrap is not valid at any time, so
nothing is sent and the counter never wraps. -/
theorem C04_invalid_before_wrap (s : Common) (now : Time)
    (h : 2 ^ 48 - 2 ^ 32 ≤ s.sendNonce.val) : s.isValid now = false ∧ send s now = none := by
  have : s.isValid now = false := by
    by_contra hc
    have := (isValid_iff s now).1 (by simpa using hc)
    omega
  exact ⟨this, by simp [send, this]⟩

example : (sentNonces (run (Common.init false false 0 0)
    [.send 1, .receive 1 (lastByteNonce 3), .send 1, .send 4000000]).1) =
    [lastByteNonce 2, lastByteNonce 4] := by decide +kernel

/-- A carry over several bytes, and the last valid counter value. -/
example : incrNonce #v[0, 0, 0xff, 0xff, 0xff, 0xff] = #v[0, 1, 0, 0, 0, 1] ∧
    (send { Common.init true false 0 0 with sendNonce := #v[0xff, 0xfe, 0xff, 0xff, 0xff, 0xff] }
      1).map (·.1) = some #v[0xff, 0xfe, 0xff, 0xff, 0xff, 0xff] ∧
    send { Common.init true false 0 0 with sendNonce := #v[0xff, 0xff, 0, 0, 0, 1] } 1 = none := by
  decide +kernel

/-! ## C05 -/

/-- **C05.** Parsing what `put_common_header` produced gives back type, flags, nonce and payload,
and the header is exactly 8 bytes long. -/
theorem C05_header_round_trip (data : List UInt8) (n : Nonce) (flags : UInt8) (compat : Bool) :
    takeHeader (putHeaderRaw data n flags compat) = some (packetType compat, flags, n, data) ∧
    (putHeaderRaw data n flags compat).length = data.length + 8 := by
  obtain ⟨a, b, c, d, e, f, rfl⟩ := exists6 n
  constructor
  · simp [putHeaderRaw, takeHeader]
  · simp [putHeaderRaw]

/-- **C05.** The receiver's header handling of a packet sent by the other side. -/
theorem C05_header_accepted (snd rcv : Common) (now : Time) (data : List UInt8) (flags : UInt8)
    (hc : snd.compat = rcv.compat) :
    handleHeader rcv now (putHeader snd data flags).1 =
      match isNonceValid rcv now snd.sendNonce with
      | some age => .ok snd.sendNonce flags age data
      | none => .refused := by
  simp only [handleHeader, putHeader, (C05_header_round_trip data snd.sendNonce flags _).1, hc,
    if_true]
  cases isNonceValid rcv now snd.sendNonce <;> rfl

/-- **C05.** Every packet of at least 8 bytes is handled without reading past its end, and is refused
when its first byte is not the packet type of the session or its nonce is refused; accepted headers
consist of exactly the first 8 bytes. -/
theorem C05_header_refused (rcv : Common) (now : Time) (pkt : List UInt8) :
    (handleHeader rcv now pkt = .bug ↔ pkt.length < 8) ∧
    (∀ t rest, pkt = t :: rest → 8 ≤ pkt.length → t ≠ packetType rcv.compat →
      handleHeader rcv now pkt = .refused) ∧
    ∀ n f age rest, handleHeader rcv now pkt = .ok n f age rest →
      pkt = packetType rcv.compat :: f :: (n.toList ++ rest) ∧
      isNonceValid rcv now n = some age := by
  rcases pkt with _ | ⟨t, _ | ⟨f, _ | ⟨a, _ | ⟨b, _ | ⟨c, _ | ⟨d, _ | ⟨e, _ | ⟨g, rest⟩⟩⟩⟩⟩⟩⟩⟩
  case cons.cons.cons.cons.cons.cons.cons.cons =>
    simp only [handleHeader, takeHeader]
    refine ⟨?_, ?_, ?_⟩
    · split
      · cases isNonceValid rcv now #v[a, b, c, d, e, g] <;> simp
      · simp
    · intro t' rest' h _ hne
      simp only [List.cons.injEq] at h
      rw [if_neg (by rw [h.1]; exact hne)]
    · intro n f' age rest'
      split
      · rename_i ht
        cases hv : isNonceValid rcv now #v[a, b, c, d, e, g] with
        | none => simp
        | some x =>
          simp only [HeaderResult.ok.injEq]
          rintro ⟨rfl, rfl, rfl, rfl⟩
          exact ⟨by simp [ht], hv⟩
      · simp
  all_goals
    refine ⟨by simp [handleHeader, takeHeader], ?_, by simp [handleHeader, takeHeader]⟩
    intro t' rest' _ h
    simp at h

example : handleHeader (Common.init false true 0 0) 1
    (putHeader (Common.init true true 0 0) [1, 2, 3] 7).1 = .ok (lastByteNonce 3) 7 (-1) [1, 2, 3] := by
  decide +kernel

example : handleHeader (Common.init false false 0 0) 1
    (putHeader (Common.init true true 0 0) [1, 2, 3] 7).1 = .refused := by
  decide +kernel

/-! ## C06 -/

/-- Observations that use the session's keys for payload, with their time. -/
def usedAt : Obs → Option Time
  | .sent now _ => some now
  | .received now _ .inOrder => some now
  | .received now _ .reordered => some now
  | .received now _ .duplicate => some now
  | _ => none

theorem receive_effect (s : Common) (now : Time) (n : Nonce) :
    (receive s now n).2.validTill = s.validTill ∧ (receive s now n).2.sendNonce = s.sendNonce ∧
    ((receive s now n).1 ≠ .rejected → s.isValid now = true) := by
  unfold receive
  split
  · rename_i hv
    refine ⟨?_, ?_, fun _ => hv⟩ <;>
    · split
      · rfl
      · rename_i age _
        unfold reorderCheck
        by_cases ha : age < 0
        · simp [ha]
        · by_cases hb : age = 0 ∨
            (s.reorderSeen &&& ((1 : BitVec 64) <<< (age - 1).toNat)) ≠ 0
          · simp only [ha, hb, if_true, if_false]
          · simp only [ha, hb, if_false]
  · exact ⟨rfl, rfl, fun h => absurd rfl h⟩

theorem step_till (s : Common) (e : Event) :
    (step s e).2.validTill ≤ s.validTill ∧
    (∀ t, usedAt (step s e).1 = some t → t < s.validTill) ∧
    (∀ t, (step s e).1 = .superseded t → (step s e).2.validTill ≤ t + KEY_VALID_OLD) := by
  cases e with
  | send now =>
    simp only [step]
    cases hs : send s now with
    | none => simp [usedAt]
    | some q =>
      obtain ⟨n, s'⟩ := q
      obtain ⟨hv, rfl, rfl, _⟩ := send_effect hs
      simp [usedAt, ((isValid_iff s now).1 hv).2]
  | supersede now =>
    obtain ⟨_, _, _, _, h5⟩ := superseded_fields s now
    simp only [step, h5, usedAt]
    refine ⟨by omega, by simp, ?_⟩
    intro t h
    cases h
    omega
  | receive now n =>
    obtain ⟨h1, _, h3⟩ := receive_effect s now n
    simp only [step, h1]
    refine ⟨le_refl _, ?_, by simp⟩
    intro t
    cases hv : (receive s now n).1 with
    | rejected => simp [usedAt]
    | _ =>
      simp only [usedAt, Option.some.injEq]
      rintro rfl
      exact ((isValid_iff s now).1 (h3 (by rw [hv]; simp))).2

theorem run_till (evs : List Event) (s : Common) :
    ∀ o ∈ (run s evs).1, ∀ t, usedAt o = some t → t < s.validTill := by
  induction evs generalizing s with
  | nil => simp [run]
  | cons e es ih =>
    obtain ⟨h1, h2, _⟩ := step_till s e
    intro o ho t ht
    simp only [run, List.mem_cons] at ho
    rcases ho with rfl | ho
    · exact h2 t ht
    · exact lt_of_lt_of_le (ih _ o ho t ht) h1

/-- **C06.** Whatever happens in a session, nothing is encrypted or accepted with its keys
`KEY_VALID` after it was set up. -/
theorem C06_lifetime (initiator compat : Bool) (t0 splay : Time) (evs : List Event) :
    ∀ o ∈ (run (Common.init initiator compat t0 splay) evs).1,
      ∀ t, usedAt o = some t → t < t0 + KEY_VALID :=
  run_till evs _

/-- **C06.** Once superseded at time `t`, nothing is encrypted or accepted with the session's keys
from `t + KEY_VALID_OLD` on. -/
theorem C06_superseded (s : Common) (evs : List Event) (pre post : List Obs) (t : Time)
    (h : (run s evs).1 = pre ++ .superseded t :: post) :
    ∀ o ∈ post, ∀ t', usedAt o = some t' → t' < t + KEY_VALID_OLD := by
  induction pre generalizing s evs with
  | nil =>
    cases evs with
    | nil => simp [run] at h
    | cons e es =>
      simp only [run, List.nil_append, List.cons.injEq] at h
      obtain ⟨_, _, h3⟩ := step_till s e
      rw [← h.2]
      intro o ho t' ht
      exact lt_of_lt_of_le (run_till es _ o ho t' ht) (h3 t h.1)
  | cons a pre ih =>
    cases evs with
    | nil => simp [run] at h
    | cons e es =>
      simp only [run, List.cons_append, List.cons.injEq] at h
      exact ih _ es h.2

/-- **C06.** A session that is not valid at some time is not valid at any later time, whatever
happens to it meanwhile. -/
theorem C06_expired_stays_expired (s : Common) (now now' : Time) (evs : List Event)
    (h : s.isValid now = false) (hle : now ≤ now') : (run s evs).2.isValid now' = false := by
  have key : ∀ (s : Common), s.isValid now = false ↔
      (2 ^ 48 - 2 ^ 32 ≤ s.sendNonce.val ∨ s.validTill ≤ now) := by
    intro s
    rw [← Bool.not_eq_true, isValid_iff]
    omega
  have inv : ∀ (evs : List Event) (s : Common),
      (2 ^ 48 - 2 ^ 32 ≤ s.sendNonce.val ∨ s.validTill ≤ now) →
      (2 ^ 48 - 2 ^ 32 ≤ (run s evs).2.sendNonce.val ∨ (run s evs).2.validTill ≤ now) := by
    intro evs
    induction evs with
    | nil => exact fun _ h => h
    | cons e es ih =>
      intro s h
      simp only [run]
      apply ih
      rcases h with h | h
      · left
        cases e with
        | send now =>
          simp only [step]
          rw [(C04_invalid_before_wrap s now h).2]
          exact h
        | supersede now => simp only [step, (superseded_fields s now).1]; exact h
        | receive now n => simp only [step, (receive_effect s now n).2.1]; exact h
      · right
        exact le_trans (step_till s e).1 h
  have h1 := inv evs s ((key s).1 h)
  rw [← Bool.not_eq_true, isValid_iff]
  omega

example : (run (Common.init true false 0 0) [.send 3599999, .send 3600000]).1 =
    [.sent 3599999 (lastByteNonce 3), .notSent] ∧
    (run (Common.init true false 0 0) [.supersede 100, .receive 60099 (lastByteNonce 2),
      .receive 60100 (lastByteNonce 4)]).1 =
    [.superseded 100, .received 60099 (lastByteNonce 2) .inOrder,
      .received 60100 (lastByteNonce 4) .rejected] := by decide +kernel

/-! ## C61 -/

/-- **C61.** For every IV length accepted by the methods (more than 6 bytes), different nonces give
different IVs of exactly that length, and no IV is all zero (the IV used to derive the GHASH key). -/
theorem C61_expand_injective (len : Nat) (hlen : 6 < len) (m n : Nonce) :
    (expandNonce m len = expandNonce n len → m = n) ∧ (expandNonce m len).length = len ∧
      expandNonce m len ≠ List.replicate len 0 := by
  obtain ⟨l, rfl⟩ : ∃ l, len = l + 7 := ⟨len - 7, by omega⟩
  have form : ∀ k : Nonce, expandNonce k (l + 7) = k.toList ++ (List.replicate l 0 ++ [1]) := by
    intro k
    obtain ⟨a, b, c, d, e, f, rfl⟩ := exists6 k
    simp only [expandNonce]
    rw [if_neg (by omega)]
    apply List.ext_getElem?
    intro i
    rw [List.getElem?_set]
    simp only [Vector.toList_mk, List.length_take, List.length_append, List.length_replicate,
      List.length_cons, List.length_nil, List.getElem?_take, List.getElem?_append,
      List.getElem?_replicate]
    by_cases h1 : i < 6
    · have : ¬ (l + 6 = i) := by omega
      simp [this, h1, show i < l + 7 by omega]
    · by_cases h2 : i < l + 6
      · have : ¬ (l + 6 = i) := by omega
        simp [this, h1, show i < l + 7 by omega, show i - 6 < l by omega, show i - 6 < l + 7 by omega]
      · by_cases h3 : i = l + 6
        · subst h3; simp
        · have : ¬ (l + 6 = i) := by omega
          have h4 : ¬ i < l + 7 := by omega
          have h5 : ¬ i - 6 < l := by omega
          have h6 : ¬ (i - 6 - l = 0) := by omega
          simp [this, h1, h4, h5, h6]
  refine ⟨?_, ?_, ?_⟩
  · rw [form, form]
    intro h
    have := List.append_cancel_right h
    exact Vector.toList_inj.1 this
  · rw [form]; simp; omega
  · intro h
    have : (1 : UInt8) ∈ List.replicate (l + 7) 0 := by
      rw [← h, form]; simp
    simp at this

example : expandNonce #v[1, 2, 3, 4, 5, 6] 8 = [1, 2, 3, 4, 5, 6, 0, 1] ∧
    expandNonce #v[1, 2, 3, 4, 5, 6] 6 = expandNonce #v[1, 2, 3, 4, 5, 9] 6 := by decide

/-- **C61.** With a 16 byte IV used as a big endian block counter (AES-CTR), the counter blocks of
two packets with different nonces never coincide, as long as a packet uses fewer than 2^80 - 1
blocks; in particular no key stream block is ever used for two packets. -/
theorem C61_ctr_blocks_disjoint (m n : Nonce) (hne : m ≠ n) (i j : Nat) (hi : i < 2 ^ 80 - 1)
    (hj : j < 2 ^ 80 - 1) :
    (beVal (expandNonce m 16) + i) % 2 ^ 128 ≠ (beVal (expandNonce n 16) + j) % 2 ^ 128 := by
  have form : ∀ k : Nonce, beVal (expandNonce k 16) = k.val * 2 ^ 80 + 1 := by
    intro k
    obtain ⟨a, b, c, d, e, f, rfl⟩ := exists6 k
    rw [val6]
    simp [expandNonce, beVal]
    ring
  rw [form, form]
  intro h
  apply hne
  apply val_inj
  have := val_lt m
  have := val_lt n
  omega

end Fastd.Method
