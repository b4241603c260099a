import Verif.Daemon.Stats
import Verif.Spec.Status

/-!
# Property C116: traffic statistics

The numbers that the status socket reports are those of the packets that have actually been received and sent: every payload packet passed to the system is counted as sent,
dropped or failed according to the result of the last attempt, and every packet written to the interface as received, with its size before encryption. Totals count
all packets; the counters of a peer those since its connection began. Keepalives and handshakes are not counted, and no NULL pointer is used for peers that are
not known.
-/

namespace Fastd.Daemon.Stats

open Fastd.Daemon (Json objAdd)
open Fastd.Log (str)

/-! ## Specification -/

/-- The fate of a packet that has been passed to the system: what counts is the last attempt. -/
def fate (results : List (Option Errno)) : Option Stat :=
  match results.getLast? with
  | none => none
  | some none => some .tx
  | some (some .again) => some .txDropped
  | some (some _) => some .txError

/-- What counts as what: the peer and the size -/
def counted (o : Obs) (t : Stat) : Option (Nat × Nat) :=
  match o with
  | .wrote p n reordered => if n ≠ 0 ∧ (t = .rx ∨ t = .rxReordered ∧ reordered = true) then some (p, n) else none
  | .sent (some p) n r => if n ≠ 0 ∧ fate r = some t then some (p, n) else none
  | .sent none _ _ => none
  | .cleared _ => none

/-- All packets that count for a counter -/
def amounts (log : List Obs) (t : Stat) : List (Nat × Nat) := log.filterMap (counted · t)

/-- Those of a peer -/
def amountsOf (p : Nat) (log : List Obs) (t : Stat) : List (Nat × Nat) := (amounts log t).filter (·.1 = p)

/-- What has happened since the connection with a peer has ended the last time -/
def since (p : Nat) (log : List Obs) : List Obs := (log.reverse.takeWhile (· ≠ .cleared p)).reverse

/-- The number of packets, and the number of bytes -/
def number (l : List (Nat × Nat)) : Nat := l.length
def size (l : List (Nat × Nat)) : Nat := (l.map (·.2)).sum

/-- The counters are those of a list of packets. -/
def Agrees (s : Stats) (l : Stat → List (Nat × Nat)) : Prop :=
  ∀ t, s.packets t = UInt64.ofNat (number (l t)) ∧ s.bytes t = UInt64.ofNat (size (l t))

/-- The attempts to send a packet: there is a second one if and only if the first one had packet info and failed with `EINVAL` or `ENETUNREACH`. -/
def Attempts (pktinfo : Bool) (r1 r2 : Option Errno) (l : List (Option Errno)) : Prop :=
  if pktinfo = true ∧ (r1 = some .inval ∨ r1 = some .netunreach) then l = [r1, r2] else l = [r1]

/-- What an event must lead to. -/
def Effect (tap : Bool) : Event → List Obs → Prop
  | .payload p len enc pk r1 r2, l => (enc = false ∧ l = []) ∨ (enc = true ∧ ∃ a, Attempts pk r1 r2 a ∧ l = [.sent (some p) len a])
  | .handshake p pk r1 r2, l => ∃ a, Attempts pk r1 r2 a ∧ l = [.sent p 0 a]
  | .received iface p len re, l =>
    if iface = true ∧ 0 < len ∧ (tap = true → 14 ≤ len) then l = [.wrote p len re] else l = []
  | .reset p, l => l = [.cleared p]

/-! ## Lemmas -/

/-- The counters after one more packet -/
def Plus (s s' : Stats) (c : Stat → Option Nat) : Prop :=
  ∀ t, match c t with
    | none => s'.packets t = s.packets t ∧ s'.bytes t = s.bytes t
    | some n => s'.packets t = s.packets t + 1 ∧ s'.bytes t = s.bytes t + UInt64.ofNat n

/-- The state after one more observation -/
structure StepOk (s s' : St) (o : Obs) : Prop where
  log : s'.log = s.log ++ [o]
  total : Plus s.total s'.total (fun t => (counted o t).map (·.2))
  peers : ∀ q, Plus (s.peers q) (s'.peers q) (fun t => ((counted o t).filter (·.1 = q)).map (·.2))

theorem agrees_plus {s s' : Stats} {l l' : Stat → List (Nat × Nat)} {c : Stat → Option (Nat × Nat)} (h : Agrees s l)
    (hl : ∀ t, l' t = l t ++ (c t).toList) (hp : Plus s s' (fun t => (c t).map (·.2))) : Agrees s' l' := by
  intro t
  have hp := hp t
  have h := h t
  rw [hl t]
  simp only at hp
  cases hc : c t with
  | none =>
    rw [hc] at hp
    simp only [Option.map_none] at hp
    rw [hp.1, hp.2, h.1, h.2]
    simp
  | some x =>
    rw [hc] at hp
    simp only [Option.map_some] at hp
    rw [hp.1, hp.2, h.1, h.2]
    unfold number size
    simp [UInt64.ofNat_add]

/-- The counters are right. -/
structure Inv (s : St) : Prop where
  total : Agrees s.total (amounts s.log)
  peers : ∀ p, Agrees (s.peers p) (amountsOf p (since p s.log))

theorem amounts_snoc (log : List Obs) (o : Obs) (t : Stat) : amounts (log ++ [o]) t = amounts log t ++ (counted o t).toList := by
  unfold amounts
  rw [List.filterMap_append]
  cases h : counted o t <;> simp [h]

theorem amountsOf_snoc (p : Nat) (log : List Obs) (o : Obs) (t : Stat) :
    amountsOf p (log ++ [o]) t = amountsOf p log t ++ ((counted o t).filter (·.1 = p)).toList := by
  unfold amountsOf
  rw [amounts_snoc, List.filter_append]
  cases h : counted o t with
  | none => simp
  | some x => by_cases hx : x.1 = p <;> simp [hx, Option.filter]

theorem since_snoc (p : Nat) (log : List Obs) (o : Obs) (h : o ≠ .cleared p) : since p (log ++ [o]) = since p log ++ [o] := by
  unfold since
  simp [h]

theorem since_cleared (p : Nat) (log : List Obs) : since p (log ++ [.cleared p]) = [] := by
  unfold since
  simp

theorem StepOk.inv {s s' : St} {o : Obs} (h : StepOk s s' o) (hn : ∀ p, o ≠ .cleared p) (hi : Inv s) : Inv s' := by
  refine ⟨?_, fun p => ?_⟩
  · exact agrees_plus hi.total (fun t => by rw [h.log]; exact amounts_snoc _ _ _) h.total
  · exact agrees_plus (hi.peers p) (fun t => by rw [h.log, since_snoc _ _ _ (hn p)]; exact amountsOf_snoc _ _ _ _) (h.peers p)

theorem resetPeer_inv {s : St} {p : Nat} (hi : Inv s) : Inv (resetPeer s p) := by
  refine ⟨fun t => ?_, fun q t => ?_⟩
  · have h := hi.total t
    show s.total.packets t = UInt64.ofNat (number (amounts (s.log ++ [.cleared p]) t)) ∧ s.total.bytes t = UInt64.ofNat (size (amounts (s.log ++ [.cleared p]) t))
    rw [amounts_snoc]
    simpa [counted] using h
  · show (if q = p then Stats.zero else s.peers q).packets t = UInt64.ofNat (number (amountsOf q (since q (s.log ++ [.cleared p])) t)) ∧
      (if q = p then Stats.zero else s.peers q).bytes t = UInt64.ofNat (size (amountsOf q (since q (s.log ++ [.cleared p])) t))
    by_cases hq : q = p
    · subst hq
      rw [if_pos rfl, since_cleared]
      exact ⟨rfl, rfl⟩
    · rw [if_neg hq, since_snoc _ _ _ (fun h => hq (by cases h; rfl)), amountsOf_snoc]
      simpa [counted] using hi.peers q t

theorem sendmsgs_attempts (pk : Bool) (r1 r2 : Option Errno) : Attempts pk r1 r2 (sendmsgs pk r1 r2) := by
  unfold Attempts sendmsgs
  cases r1 with
  | none => simp
  | some e => cases pk <;> cases e <;> simp

/-- Counting a packet -/
theorem statsAdd_ok {s : St} {o : Obs} {p n : Nat} {t : Stat} (hn : n ≠ 0) (ho : ∀ u, counted o u = if u = t then some (p, n) else none) :
    ∃ s', statsAdd { s with log := s.log ++ [o] } (some p) t n = some s' ∧ StepOk s s' o := by
  refine ⟨_, by unfold statsAdd; rw [if_neg hn], ⟨rfl, fun u => ?_, fun q u => ?_⟩⟩
  · simp only [ho]
    unfold Stats.add
    by_cases hu : u = t <;> simp [hu]
  · simp only [ho]
    unfold Stats.add
    by_cases hu : u = t <;> by_cases hq : q = p
    · simp [hu, hq, Option.filter]
    · simp [hu, hq, Option.filter, show ¬ p = q from fun h => hq h.symm]
    · simp [hu, hq]
    · simp [hu, hq]

/-- Nothing to count -/
theorem noCount_ok {s : St} {o : Obs} (ho : ∀ u, counted o u = none) : StepOk s { s with log := s.log ++ [o] } o :=
  ⟨rfl, fun u => by simp [ho], fun q u => by simp [ho]⟩

theorem send_ok (s : St) (peer : Option Nat) (n : Nat) (pk : Bool) (r1 r2 : Option Errno) (hp : peer = none → n = 0) :
    ∃ s', send s peer n pk r1 r2 = some s' ∧ StepOk s s' (.sent peer n (sendmsgs pk r1 r2)) := by
  unfold send
  generalize hc : sendmsgs pk r1 r2 = calls
  have hne : ∃ r, calls.getLast? = some r := by
    have h := sendmsgs_attempts pk r1 r2
    rw [hc] at h
    unfold Attempts at h
    split at h <;> subst h <;> simp
  obtain ⟨r, hr⟩ := hne
  simp only [hr, Option.join]
  by_cases hn : n = 0
  · have hz : ∀ s' q t, statsAdd s' q t n = some s' := fun s' q t => by unfold statsAdd; rw [if_pos hn]
    have ho : ∀ u, counted (.sent peer n calls) u = none := by
      intro u
      unfold counted
      cases peer <;> simp [hn]
    refine ⟨{ s with log := s.log ++ [.sent peer n calls] }, ?_, noCount_ok ho⟩
    simp only [hz]
    split <;> rfl
  · cases peer with
    | none => exact absurd (hp rfl) hn
    | some p =>
      have key : ∀ t, fate calls = some t → ∃ s', statsAdd { s with log := s.log ++ [.sent (some p) n calls] } (some p) t n = some s' ∧
          StepOk s s' (.sent (some p) n calls) := by
        intro t ht
        refine statsAdd_ok hn (fun u => ?_)
        unfold counted
        simp only [ht]
        by_cases hu : u = t
        · simp [hu, hn]
        · simp [hu, show ¬ t = u from fun h => hu h.symm]
      cases r with
      | none => exact key .tx (by unfold fate; rw [hr])
      | some e => cases e <;> exact key _ (by unfold fate; rw [hr])

theorem handleReceive_ok (s : St) (tap iface : Bool) (p n : Nat) (re : Bool) (hn : n ≠ 0) :
    (iface = true ∧ (tap = true → 14 ≤ n) → ∃ s', handleReceive s tap iface p n re = some s' ∧ StepOk s s' (.wrote p n re)) ∧
    (¬ (iface = true ∧ (tap = true → 14 ≤ n)) → handleReceive s tap iface p n re = some s) := by
  refine ⟨fun ⟨hi, ht⟩ => ?_, fun h => ?_⟩
  · unfold handleReceive
    rw [hi, if_neg (by simp), if_neg (by cases tap <;> simp at ht ⊢; exact ht)]
    unfold statsAdd
    simp only [if_neg hn]
    cases re with
    | false =>
      refine ⟨_, rfl, ⟨rfl, fun u => ?_, fun q u => ?_⟩⟩
      · cases u <;> simp [counted, hn, Stats.add]
      · by_cases hq : q = p
        · cases u <;> simp [counted, hn, Stats.add, Option.filter, hq]
        · cases u <;> simp [counted, hn, Option.filter, hq, show ¬ p = q from fun h => hq h.symm]
    | true =>
      refine ⟨_, rfl, ⟨rfl, fun u => ?_, fun q u => ?_⟩⟩
      · cases u <;> simp [counted, hn, Stats.add]
      · by_cases hq : q = p
        · cases u <;> simp [counted, hn, Stats.add, Option.filter, hq]
        · cases u <;> simp [counted, hn, Option.filter, hq, show ¬ p = q from fun h => hq h.symm]
  · unfold handleReceive
    cases iface with
    | false => rfl
    | true =>
      rw [if_neg (by simp)]
      cases tap with
      | false => exact absurd ⟨rfl, fun h => by cases h⟩ h
      | true =>
        have : n < 14 := by
          by_cases h14 : n < 14
          · exact h14
          · exact absurd ⟨rfl, fun _ => by omega⟩ h
        rw [if_pos (by simp [this])]

theorem step_ok (tap : Bool) (s : St) (e : Event) :
    ∃ s' l, step tap s e = some s' ∧ s'.log = s.log ++ l ∧ Effect tap e l ∧ (Inv s → Inv s') := by
  cases e with
  | payload p len enc pk r1 r2 =>
    cases enc with
    | false => exact ⟨s, [], rfl, by simp, .inl ⟨rfl, rfl⟩, id⟩
    | true =>
      obtain ⟨s', h1, h2⟩ := send_ok s (some p) len pk r1 r2 (fun h => by cases h)
      exact ⟨s', _, h1, h2.log, .inr ⟨rfl, _, sendmsgs_attempts _ _ _, rfl⟩, h2.inv (fun q h => by cases h)⟩
  | handshake p pk r1 r2 =>
    obtain ⟨s', h1, h2⟩ := send_ok s p 0 pk r1 r2 (fun _ => rfl)
    exact ⟨s', _, h1, h2.log, ⟨_, sendmsgs_attempts _ _ _, rfl⟩, h2.inv (fun q h => by cases h)⟩
  | received iface p len re =>
    show ∃ s' l, protocolRecv s tap iface p len re = some s' ∧ _
    unfold protocolRecv
    by_cases hn : len = 0
    · rw [if_neg (by simp [hn])]
      refine ⟨s, [], rfl, by simp, ?_, id⟩
      show if _ then _ else _
      rw [if_neg (by omega)]
    · rw [if_pos hn]
      obtain ⟨h1, h2⟩ := handleReceive_ok s tap iface p len re hn
      by_cases hc : iface = true ∧ (tap = true → 14 ≤ len)
      · obtain ⟨s', g1, g2⟩ := h1 hc
        refine ⟨s', _, g1, g2.log, ?_, g2.inv (fun q h => by cases h)⟩
        show if _ then _ else _
        rw [if_pos ⟨hc.1, by omega, hc.2⟩]
      · refine ⟨s, [], h2 hc, by simp, ?_, id⟩
        show if _ then _ else _
        rw [if_neg (fun h => hc ⟨h.1, h.2.2⟩)]
  | reset p => exact ⟨_, _, rfl, rfl, rfl, resetPeer_inv⟩

/-! ## C116 -/

/-- **C116, no NULL pointer**: whatever happens, all events are handled. -/
theorem C116_safe (tap : Bool) (es : List Event) (s : St) : (run tap s es).isSome = true := by
  induction es generalizing s with
  | nil => rfl
  | cons e es ih =>
    obtain ⟨s', l, h, -⟩ := step_ok tap s e
    unfold run
    rw [h]
    exact ih s'

/-- **C116, what is done**: the log consists of what the events must lead to, in this order. -/
theorem C116_log (tap : Bool) (es : List Event) (s s' : St) (h : run tap s es = some s') :
    ∃ ls, List.Forall₂ (Effect tap) es ls ∧ s'.log = s.log ++ ls.flatten := by
  induction es generalizing s with
  | nil => cases h; exact ⟨[], .nil, by simp⟩
  | cons e es ih =>
    obtain ⟨s1, l, h1, h2, h3, -⟩ := step_ok tap s e
    unfold run at h
    rw [h1] at h
    obtain ⟨ls, h4, h5⟩ := ih s1 h
    exact ⟨l :: ls, .cons h3 h4, by rw [h5, h2, List.flatten_cons, List.append_assoc]⟩

theorem run_inv (tap : Bool) (es : List Event) (s s' : St) (hi : Inv s) (h : run tap s es = some s') : Inv s' := by
  induction es generalizing s with
  | nil => cases h; exact hi
  | cons e es ih =>
    obtain ⟨s1, l, h1, -, -, h4⟩ := step_ok tap s e
    unfold run at h
    rw [h1] at h
    exact ih s1 (h4 hi) h

theorem init_inv : Inv init := ⟨fun _ => ⟨rfl, rfl⟩, fun _ _ => ⟨rfl, rfl⟩⟩

/-- **C116, totals**: the numbers of packets and bytes are those of all packets that have been sent and received since fastd was started. -/
theorem C116_total (tap : Bool) (es : List Event) (s : St) (h : run tap init es = some s) : Agrees s.total (amounts s.log) :=
  (run_inv tap es init s init_inv h).total

/-- **C116, peers**: the numbers are those of the packets that have been sent to and received from this peer since its connection was reset the last time. -/
theorem C116_peer (tap : Bool) (es : List Event) (s : St) (p : Nat) (h : run tap init es = some s) :
    Agrees (s.peers p) (amountsOf p (since p s.log)) :=
  (run_inv tap es init s init_inv h).peers p

/-- **C116, one counter**: a payload packet that has been passed to the system counts as exactly one of sent, dropped and failed. -/
theorem C116_one (p n : Nat) (pk : Bool) (r1 r2 : Option Errno) (l : List (Option Errno)) (hl : Attempts pk r1 r2 l) (hn : n ≠ 0) :
    ∃ t, (t = .tx ∨ t = .txDropped ∨ t = .txError) ∧ ∀ u, counted (.sent (some p) n l) u = if u = t then some (p, n) else none := by
  have hr : ∃ r, l.getLast? = some r := by
    unfold Attempts at hl
    split at hl <;> subst hl <;> simp
  obtain ⟨r, hr⟩ := hr
  have key : ∀ t, fate l = some t → ∀ u, counted (.sent (some p) n l) u = if u = t then some (p, n) else none := by
    intro t ht u
    unfold counted
    simp only [ht]
    by_cases hu : u = t
    · simp [hu, hn]
    · simp [hu, show ¬ t = u from fun h => hu h.symm]
  cases r with
  | none => exact ⟨.tx, .inl rfl, key _ (by unfold fate; rw [hr])⟩
  | some e =>
    by_cases he : e = .again
    · exact ⟨.txDropped, .inr (.inl rfl), key _ (by unfold fate; rw [hr, he])⟩
    · refine ⟨.txError, .inr (.inr rfl), key _ ?_⟩
      unfold fate
      rw [hr]
      cases e <;> first | rfl | exact absurd rfl he

/-- The key of a counter -/
def keyOf : Stat → String
  | .rx => "rx"
  | .rxReordered => "rx_reordered"
  | .tx => "tx"
  | .txDropped => "tx_dropped"
  | .txError => "tx_error"

theorem toInt64_ofNat {n : Nat} (h : n < 2 ^ 63) : toInt64 (UInt64.ofNat n) = n := by
  have : (UInt64.ofNat n).toNat = n := by
    rw [UInt64.toNat_ofNat']
    exact Nat.mod_eq_of_lt (by omega)
  unfold toInt64
  rw [this, if_pos h]

/-- **C116, status**: every counter is reported under its name with the true numbers, as long as they are less than `2^63`. -/
theorem C116_status (s : Stats) (l : Stat → List (Nat × Nat)) (h : Agrees s l) (t : Stat) (hp : number (l t) < 2 ^ 63) (hb : size (l t) < 2 ^ 63) :
    ∃ j, (dumpStats s).get (str (keyOf t)) = some j ∧ j.get (str "packets") = some (.int (number (l t))) ∧ j.get (str "bytes") = some (.int (size (l t))) := by
  refine ⟨dumpStat s t, by cases t <;> rfl, ?_, ?_⟩
  · show some (Json.int (toInt64 (s.packets t))) = _
    rw [(h t).1, toInt64_ofNat hp]
  · show some (Json.int (toInt64 (s.bytes t))) = _
    rw [(h t).2, toInt64_ofNat hb]

namespace StatsDemo

/-- Packets are sent to two peers: the first one is sent, the second one only without packet info, the third one is dropped; one peer is reset; then packets are received,
one of them too late, one too short. -/
def es : List Event :=
  [.payload 1 100 true true none none, .payload 1 60 true true (some .inval) none, .payload 2 70 true false (some .again) none,
   .handshake none true (some .netunreach) (some .netunreach), .reset 1, .received true 1 90 false, .received true 1 80 true, .received true 1 10 false, .payload 2 0 true true none none]

def show_ (s : Option St) : Option (List (UInt64 × UInt64)) :=
  s.map fun s => [Stat.rx, .rxReordered, .tx, .txDropped, .txError].flatMap fun t => [(s.total.packets t, s.total.bytes t), ((s.peers 1).packets t, (s.peers 1).bytes t)]

example : show_ (run true init es) =
    some [(2, 170), (2, 170), (1, 80), (1, 80), (2, 160), (0, 0), (1, 70), (0, 0), (0, 0), (0, 0)] := by decide +kernel

end StatsDemo

end Fastd.Daemon.Stats
