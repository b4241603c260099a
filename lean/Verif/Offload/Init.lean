import Verif.Offload.SessionInit

/-!
# L2TP offload: lemmas about the initialisation
-/

namespace Fastd.L2tp

open Fastd.Netlink
open Fastd.Spec.Netlink (Msg Ack Req encode encodeAck decode l2tp name16)
open Fastd.Daemon (Addr)

theorem num_lt (l : Bytes) : Spec.Netlink.num l < 256 ^ l.length := by
  induction l with
  | nil => simp [Spec.Netlink.num]
  | cons c l ih =>
    have := UInt8.toNat_lt c
    simp only [Spec.Netlink.num, List.length_cons, Nat.pow_succ]
    omega

/-- Asking for the number of a family -/
theorem family_cases {sys : Sys} {size : Nat} (hc : Conform sys size) {fuel : Nat} {name : Bytes} {w : W} (hq : w.queue = [])
    (h0 : 0 ∉ name) (hn : name.length ≤ 15) :
    Holds (genlGetFamilyId sys fuel name) w fun x w' =>
      match x with
      | .error e => e = .fuel
      | .ok f => Keeps w w' ∧
        ((f = none ∧ w'.log = w.log ∧ SendError sys) ∨
          ∃ p m msg ds data a, decode m = some msg ∧ Spec.Netlink.control msg = some (.getFamily name) ∧ sys.answer p m = .ok ds ∧
            Answer (some .getFamily) msg.seq size ds data a ∧ w'.log = (m, ds) :: w.log ∧
            f = (Spec.Netlink.attr (data.flatMap (·.attrs)) 1).map Spec.Netlink.num) := by
  obtain ⟨m, msg, hs, hr⟩ := sends_getFamily (name := name) (seq := (w.seq + 1) % 4294967296) h0 hn (Nat.mod_lt _ (by decide))
  have hty : msg.type = 16 := by
    unfold Spec.Netlink.control at hr
    by_cases h : msg.type = 16 ∧ msg.flags = 5 ∧ msg.cmd = 3 ∧ msg.version = 1
    · exact h.1
    · rw [if_neg h] at hr; cases hr
  show Holds ((do let st ← stack sys; doNl sys fuel (getFamilyReq st name) (some .getFamily) none []) >>= fun x => pure x.2.family) w _
  have h1 : Holds (do let st ← stack sys; doNl sys fuel (getFamilyReq st name) (some .getFamily) none []) w fun x w' =>
      match x with
      | .error e => e = .fuel
      | .ok (_, s) => Keeps w w' ∧
        ((s.family = none ∧ w'.log = w.log ∧ SendError sys) ∨
          ∃ p m msg ds data a, decode m = some msg ∧ Spec.Netlink.control msg = some (.getFamily name) ∧ sys.answer p m = .ok ds ∧
            Answer (some .getFamily) msg.seq size ds data a ∧ w'.log = (m, ds) :: w.log ∧
            s.family = (Spec.Netlink.attr (data.flatMap (·.attrs)) 1).map Spec.Netlink.num) := by
    refine holds_bind (P := fun r w' => r = .ok (sys.stack w.pos) ∧ w' = { w with pos := w.pos + 1 }) ⟨rfl, rfl⟩ ?_
      (fun e w' h => by cases h.1)
    rintro st w1 ⟨h, rfl⟩
    cases h
    obtain ⟨g1, g2, g3⟩ := hs
    have hf : finish (getFamilyReq (sys.stack w.pos) name) ((w.seq + 1) % 4294967296) = some m :=
      g1 (sys.stack w.pos) (by rw [hc.stack]; exact hc.room.1)
    unfold Holds
    cases ha : sys.answer (w.pos + 1) m with
    | error e =>
      rw [doNl_error (w := { w with pos := w.pos + 1 }) hf ha]
      exact ⟨⟨rfl, rfl, rfl, rfl, hq⟩, .inl ⟨rfl, rfl, _, _, _, ha⟩⟩
    | ok ds =>
      obtain ⟨data, a, han⟩ := hc.answer _ _ _ _ g2 ha
      rw [if_pos hty] at han
      have hsz := hc.stack (w.pos + 1)
      rcases Nat.lt_or_ge data.length fuel with hl | hl
      · rw [doNl_eq (w := { w with pos := w.pos + 1 }) hc.recv (fun p => by rw [hc.stack]; exact hc.room.2) hf ha (by show Answer _ _ (sys.stack (w.pos + 1)).length ds data a; rw [hsz, ← g3]; exact han) hq hl]
        refine ⟨⟨rfl, rfl, rfl, rfl, rfl⟩, .inr ⟨_, m, msg, ds, data, a, g2, hr, ha, han, rfl, ?_⟩⟩
        simp [seen, fold_family]
      · rw [g3] at han
        obtain ⟨w', e⟩ := doNlLoop_fuel (cb := some .getFamily) (seq := (w.seq + 1) % 4294967296) (a := a) hc.recv [] data fuel (sys.stack (w.pos + 1))
          { errno := w.errno, family := none, ifname := [] }
          { w with seq := (w.seq + 1) % 4294967296, pos := w.pos + 1 + 1, queue := w.queue ++ ds, log := (m, ds) :: w.log } hl
          (by rw [hsz]; exact hc.room.2) (by rw [hsz]; exact han.data) (by rw [hsz]; exact han.size) (by simp [hq, han.eq])
        have : doNl sys fuel (getFamilyReq (sys.stack w.pos) name) (some .getFamily) none [] { w with pos := w.pos + 1 } = (.error .fuel, w') := by
          unfold doNl
          simp only [hf, ha]
          exact e
        rw [this]
  refine holds_bind h1 ?_ (fun e w' he => he)
  rintro ⟨b, s⟩ w' h
  exact h

/-- The self-test -/
theorem selftest_cases {sys : Sys} {size : Nat} (hc : Conform sys size) (hns : ¬ SendError sys) {fuel : Nat} {w : W} (hv : Valid w) :
    Holds (selftest sys fuel) w fun x w' =>
      match x with
      | .error e => Ended e
      | .ok _ => w'.sk.fds = w.sk.fds ∧ w'.queue = [] ∧ w'.family = w.family ∧ ∃ id fd e1 e2 e3 l d1 d2 d3, w'.log = e3 :: e2 :: e1 :: l ++ w.log ∧
          0 < id ∧ id < 4294967296 ∧ w.sk.fds fd = none ∧ Entry w.family e1 (.tunnelCreate id 1 3 fd) d1 0 ∧
          Entry w.family e2 (.sessionCreate id 1 1 none) d2 0 ∧ Entry w.family e3 (.sessionDelete id 1) d3 0 ∧
          ∀ e ∈ l, ∃ id data, Entry w.family e (.tunnelCreate id 1 3 fd) data 17 := by
  unfold selftest
  have hsock : Holds (net (Net.socket sys.net .inet)) w fun x w' =>
      match x with
      | .error e => e = .exit
      | .ok none => True
      | .ok (some fd) => fd < 4294967296 ∧ w' = { w with sk := w'.sk } ∧ Net.Opened w.sk.fds fd { family := .inet } w'.sk.fds := by
    unfold Holds net
    rcases Net.socket_eq sys.net .inet w.sk with ⟨k', e, h⟩ | ⟨fd, k', e, h⟩
    · rw [e]; trivial
    · rw [e]; exact ⟨hc.fds _ _ (socket_fd e), rfl, h⟩
  refine holds_bind hsock ?_ (fun e w' he => .inl he)
  rintro o w1 h1
  cases o with
  | none => exact .inl rfl
  | some fd =>
    obtain ⟨hfd, hw1, ho⟩ := h1
    have hv1 : Valid w1 := by rw [hw1]; exact hv
    have hl1 : w1.log = w.log := by rw [hw1]
    have hf1 : w1.family = w.family := by rw [hw1]
    refine holds_bind (tunnelLoop_cases hc (fuel := fuel) hfd fuel hv1) ?_ (fun e w' he => .inr he)
    rintro o w2 ⟨hk2, l, hl2, h2⟩
    have hv2 := hk2.valid hv1
    cases o with
    | none => exact .inl rfl
    | some id =>
      obtain ⟨hid0, hid, h2⟩ := h2
      refine holds_bind (sessionCreate_cases hc (fuel := fuel) (ifname := none) hv2 hid (by intro n h; cases h)) ?_ (fun e w' he => .inr he)
      rintro b w3 ⟨hk3, h3⟩
      have hv3 := hk3.valid hv2
      cases b with
      | false => exact .inl rfl
      | true =>
        refine holds_bind (sessionDelete_cases hc (fuel := fuel) hv3 hid) ?_ (fun e w' he => .inr he)
        rintro b w4 ⟨hk4, h4⟩
        cases b with
        | false => exact .inl rfl
        | true =>
          rcases h2 with ⟨h, _⟩ | ⟨e1, l', d1, rfl, g1, g2⟩
          · exact absurd h hns
          rcases h3 with ⟨_, _, h⟩ | ⟨e2, d2, r2, hl3, g3, hr2, _⟩
          · exact absurd h hns
          rcases h4 with ⟨_, _, h⟩ | ⟨e3, d3, r3, hl4, g4, hr3, _⟩
          · exact absurd h hns
          have hr2 : r2 = 0 := by simpa using hr2
          have hr3 : r3 = 0 := by simpa using hr3
          subst hr2 hr3
          rw [hk3.family, hk2.family, hf1] at g4
          rw [hk2.family, hf1] at g3
          rw [hf1] at g1 g2
          refine ⟨?_, hk4.queue, by show w4.family = _; rw [hk4.family, hk3.family, hk2.family, hf1],
            id, fd, e1, e2, e3, l', d1, d2, d3, ?_, hid0, hid, ho.1, g1, g3, g4, g2⟩
          · show (fun n => if n = fd then none else w4.sk.fds n) = w.sk.fds
            rw [hk4.sk, hk3.sk, hk2.sk, ho.2]
            funext n
            by_cases hn : n = fd
            · simp [hn, ho.1]
            · simp [hn]
          · show w4.log = _
            rw [hl4, hl3, hl2, hl1]; rfl

end Fastd.L2tp
