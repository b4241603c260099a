import Verif.Daemon.StepSpec

/-!
# What events log
-/

namespace Fastd.Daemon

set_option linter.unusedSectionVars false

variable [Env]

theorem Lg.all {E : Eff → Prop} {c c' : Ctx} {l : List Eff} (h : Lg E c c') (hl : c'.log = c.log ++ l) : ∀ e ∈ l, E e := by
  obtain ⟨l', hl', he⟩ := h.log
  have : l' = l := List.append_cancel_left (hl'.symm.trans hl)
  subst this
  exact he

theorem log_same {c c' : Ctx} {l : List Eff} (h : c'.log = c.log) (hl : c'.log = c.log ++ l) : l = [] := by
  rw [h] at hl
  exact List.append_right_eq_self.1 hl.symm

/-- Effects of events other than receiving a packet. -/
def Eff.calm : Eff → Bool
  | .send .. | .disestablished _ | .hsInit .. | .encrypt .. => true
  | _ => false

theorem Eff.calm_of_plain {e : Eff} (h : e.plain = true) : e.calm = true := by
  cases e <;> simp_all [Eff.plain, Eff.calm]

def Event.isRecv : Event → Bool
  | .recv .. => true
  | _ => false

/-- Only received packets can lead to sessions, decryption, or packets for the interface. -/
theorem StepRes.calm {e : Event} {c c' : Ctx} (h : StepRes e c c') (hr : e.isRecv = false) {l : List Eff}
    (hl : c'.log = c.log ++ l) : ∀ f ∈ l, f.calm = true := by
  have nil : c'.log = c.log → ∀ f ∈ l, f.calm = true := by
    intro h f hf
    rw [log_same h hl] at hf; cases hf
  cases e with
  | tick d => exact nil (by rw [show c' = _ from h])
  | task i =>
    obtain ⟨p, _, _, _, hE⟩ := h
    exact (hE (fun f => f.calm = true) (fun _ => Eff.calm_of_plain) (fun _ => rfl) fun _ _ => rfl).all hl
  | maintenance => exact nil (by rw [show c' = _ from h])
  | recv => cases hr
  | iface o d =>
    obtain ⟨_, _, _, _, hE⟩ := h
    exact (hE (fun f => f.calm = true) ⟨fun _ => Eff.calm_of_plain, fun _ _ _ _ _ => rfl⟩).lg.all hl
  | resolved k a =>
    obtain ⟨_, _, hE⟩ := h
    exact (hE (fun f => f.calm = true)).lg.all hl
  | verified k ok =>
    obtain ⟨_, _, hE⟩ := h
    exact (hE (fun f => f.calm = true) fun _ => Eff.calm_of_plain).lg.all hl
  | reload d => exact (h.2.2 (fun f => f.calm = true) fun _ => Eff.calm_of_plain).all hl
  | resetAll => exact (h.2 (fun f => f.calm = true) fun _ => Eff.calm_of_plain).all hl

/-- Effects of handshakes. -/
def Eff.ofHs : Eff → Bool
  | .send .. | .disestablished _ | .session .. | .established _ | .encrypt _ _ [] => true
  | _ => false

theorem Eff.ofHs_of_plain {e : Eff} (h : e.plain = true) : e.ofHs = true := by
  cases e <;> simp_all [Eff.plain, Eff.ofHs]

theorem HsRes.ofHs {sock : Sock} {loc rem : Addr} {peer : Option Nat} {pkt : Bytes} {b : Bool} {c c' : Ctx}
    (h : HsRes sock loc rem peer pkt b c c') {l : List Eff} (hl : c'.log = c.log ++ l) : ∀ f ∈ l, f.ofHs = true := by
  cases h with
  | drop _ hc => intro f hf; rw [log_same (by rw [hc]) hl] at hf; cases hf
  | error t f code d _ m hf _ => exact (hf (fun f => f.ofHs = true) fun _ => Eff.ofHs_of_plain).lg.all hl
  | pass hs _ fresh hE =>
    refine (hE (fun f => f.ofHs = true) ⟨fun _ => Eff.ofHs_of_plain, ?_⟩).all hl
    intros
    exact ⟨fun _ => Eff.ofHs_of_plain, rfl, rfl, fun _ => rfl⟩

/-- The state and sender a packet was decrypted for. -/
theorem StepRes.decrypt {e : Event} {c c' : Ctx} (h : StepRes e c c') {l : List Eff} (hl : c'.log = c.log ++ l) {i k : Nat}
    {d : Bytes} (hm : .tryDecrypt i k d ∈ l ∨ .accept i k d ∈ l) :
    ∃ sock loc rem pkt b p, e = .recv sock loc rem pkt ∧ payload pkt = some (d, b) ∧ Sender c sock rem (some p.id) ∧
      p ∈ c.peers ∧ p.id = i ∧ p.state = .established ∧ addrEq p.localAddr loc = true ∧
      (∃ t, d.head? = some t ∧ isDataPacket t = true) ∧ k ∈ p.refs ∧ RecvRes p d c c' := by
  cases hr : e.isRecv with
  | false =>
    have := h.calm hr hl
    rcases hm with hm | hm <;> cases this _ hm
  | true =>
    cases e with
    | recv sock loc rem pkt =>
      have hr : RecvEv sock loc rem pkt c c' := h
      rcases hr with ⟨hc, _⟩ | ⟨peer, q, b, hs, hp, hr⟩
      · have := log_same (by rw [hc]) hl
        subst this
        rcases hm with hm | hm <;> cases hm
      · cases hr with
        | ignored hc =>
          have := log_same (by rw [hc]) hl
          subst this
          rcases hm with hm | hm <;> cases hm
        | data p hpm hi he hloc t ht hd hr hf =>
          have := (hf (fun f => match f with
            | .tryDecrypt j k d | .accept j k d => j = p.id ∧ k ∈ p.refs ∧ d = q
            | _ => True) ⟨⟨fun f _ => by cases f <;> first | trivial | (simp_all [Eff.plain]), fun _ => trivial, fun _ _ _ _ _ => trivial⟩,
              fun k hk => ⟨rfl, hk, rfl⟩, fun k hk => ⟨rfl, hk, rfl⟩⟩).lg.all hl
          have key : p.id = i ∧ k ∈ p.refs ∧ q = d := by
            rcases hm with hm | hm
            · obtain ⟨h1, h2, h3⟩ := this _ hm; exact ⟨h1.symm, h2, h3.symm⟩
            · obtain ⟨h1, h2, h3⟩ := this _ hm; exact ⟨h1.symm, h2, h3.symm⟩
          obtain ⟨h1, h2, rfl⟩ := key
          exact ⟨sock, loc, rem, pkt, b, p, rfl, hp, hi ▸ hs, hpm, h1, he, hloc, ⟨t, ht, hd⟩, h2, hr⟩
        | handshake ht hn hr =>
          have := hr.ofHs hl
          rcases hm with hm | hm <;> cases this _ hm
        | unknown t ht hd hn hs hsock hf r hb hl' ho he =>
          have := (hf (fun f => f.calm = true) (fun _ => Eff.calm_of_plain) rfl).lg.all hl
          rcases hm with hm | hm <;> cases this _ hm
    | _ => cases hr

end Fastd.Daemon
