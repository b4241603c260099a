import Verif.Props.Suite
import Verif.Props.Nonce
import Mathlib.Data.List.Perm.Subperm
import Mathlib.Data.List.Nodup

/-!
# C110: a session over an unreliable network

Both ends of a session, which send and receive packets of one method at any times, and a network that loses, repeats, delays and reorders packets and delivers
packets of others. The only thing the network does not do is to send packets back to where they come from (see C02 for this).
-/

namespace Fastd.Method.Tunnel

open Fastd.Spec Fastd.Method

/-- The ends are `true` (the initiator of the session) and `false`. `sent` is what each of them has sent: packets with their payloads. `got` are the payloads
that each of them has received; duplicates, which have an empty payload then, are not among them. `arrived` are all the packets that were delivered to each. -/
structure World where
  com : Bool → Common
  sent : Bool → List (Bytes × Bytes)
  got : Bool → List Bytes
  arrived : Bool → List Bytes

/-- Change of one end -/
def upd {α : Type} (f : Bool → α) (e : Bool) (x : α) : Bool → α := fun b => if b = e then x else f b

/-- What a received packet changes -/
def World.received (w : World) (e : Bool) (pkt : Bytes) : Recv → World
  | .reject => { w with arrived := upd w.arrived e (pkt :: w.arrived e) }
  | .payload p s (some _) => { w with com := upd w.com e s, got := upd w.got e (w.got e ++ [p]), arrived := upd w.arrived e (pkt :: w.arrived e) }
  | .payload _ s none => { w with com := upd w.com e s, arrived := upd w.arrived e (pkt :: w.arrived e) }

/-- A packet that does not open under any number it may contain: it was not made with the keys of the session. -/
def Foreign (a : Aead) (pkt : Bytes) : Prop := ∀ t f (n : Nonce) c, pkt = t :: f :: (n.toList ++ c) → a.dec n c = none

/-- What may happen: an end sends a payload while its session is valid; the network delivers any packet sent by the other end, or a foreign one, at any time;
the session is superseded by a newer one. -/
inductive Step (a : Aead) : World → World → Prop
  | send (w : World) (e : Bool) (now : Time) (p : Bytes) (n : Nonce) (s : Common) (h : send (w.com e) now = some (n, s)) :
      Step a w { w with com := upd w.com e s, sent := upd w.sent e (w.sent e ++ [(packet a (w.com e) p, p)]) }
  | deliver (w : World) (e : Bool) (now : Time) (pkt p : Bytes) (h : (pkt, p) ∈ w.sent (!e)) : Step a w (w.received e pkt (recv a (w.com e) now pkt))
  | foreign (w : World) (e : Bool) (now : Time) (pkt : Bytes) (h : Foreign a pkt) : Step a w (w.received e pkt (recv a (w.com e) now pkt))
  | supersede (w : World) (e : Bool) (now : Time) : Step a w { w with com := upd w.com e ((w.com e).superseded now) }

/-- A new session, set up at both ends at some times -/
def World.fresh (compat : Bool) (t0 splay : Bool → Time) : World where
  com e := Common.init e compat (t0 e) (splay e)
  sent _ := []
  got _ := []
  arrived _ := []

inductive Reach (a : Aead) (compat : Bool) (t0 splay : Bool → Time) : World → Prop
  | fresh : Reach a compat t0 splay (World.fresh compat t0 splay)
  | step {w w' : World} (h : Reach a compat t0 splay w) (h' : Step a w w') : Reach a compat t0 splay w'

/-! ### Invariant -/

def pktOf (a : Aead) (compat : Bool) (x : Nonce × Bytes) : Bytes := packetType compat :: 0 :: (x.1.toList ++ a.enc x.1 x.2)

def first (e : Bool) : Nat := if e then 3 else 2

/-- `L`: numbers and payloads sent; `G`: those received, the last one first -/
structure Inv (a : Aead) (compat : Bool) (L G : Bool → List (Nonce × Bytes)) (w : World) (e : Bool) : Prop where
  sent : w.sent e = (L e).map fun x => (pktOf a compat x, x.2)
  numbers : ∀ i (h : i < (L e).length), (L e)[i].1.val = first e + 2 * i
  next : (w.com e).sendNonce.val = first e + 2 * (L e).length
  got : w.got e = ((G e).map (·.2)).reverse
  nodup : ((G e).map (·.1)).Nodup
  mem : ∀ x ∈ G e, x ∈ L (!e)
  arrived : ∀ x ∈ G e, pktOf a compat x ∈ w.arrived e
  win : Win (w.com e) ((G e).map (·.1.val) ++ [otherParity e])
  parity : (w.com e).receiveNonce.val % 2 = otherParity e
  compat : (w.com e).compat = compat

theorem receive_compat (s : Common) (now : Time) (n : Nonce) : (receive s now n).2.compat = s.compat := by
  unfold receive
  split
  · split
    · rfl
    · rename_i age _
      have : (reorderCheck s now n age).2.compat = s.compat := by
        unfold reorderCheck
        split
        · rfl
        · split <;> rfl
      split <;> (rename_i h; rw [h] at this; exact this)
  · rfl

theorem superseded_compat (s : Common) (now : Time) : (s.superseded now).compat = s.compat := by
  unfold Common.superseded
  simp only []
  split <;> rfl

theorem upd_same {α : Type} (f : Bool → α) (e : Bool) (x : α) : upd f e x e = x := by simp [upd]

theorem upd_other {α : Type} (f : Bool → α) {e b : Bool} (h : b ≠ e) (x : α) : upd f e x b = f b := by simp [upd, h]

theorem number_parity {a : Aead} {compat : Bool} {L G : Bool → List (Nonce × Bytes)} {w : World} {e : Bool} (h : Inv a compat L G w (!e)) {x : Nonce × Bytes}
    (hx : x ∈ L (!e)) : x.1.val % 2 = otherParity e := by
  obtain ⟨i, hi, rfl⟩ := List.getElem_of_mem hx
  rw [h.numbers i hi]
  cases e <;> simp [first, otherParity]

/-- Delivery of a packet that was sent -/
theorem recv_sent {a : Aead} (ha : a.Sound) (compat : Bool) (s : Common) (hs : s.compat = compat) (now : Time) (x : Nonce × Bytes) :
    recv a s now (pktOf a compat x) = match receive s now x.1 with
      | (.rejected, _) => .reject
      | (.inOrder, s') => .payload x.2 s' (some false)
      | (.reordered, s') => .payload x.2 s' (some true)
      | (.duplicate, s') => .payload [] s' none := by
  have := C62_delivery a ha { s with sendNonce := x.1 } s now x.2 rfl
  have e : packet a { s with sendNonce := x.1 } x.2 = pktOf a compat x := by
    unfold packet pktOf
    simp [hs]
  rw [e] at this
  rw [this]
  rcases receive s now x.1 with ⟨_ | _ | _ | _, s'⟩ <;> rfl

theorem recv_foreign {a : Aead} {pkt : Bytes} (h : Foreign a pkt) (s : Common) (now : Time) : recv a s now pkt = .reject := by
  rcases pkt with _ | ⟨t, _ | ⟨f, _ | ⟨n0, _ | ⟨n1, _ | ⟨n2, _ | ⟨n3, _ | ⟨n4, _ | ⟨n5, c⟩⟩⟩⟩⟩⟩⟩⟩ <;> try rfl
  have hd := h t f #v[n0, n1, n2, n3, n4, n5] c rfl
  simp only [recv, hd]
  split
  · rcases receive s now #v[n0, n1, n2, n3, n4, n5] with ⟨_ | _ | _ | _, s'⟩ <;> rfl
  · rfl

theorem Inv.congr {a : Aead} {compat : Bool} {L G L' G' : Bool → List (Nonce × Bytes)} {w w' : World} {e : Bool} (h : Inv a compat L G w e)
    (h1 : w'.com e = w.com e) (h2 : w'.sent e = w.sent e) (h3 : w'.got e = w.got e) (h4 : L' e = L e) (h5 : G' e = G e) (h6 : ∀ x ∈ L (!e), x ∈ L' (!e))
    (h7 : ∀ x ∈ w.arrived e, x ∈ w'.arrived e) :
    Inv a compat L' G' w' e where
  sent := by rw [h2, h4]; exact h.sent
  numbers := by rw [h4]; exact h.numbers
  next := by rw [h1, h4]; exact h.next
  got := by rw [h3, h5]; exact h.got
  nodup := by rw [h5]; exact h.nodup
  mem := by rw [h5]; exact fun x hx => h6 x (h.mem x hx)
  arrived := by rw [h5]; exact fun x hx => h7 _ (h.arrived x hx)
  win := by rw [h1, h5]; exact h.win
  parity := by rw [h1]; exact h.parity
  compat := by rw [h1]; exact h.compat

theorem bool_cases (e b : Bool) : b = e ∨ b = !e := by cases e <;> cases b <;> simp

theorem not_self_ne (e : Bool) : (!e) ≠ e := by cases e <;> decide

theorem deliver_inv {a : Aead} (ha : a.Sound) {compat : Bool} {L G : Bool → List (Nonce × Bytes)} {w : World} (h : ∀ e, Inv a compat L G w e) (e : Bool)
    (now : Time) (x : Nonce × Bytes) (hx : x ∈ L (!e)) :
    ∃ G', ∀ b, Inv a compat L G' (w.received e (pktOf a compat x) (recv a (w.com e) now (pktOf a compat x))) b := by
  have he := h e
  have hpar := number_parity (h (!e)) hx
  have hc := receive_compat (w.com e) now x.1
  rw [recv_sent ha compat _ he.compat]
  have more : ∀ b, ∀ y ∈ w.arrived b, y ∈ upd w.arrived e (pktOf a compat x :: w.arrived e) b := by
    intro b y hy
    rcases bool_cases e b with rfl | rfl
    · rw [upd_same]; exact List.mem_cons_of_mem _ hy
    · rw [upd_other _ (not_self_ne e)]; exact hy
  have same : ∀ b, Inv a compat L G { w with arrived := upd w.arrived e (pktOf a compat x :: w.arrived e) } b :=
    fun b => (h b).congr rfl rfl rfl rfl rfl (fun _ h => h) (more b)
  have keep : ∀ s, s.compat = (w.com e).compat → s.sendNonce = (w.com e).sendNonce → ∀ y : Nonce × Bytes, y = x →
      Win s (y.1.val :: ((G e).map (·.1.val) ++ [otherParity e])) → s.receiveNonce.val % 2 = otherParity e → y.1.val ∉ (G e).map (·.1.val) ++ [otherParity e] →
      ∀ b, Inv a compat L (upd G e (x :: G e)) { w with com := upd w.com e s, got := upd w.got e (w.got e ++ [x.2]), arrived := upd w.arrived e (pktOf a compat x :: w.arrived e) } b := by
    rintro s hs1 hs2 y rfl hwin hs4 hnot b
    rcases bool_cases e b with rfl | rfl
    · constructor
      · exact he.sent
      · exact he.numbers
      · simp only [upd_same]; rw [hs2]; exact he.next
      · simp only [upd_same]; rw [he.got]; simp
      · simp only [upd_same, List.map_cons, List.nodup_cons]
        refine ⟨?_, he.nodup⟩
        intro hm
        apply hnot
        obtain ⟨z, hz, e⟩ := List.mem_map.1 hm
        exact List.mem_append_left _ (List.mem_map.2 ⟨z, hz, by rw [e]⟩)
      · simp only [upd_same]
        intro z hz
        rcases List.mem_cons.1 hz with rfl | hz
        · exact hx
        · exact he.mem z hz
      · simp only [upd_same]
        intro z hz
        rcases List.mem_cons.1 hz with rfl | hz
        · exact List.mem_cons_self
        · exact List.mem_cons_of_mem _ (he.arrived z hz)
      · simp only [upd_same]; exact hwin
      · simp only [upd_same]; exact hs4
      · simp only [upd_same]; exact hs1.trans he.compat
    · exact (h (!e)).congr (upd_other _ (not_self_ne e) _) rfl (upd_other _ (not_self_ne e) _) rfl (upd_other _ (not_self_ne e) _) (fun _ h => h)
        (more (!e))
  have hp : x.1.val % 2 = (w.com e).receiveNonce.val % 2 := by rw [hpar, he.parity]
  rcases receive_cases (w.com e) _ now x.1 he.win hp with ⟨_, e1⟩ | ⟨_, _, hlt, s', e1, w1, w2, _, w4, _⟩ | ⟨_, _, _, _, e1⟩ | ⟨_, _, _, _, _, e1⟩ |
    ⟨_, _, _, _, hnot, s', e1, w1, w2, _, w4, _⟩
  · rw [e1]; exact ⟨G, same⟩
  · rw [e1] at hc ⊢
    refine ⟨_, keep s' hc w4 x rfl w1 (by rw [w2]; exact hpar) ?_⟩
    intro hm
    exact absurd (he.win.le _ hm) (by omega)
  · rw [e1]; exact ⟨G, same⟩
  · rw [e1]
    refine ⟨G, fun b => ?_⟩
    have : upd w.com e (w.com e) = w.com := by funext b; unfold upd; split <;> simp_all
    show Inv a compat L G { w with com := upd w.com e (w.com e), arrived := upd w.arrived e (pktOf a compat x :: w.arrived e) } b
    rw [this]
    exact same b
  · rw [e1] at hc ⊢
    exact ⟨_, keep s' hc w4 x rfl w1 (by rw [w2]; exact he.parity) hnot⟩

theorem reach_inv {a : Aead} (ha : a.Sound) {compat : Bool} {t0 splay : Bool → Time} {w : World} (h : Reach a compat t0 splay w) :
    ∃ L G, ∀ e, Inv a compat L G w e := by
  induction h with
  | fresh =>
    refine ⟨fun _ => [], fun _ => [], fun e => ?_⟩
    constructor
    · rfl
    · intro i hi; cases hi
    · cases e <;> rfl
    · rfl
    · exact List.nodup_nil
    · intro x hx; cases hx
    · intro x hx; cases hx
    · exact init_win e compat (t0 e) (splay e)
    · show (Common.init e compat (t0 e) (splay e)).receiveNonce.val % 2 = _
      rw [init_receive_val]; cases e <;> rfl
    · rfl
  | @step w w' _ hs ih =>
    obtain ⟨L, G, h⟩ := ih
    cases hs with
    | send e now p n s hsend =>
      obtain ⟨_, rfl, rfl, hv⟩ := send_effect hsend
      have he := h e
      refine ⟨upd L e (L e ++ [((w.com e).sendNonce, p)]), G, fun b => ?_⟩
      rcases bool_cases e b with rfl | rfl
      · constructor
        · simp only [upd_same, List.map_append, he.sent, List.map_cons, List.map_nil]
          congr 3
          unfold packet pktOf
          simp [he.compat]
        · simp only [upd_same]
          intro i hi
          rw [List.length_append, List.length_singleton] at hi
          rw [List.getElem_append]
          split
          · next hl => exact he.numbers i hl
          · next hl =>
            have : i = (L b).length := by omega
            simp only [List.getElem_singleton]
            rw [he.next, this]
        · simp only [upd_same, List.length_append, List.length_singleton]
          rw [hv, he.next]; omega
        · exact he.got
        · exact he.nodup
        · intro x hx
          rw [upd_other _ (not_self_ne b)]
          exact he.mem x hx
        · exact he.arrived
        · simp only [upd_same]; exact win_congr (s := w.com b) rfl rfl he.win
        · simp only [upd_same]; exact he.parity
        · simp only [upd_same]; exact he.compat
      · refine (h (!e)).congr (upd_other _ (not_self_ne e) _) (upd_other _ (not_self_ne e) _) rfl (upd_other _ (not_self_ne e) _) rfl ?_ (fun _ h => h)
        intro x hx
        rw [Bool.not_not] at hx ⊢
        rw [upd_same]
        exact List.mem_append_left _ hx
    | deliver e now pkt p hm =>
      rw [(h (!e)).sent] at hm
      obtain ⟨x, hx, hxe⟩ := List.mem_map.1 hm
      injection hxe with h1 h2
      subst h1
      obtain ⟨G', h'⟩ := deliver_inv ha h e now x hx
      exact ⟨L, G', h'⟩
    | foreign e now pkt hf =>
      rw [recv_foreign hf]
      refine ⟨L, G, fun b => (h b).congr rfl rfl rfl rfl rfl (fun _ h => h) ?_⟩
      intro y hy
      show y ∈ upd w.arrived e (pkt :: w.arrived e) b
      rcases bool_cases e b with rfl | rfl
      · rw [upd_same]; exact List.mem_cons_of_mem _ hy
      · rw [upd_other _ (not_self_ne e)]; exact hy
    | supersede e now =>
      have he := h e
      obtain ⟨h1, h2, h3, h4, h5⟩ := superseded_fields (w.com e) now
      refine ⟨L, G, fun b => ?_⟩
      rcases bool_cases e b with rfl | rfl
      · constructor
        · exact he.sent
        · exact he.numbers
        · simp only [upd_same, h1]; exact he.next
        · exact he.got
        · exact he.nodup
        · exact he.mem
        · exact he.arrived
        · simp only [upd_same]; exact win_congr h2 h4 he.win
        · simp only [upd_same, h2]; exact he.parity
        · simp only [upd_same, superseded_compat]; exact he.compat
      · exact (h (!e)).congr (upd_other _ (not_self_ne e) _) rfl rfl rfl rfl (fun _ h => h) (fun _ h => h)

/-! ### C110 -/

/-- **C110, at most once.** Whatever the network does, each end only receives what the other one has sent, unchanged and not more often than it was sent: the
payloads received are, in some order, some of the payloads sent. -/
theorem C110_at_most_once {a : Aead} (ha : a.Sound) {compat : Bool} {t0 splay : Bool → Time} {w : World} (h : Reach a compat t0 splay w) (e : Bool) :
    (w.got e).Subperm ((w.sent (!e)).map (·.2)) := by
  obtain ⟨L, G, hi⟩ := reach_inv ha h
  have h1 : (G e).Nodup := List.Nodup.of_map _ (hi e).nodup
  have h2 : (G e).Subperm (L (!e)) := List.subperm_of_subset h1 (hi e).mem
  rw [(hi e).got, (hi (!e)).sent, List.map_map]
  obtain ⟨l, hl1, hl2⟩ := h2
  exact (List.reverse_perm _).subperm.trans ⟨l.map (·.2), hl1.map _, hl2.map _⟩

theorem getElem_split {α : Type} {l pre post : List α} {x : α} (h : l = pre ++ x :: post) : ∃ h : pre.length < l.length, l[pre.length] = x := by
  subst h
  exact ⟨by simp, by simp⟩

/-- **C110, new packets arrive.** A packet that is delivered to an end with a valid session, and before all packets sent after it, is received with its payload,
however many of the packets before it were lost, late or repeated; as long as fewer than 2^39 - 2 packets were sent (see C03). -/
theorem C110_newest {a : Aead} (ha : a.Sound) {compat : Bool} {t0 splay : Bool → Time} {w : World} (h : Reach a compat t0 splay w) (e : Bool) (now : Time)
    (hv : (w.com e).isValid now = true) (pre post : List (Bytes × Bytes)) (pkt p : Bytes) (hs : w.sent (!e) = pre ++ (pkt, p) :: post)
    (hmax : (w.sent (!e)).length < 2 ^ 39 - 2) (hnew : ∀ x ∈ (pkt, p) :: post, x.1 ∉ w.arrived e) :
    ∃ s, recv a (w.com e) now pkt = .payload p s (some false) := by
  obtain ⟨L, G, hi⟩ := reach_inv ha h
  have he := hi e
  have ho := hi (!e)
  have hlen : (w.sent (!e)).length = (L (!e)).length := by rw [ho.sent, List.length_map]
  have hat : ∀ j (hj : j < (L (!e)).length) (hj' : j < (w.sent (!e)).length), (w.sent (!e))[j] = (pktOf a compat (L (!e))[j], (L (!e))[j].2) := by
    intro j hj hj'
    simp only [ho.sent, List.getElem_map]
  obtain ⟨hk, hx⟩ := getElem_split hs
  have hk' : pre.length < (L (!e)).length := by omega
  rw [hat _ hk' hk] at hx
  injection hx with hx1 hx2
  have hval := ho.numbers _ hk'
  have hpar := number_parity ho (List.getElem_mem hk')
  have hfirst : otherParity e < first (!e) ∧ first (!e) ≤ 3 := by cases e <;> decide
  have hlt : (w.com e).receiveNonce.val < (L (!e))[pre.length].1.val := by
    have hm := he.win.mem
    rw [List.mem_append] at hm
    rcases hm with hm | hm
    · obtain ⟨x, hxG, hxv⟩ := List.mem_map.1 hm
      obtain ⟨j, hj, rfl⟩ := List.getElem_of_mem (he.mem x hxG)
      have hja := he.arrived _ hxG
      by_cases hjl : j < pre.length
      · rw [← hxv, ho.numbers j hj, hval]; omega
      · exfalso
        have hj' : j < (w.sent (!e)).length := by omega
        apply hnew (w.sent (!e))[j] _ (by rw [hat j hj hj']; exact hja)
        simp only [hs]
        rw [List.getElem_append_right (by omega)]
        exact List.getElem_mem _
    · rw [List.mem_singleton] at hm
      rw [hm, hval]; omega
  have htop : topMatch (w.com e) (L (!e))[pre.length].1 := by
    unfold topMatch
    have h1 : (L (!e))[pre.length].1.val < 2 ^ 40 := by rw [hval]; omega
    rw [Nat.div_eq_of_lt h1, Nat.div_eq_of_lt (by omega)]
  rw [← hx1, recv_sent ha compat _ he.compat, hx2]
  rcases receive_cases (w.com e) _ now (L (!e))[pre.length].1 he.win (by rw [hpar, he.parity]) with ⟨h1 | h1, e1⟩ | ⟨_, _, _, s', e1, _⟩ | ⟨_, _, h1, _⟩ |
    ⟨_, _, h1, _⟩ | ⟨_, _, h1, _⟩
  · rw [hv] at h1; cases h1
  · exact absurd htop h1
  · rw [e1]; exact ⟨s', rfl⟩
  · omega
  · omega
  · omega

theorem arrived_from {a : Aead} {compat : Bool} {t0 splay : Bool → Time} {w : World} (h : Reach a compat t0 splay w) :
    ∀ e, ∀ x ∈ w.arrived e, Foreign a x ∨ ∃ p, (x, p) ∈ w.sent (!e) := by
  have recvd : ∀ (w : World) (e : Bool) (pkt : Bytes) (r : Recv), (w.received e pkt r).sent = w.sent ∧
      ∀ b, ∀ x ∈ (w.received e pkt r).arrived b, x ∈ w.arrived b ∨ (b = e ∧ x = pkt) := by
    intro w e pkt r
    have : (w.received e pkt r).sent = w.sent ∧ (w.received e pkt r).arrived = upd w.arrived e (pkt :: w.arrived e) := by
      rcases r with _ | ⟨p, s, _ | _⟩ <;> exact ⟨rfl, rfl⟩
    refine ⟨this.1, ?_⟩
    rw [this.2]
    intro b x hx
    rcases bool_cases e b with rfl | rfl
    · rw [upd_same] at hx
      rcases List.mem_cons.1 hx with rfl | hx
      · exact Or.inr ⟨rfl, rfl⟩
      · exact Or.inl hx
    · rw [upd_other _ (not_self_ne e)] at hx
      exact Or.inl hx
  induction h with
  | fresh => intro e x hx; cases hx
  | @step w w' _ hs ih =>
    cases hs with
    | send e now p n s hsend =>
      intro b x hx
      rcases ih b x hx with h | ⟨q, hq⟩
      · exact Or.inl h
      · refine Or.inr ⟨q, ?_⟩
        show (x, q) ∈ upd w.sent e _ (!b)
        by_cases hb : (!b) = e
        · rw [hb, upd_same, ← hb]; exact List.mem_append_left _ hq
        · rw [upd_other _ hb]; exact hq
    | deliver e now pkt p hm =>
      obtain ⟨h1, h2⟩ := recvd w e pkt (recv a (w.com e) now pkt)
      rw [h1]
      intro b x hx
      rcases h2 b x hx with hx | ⟨rfl, rfl⟩
      · exact ih b x hx
      · exact Or.inr ⟨p, hm⟩
    | foreign e now pkt hf =>
      obtain ⟨h1, h2⟩ := recvd w e pkt (recv a (w.com e) now pkt)
      rw [h1]
      intro b x hx
      rcases h2 b x hx with hx | ⟨rfl, rfl⟩
      · exact ih b x hx
      · exact Or.inl hf
    | supersede e now => exact ih

theorem pktOf_inj {a : Aead} {compat : Bool} {x y : Nonce × Bytes} (h : pktOf a compat x = pktOf a compat y) : x.1 = y.1 := by
  unfold pktOf at h
  injection h with _ h
  injection h with _ h
  have := (List.append_inj h (by simp)).1
  exact Vector.toList_inj.1 this

/-- **C110, nothing is lost on a good network.** If everything an end has sent so far has arrived, in the same order, then this is the case again after it
has sent another payload and the packet has been delivered while the session is valid at both ends. -/
theorem C110_lossless {a : Aead} (ha : a.Sound) {compat : Bool} {t0 splay : Bool → Time} {w : World} (h : Reach a compat t0 splay w) (e : Bool)
    (hall : w.got e = (w.sent (!e)).map (·.2)) (hmax : (w.sent (!e)).length < 2 ^ 39 - 3) (now now' : Time) (p : Bytes)
    (hv : (w.com (!e)).isValid now = true) (hv' : (w.com e).isValid now' = true) :
    ∃ w1 w2, Step a w w1 ∧ w1.sent (!e) = w.sent (!e) ++ [(packet a (w.com (!e)) p, p)] ∧
      w2 = w1.received e (packet a (w.com (!e)) p) (recv a (w1.com e) now' (packet a (w.com (!e)) p)) ∧ Step a w1 w2 ∧
      w2.got e = (w2.sent (!e)).map (·.2) := by
  have hsend : send (w.com (!e)) now = some ((w.com (!e)).sendNonce, { w.com (!e) with sendNonce := incrNonce (w.com (!e)).sendNonce }) := by
    unfold send; rw [if_pos hv]
  have st := Step.send (a := a) w (!e) now p _ _ hsend
  generalize hw1 : ({ w with com := upd w.com (!e) { w.com (!e) with sendNonce := incrNonce (w.com (!e)).sendNonce }, sent := upd w.sent (!e) (w.sent (!e) ++ [(packet a (w.com (!e)) p, p)]) } : World) = w1 at st
  have hs1 : w1.sent (!e) = w.sent (!e) ++ [(packet a (w.com (!e)) p, p)] := by rw [← hw1]; exact upd_same _ _ _
  have hc1 : w1.com e = w.com e := by rw [← hw1]; exact upd_other _ (not_self_ne e).symm _
  have hg1 : w1.got e = w.got e := by rw [← hw1]
  have ha1 : w1.arrived e = w.arrived e := by rw [← hw1]
  have hr1 : Reach a compat t0 splay w1 := h.step st
  have hin : (packet a (w.com (!e)) p, p) ∈ w1.sent (!e) := by rw [hs1]; simp
  obtain ⟨s, hs⟩ := C110_newest ha hr1 e now' (by rw [hc1]; exact hv') (w.sent (!e)) [] (packet a (w.com (!e)) p) p hs1 (by rw [hs1]; simp; omega) (by
    intro x hx
    rw [List.mem_singleton] at hx
    subst hx
    rw [ha1]
    obtain ⟨L, G, hi⟩ := reach_inv ha h
    have ho := hi (!e)
    have hpk : packet a (w.com (!e)) p = pktOf a compat ((w.com (!e)).sendNonce, p) := by unfold packet pktOf; simp [ho.compat]
    intro hm
    rcases arrived_from h e _ hm with hf | ⟨q, hq⟩
    · have hd := hf (packetType compat) 0 (w.com (!e)).sendNonce (a.enc (w.com (!e)).sendNonce p) hpk
      rw [ha] at hd
      cases hd
    · rw [ho.sent] at hq
      obtain ⟨y, hy, hye⟩ := List.mem_map.1 hq
      injection hye with h1 h2
      rw [hpk] at h1
      obtain ⟨j, hj, rfl⟩ := List.getElem_of_mem hy
      have hv1 := ho.numbers j hj
      rw [pktOf_inj h1, ho.next] at hv1
      omega)
  refine ⟨w1, _, st, hs1, rfl, Step.deliver w1 e now' _ p hin, ?_⟩
  rw [hs]
  show upd w1.got e (w1.got e ++ [p]) e = (w1.sent (!e)).map (·.2)
  rw [upd_same, hg1, hall, hs1]
  simp

/-- All this holds for every method with every cipher, see `C108_encrypt` and `C108_decrypt` for the packets. -/
theorem C110_methods {lib : Suite.Lib} {b : Spec.Suite.BlockCipher} (hl : Suite.LibOk lib b) (m : Spec.Suite.Meth) (secret : Bytes) {compat : Bool}
    {t0 splay : Bool → Time} {w : World} (h : Reach (m.aead b lib.poly1305 secret) compat t0 splay w) (e : Bool) :
    (w.got e).Subperm ((w.sent (!e)).map (·.2)) :=
  C110_at_most_once (Suite.aead_sound hl m secret) h e

/-- Two payloads are sent, the packets change places and the second one is repeated: both payloads are received once. -/
example : ∃ w, Reach (Spec.Suite.Meth.aead (fun _ _ _ => 0) (fun _ _ => []) ((List.range 32).map UInt8.ofNat) (.genericGmac .salsa2012)) false (fun _ => 0) (fun _ => 0) w ∧
    (w.sent true).map (·.2) = [[1], [2]] ∧ w.got false = [[2], [1]] ∧ (w.arrived false).length = 3 := by
  let a := Spec.Suite.Meth.aead (fun _ _ _ => 0) (fun _ _ => []) ((List.range 32).map UInt8.ofNat) (.genericGmac .salsa2012)
  let w0 := World.fresh false (fun _ => 0) (fun _ => 0)
  let n0 := (w0.com true).sendNonce
  let s1 : Common := { w0.com true with sendNonce := incrNonce n0 }
  let s2 : Common := { s1 with sendNonce := incrNonce s1.sendNonce }
  let p1 := packet a (w0.com true) [1]
  let p2 := packet a s1 [2]
  have r0 : Reach a false (fun _ => 0) (fun _ => 0) w0 := .fresh
  have r1 := r0.step (Step.send w0 true 1 [1] n0 s1 (by decide +kernel))
  have r2 := r1.step (Step.send _ true 2 [2] s1.sendNonce s2 (by decide +kernel))
  have r3 := r2.step (Step.deliver _ false 3 p2 [2] (by decide +kernel))
  have r4 := r3.step (Step.deliver _ false 4 p1 [1] (by decide +kernel))
  have r5 := r4.step (Step.deliver _ false 5 p2 [2] (by decide +kernel))
  refine ⟨_, r5, by decide +kernel, by decide +kernel, by decide +kernel⟩

end Fastd.Method.Tunnel
