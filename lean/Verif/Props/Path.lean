import Verif.Buffer.PathLemmas

/-!
# Properties of the packet path: C07, C10, C11, C63

In C10 and C11 the claims are false for some configurations; the `_false` theorems show how fastd
fails, the `_partial` theorems show that it does not fail in any other way.
-/

namespace Fastd.Path

/-- How a run ended. -/
inductive Ending
  | fine | died (e : Err)
deriving DecidableEq, Repr

def Out.ending {α : Type} : Out α → Ending
  | .ok _ _ => .fine
  | .err e => .died e

/-- All three buffers are in the pool and none is in use. -/
def St.clean (s : St) : Prop := s.free = 3 ∧ ∀ i, s.held i = none

/-- An oracle that gives the answers `l` and then always 0. -/
def answers (l : List Nat) : Nat → Nat := fun i => l.getD i 0

/-! ### C07 -/

theorem own_init (orc : Nat → Nat) : Own (fun _ => none) 3 (St.init orc) :=
  ⟨rfl, rfl, fun _ _ => rfl⟩

/-- **C07** For every configuration, every sequence of events and whatever happens while they are
handled, fastd never runs out of buffers, never uses or frees a buffer that is not in use, and when all
events have been handled all buffers are in the pool again. (A run may end with a size error; this is
the subject of C10, C11 and C63.) -/
theorem C07_pool (c : Cfg) (hm : c.methods ≠ []) (es : List Event) (orc : Nat → Nat) :
    match run c es (St.init orc) with
    | .ok _ s => s.clean
    | .err e => e ≠ .outOfBuffers ∧ e ≠ .badHandle := by
  have h := t_run (S := False) (c := c) (m := fun _ => none) (f := 3) ⟨fun h => h.elim, fun h => h.elim⟩ hm es
    (Nat.le_refl 3) (fun h => h.elim) (fun h => h.elim) (St.init orc) (own_init orc)
  cases hr : run c es (St.init orc) with
  | ok a s =>
    rw [hr] at h
    obtain ⟨h1, h2, _⟩ := h
    exact ⟨h2, fun i => by rw [h1]⟩
  | err e =>
    rw [hr] at h
    exact ⟨fun he => h.2 (.inl he), fun he => h.2 (.inr he)⟩

/-- `fastd_cleanup_buffers` (src/buffer.c:35-42): takes three buffers; the pool must be empty then. -/
def cleanup (c : Cfg) : M Bool := do
  let _ ← alloc c 0 0
  let _ ← alloc c 0 0
  let _ ← alloc c 0 0
  return (← (fun s => .ok s.free s : M Nat)) == 0

/-- **C07** The check at shutdown succeeds: three buffers can be taken and the pool is empty then. -/
theorem C07_cleanup (c : Cfg) (hm : c.methods ≠ []) (es : List Event) (orc : Nat → Nat) (s : St)
    (h : run c es (St.init orc) = .ok () s) : ∃ s', cleanup c s = .ok true s' := by
  have h1 := C07_pool c hm es orc
  rw [h] at h1
  obtain ⟨h2, _⟩ := h1
  obtain ⟨free, held, next, orc'⟩ := s
  simp only at h2
  subst h2
  have hz : ¬ Fastd.Buffer.alignto (0 + 0) 16 > c.maxBuffer := by
    have : Fastd.Buffer.alignto (0 + 0) 16 = 0 := by decide
    omega
  unfold cleanup
  simp only [M.bind, alloc, if_neg hz, Bind.bind, Pure.pure]
  exact ⟨_, rfl⟩

/-- A configuration used in the examples: TAP mode with forwarding, two methods. -/
def exCfg : UserCfg where
  mode := .tap
  mtu := 1500
  methods := [.genericGmac, .poly1305]
  forward := true
  multiaf := false

-- A received packet is decrypted with the second method (an empty packet is sent in reply), delivered,
-- and flooded to three peers; then a keepalive and a packet from the tunnel interface.
example : (run (exCfg.cfg [] []) [.udp 100 false .data, .timer 0, .tunnel 1514]
    (St.init (answers [0, 0, 0, 0, 1, 1, 1, 1, 0, 1, 1, 0, 0, 3, 0, 0, 0, 1, 1, 0, 0, 1, 1, 0, 0, 0, 1, 1, 1, 0, 1, 1, 1, 0, 0, 1, 1]))).ending
    = .fine := by decide +kernel

-- the pool check is not vacuous: a pool with fewer buffers runs dry in the same run
example : (run (exCfg.cfg [] []) [.udp 100 false .data]
    { St.init (answers [0, 0, 0, 0, 1, 1, 1, 1, 0, 1, 1, 1, 1]) with free := 2 }).ending
    = .died .outOfBuffers := by decide +kernel

/-! ### C10 -/

/-- Runs without any error that end with all buffers in the pool. -/
def Safe (c : Cfg) (es : List Event) : Prop :=
  ∀ orc, ∃ s, run c es (St.init orc) = .ok () s ∧ s.clean

theorem safe_of {c : Cfg} {es : List Event} (hm : c.methods ≠ []) (hcap : c.maxBuffer ≤ c.cap) (h16 : c.cap % 16 = 0)
    (hr : Roomy c) (he : ∀ e ∈ es, EvOk c e) : Safe c es := by
  intro orc
  have h := t_run (S := True) (c := c) (m := fun _ => none) (f := 3) ⟨fun _ => hcap, fun _ => h16⟩ hm es
    (Nat.le_refl 3) (fun _ => hr) (fun _ => he) (St.init orc) (own_init orc)
  cases hr : run c es (St.init orc) with
  | ok a s =>
    rw [hr] at h
    obtain ⟨h1, h2, _⟩ := h
    exact ⟨s, rfl, h2, fun i => by rw [h1]⟩
  | err e => rw [hr] at h; exact absurd trivial h.1

/-- Assumptions about the environment: the kernel returns at most as many bytes as asked for (and, on
platforms where packets have an address family header, at least these 4 bytes), and data packets in a
control header are only received if all methods are without encryption and authentication (see C63). -/
def Env (u : UserCfg) (ps : List Nat) : Event → Prop
  | .tunnel len => len ≤ maxPayload u.mode (maxMtu u.mode u.mtu ps) ∧ (u.multiaf = true → u.mode = .tun → 4 ≤ len)
  | .udp _ ctl kind => ctl = true → kind = .data → ∀ p ∈ u.methods, p = .null ∨ p = .nullL2tp
  | .timer _ => True

theorem env_ok {u : UserCfg} {ps ps' : List Nat} {e : Event} (h : Env u ps' e) : EvOk (u.cfg ps ps') e := by
  cases e with
  | tunnel len =>
    refine ⟨h.1, fun haf => ?_⟩
    have haf : (u.multiaf && u.mode == .tun) = true := haf
    rw [Bool.and_eq_true] at haf
    exact h.2 haf.1 (by simpa using haf.2)
  | udp _ ctl kind =>
    intro h1 h2 p hp
    rcases h h1 h2 p hp with rfl | rfl <;> rfl
  | timer _ => trivial

/-- The overhead of the used methods (`conf.overhead`). -/
theorem overhead_pos {u : UserCfg} (hm : u.methods ≠ []) (ps ps' : List Nat) : 1 ≤ (u.cfg ps ps').overhead := by
  obtain ⟨p, hp⟩ := List.exists_mem_of_ne_nil _ hm
  have := ((facts (u.cfg ps ps')).meth p hp).2.2
  have h1 : 1 ≤ p.overhead := by cases p <;> decide
  omega

theorem roomy_of {u : UserCfg} {ps ps' : List Nat} (hm : u.methods ≠ [])
    (hmtu : 1231 ≤ maxPayload u.mode (maxMtu u.mode u.mtu ps'))
    (hfw : u.mode = .tap → u.forward = true → ∀ p ∈ u.methods, ∀ q ∈ u.methods, p.overhead = q.overhead)
    (haf : u.multiaf = true → u.mode = .tun → .cipherTest ∈ u.methods →
      ∃ p ∈ u.methods, p ≠ .cipherTest ∧ p ≠ .composedGmac ∧ p ≠ .composedUmac) :
    Roomy (u.cfg ps ps') := by
  have F := facts (u.cfg ps ps')
  have ho := overhead_pos hm ps ps'
  have hrl : (u.cfg ps ps').recvLen = (u.cfg ps ps').payload + (u.cfg ps ps').overhead := by
    have h : 1231 ≤ (u.cfg ps ps').payload := hmtu
    unfold Cfg.recvLen; omega
  have F2 := F.h2; have F3 := F.h3
  refine ⟨by omega, fun ht hf p hp => ?_, fun haf' => ?_⟩
  · have ht : (u.mode == .tap) = true := ht
    have hp : p ∈ u.methods := hp
    have hov : (u.cfg ps ps').overhead ≤ p.overhead := by
      apply maxOf_ge
      intro x hx
      obtain ⟨q, hq, rfl⟩ := List.mem_map.1 hx
      exact Nat.le_of_eq (hfw (by simpa using ht) hf q hq p hp)
    omega
  · have h : (u.multiaf && u.mode == .tun) = true := haf'
    rw [Bool.and_eq_true] at h
    have htun : u.mode = .tun := by simpa using h.2
    refine ⟨?_, fun hct => ?_⟩
    · show (u.mode == .tap) = false
      rw [htun]; rfl
    · obtain ⟨p, hp, h1, h2, h3⟩ := haf h.1 htun hct
      have := (F.meth p hp).1
      have he : 1 ≤ p.enc := by
        cases p <;> first | decide | exact absurd rfl h1 | exact absurd rfl h2 | exact absurd rfl h3
      have := F.enc16
      omega

/-- **C10** (partial: excludes small MTUs, forwarding between methods with different overhead,
multi-address-family TUN interfaces with only `cipher-test`, and control headers around encrypted data;
the claim is false in each of these cases, see below). With every other configuration, no sequence of
events leads to an oversized or out-of-bounds or misaligned access, nor to any other error. -/
theorem C10_partial (u : UserCfg) (ps : List Nat) (hm : u.methods ≠ [])
    (hmtu : 1231 ≤ maxPayload u.mode (maxMtu u.mode u.mtu ps))
    (hfw : u.mode = .tap → u.forward = true → ∀ p ∈ u.methods, ∀ q ∈ u.methods, p.overhead = q.overhead)
    (haf : u.multiaf = true → u.mode = .tun → .cipherTest ∈ u.methods →
      ∃ p ∈ u.methods, p ≠ .cipherTest ∧ p ≠ .composedGmac ∧ p ≠ .composedUmac)
    (es : List Event) (he : ∀ e ∈ es, Env u ps e) : Safe (u.cfg ps ps) es :=
  safe_of hm (Nat.le_refl _) (align_mod _) (roomy_of hm hmtu hfw haf) (fun e h => env_ok (he e h))

example : ∀ e ∈ [Event.udp 2000 false .data, .timer 3, .tunnel 1514], Env exCfg [] e := by
  simp [Env, exCfg, maxPayload, maxMtu]

/-- **C10 is false for small MTUs**: if the largest payload and the headroom together are at most 1232
bytes, fastd dies when it receives the first packet, whatever this packet is. -/
theorem C10_small_mtu_false (c : Cfg) (h : c.headroom + c.payload ≤ 1232) (len : Nat) (ctl : Bool) (kind : Kind)
    (s : St) : (handle c (.udp len ctl kind) s).ending = .died .oversized := by
  have hmb : c.maxBuffer = 1232 := by
    unfold Cfg.maxBuffer
    rw [Nat.max_eq_right h]
    decide
  have hrl : 1232 ≤ c.recvLen := by unfold Cfg.recvLen; omega
  have hd := (facts c).dec16
  have hov : Fastd.Buffer.alignto (c.dec + c.recvLen) 16 > c.maxBuffer := by
    have := align_ge (c.dec + c.recvLen)
    omega
  show Out.ending (M.bind (alloc c c.recvLen c.dec) _ s) = _
  unfold M.bind alloc
  rw [if_pos hov]
  rfl

-- an accepted configuration for which this is the case
def smallCfg : UserCfg where
  mode := .tap
  mtu := 1000
  methods := [.genericGmac]
  forward := false
  multiaf := false

example : (smallCfg.cfg [] []).headroom + (smallCfg.cfg [] []).payload ≤ 1232 := by decide +kernel

/-- **C10 is false when packets are forwarded between peers with methods of different overhead**: a
peer with method `null` sends a packet with a payload 23 bytes longer than allowed. -/
def mixedCfg : UserCfg where
  mode := .tap
  mtu := 1500
  methods := [.null, .poly1305]
  forward := true
  multiaf := false

theorem C10_mixed_overhead_false :
    (run (mixedCfg.cfg [] []) [.udp 1538 false .data] (St.init (answers [0, 0, 0, 0, 0, 0, 0]))).ending
      = .died .oversized := by decide +kernel

/-- **C10 is false for multi-address-family TUN interfaces with only `cipher-test`**: there is no room
for the address family header of a received packet. -/
def afCfg : UserCfg where
  mode := .tun
  mtu := 1500
  methods := [.cipherTest]
  forward := false
  multiaf := true

theorem C10_multiaf_false :
    (run (afCfg.cfg [] []) [.udp 100 false .data] (St.init (answers [0, 0, 0, 0, 0, 1, 1, 0, 0, 0, 1]))).ending
      = .died .headroom := by decide +kernel

/-! ### C11 -/

/-- The claim: whatever peers are loaded later, a run after loading them is as safe as C10 says. -/
def C11_claim : Prop :=
  ∀ (u : UserCfg) (start now : List Nat), u.methods ≠ [] → 1231 ≤ u.mtu →
    (u.mode = .tap → u.forward = true → ∀ p ∈ u.methods, ∀ q ∈ u.methods, p.overhead = q.overhead) →
    (u.multiaf = true → u.mode = .tun → .cipherTest ∈ u.methods →
      ∃ p ∈ u.methods, p ≠ .cipherTest ∧ p ≠ .composedGmac ∧ p ≠ .composedUmac) →
    ∀ es : List Event, (∀ e ∈ es, Env u now e) → Safe (u.cfg start now) es

/-- TUN mode with a single method. -/
def tunCfg : UserCfg where
  mode := .tun
  mtu := 1280
  methods := [.genericGmac]
  forward := false
  multiaf := false

/-- **C11 is false**: in TUN mode a peer with a larger MTU, added by a later load of the peer
directories, makes fastd write past the end of its buffers: here a received packet of 1500 bytes. -/
theorem C11_false : ¬ C11_claim := by
  intro h
  obtain ⟨s, hs, _⟩ := h tunCfg [] [9000] (by decide) (by decide) (by decide) (by decide)
    [.udp 1500 false .data] (by simp [Env]) (answers [])
  have : (run (tunCfg.cfg [] [9000]) [.udp 1500 false .data] (St.init (answers []))).ending = .died .oob := by
    decide +kernel
  rw [hs] at this
  exact absurd this (by simp [Out.ending])

theorem foldl_max_ge (l : List Nat) (a : Nat) : a ≤ l.foldl max a := by
  induction l generalizing a with
  | nil => exact Nat.le_refl _
  | cons x xs ih => exact Nat.le_trans (Nat.le_max_left a x) (ih _)

/-- **C11** (partial: for the other modes only if no later peer has a larger MTU than those known at
start-up; false otherwise). -/
theorem C11_partial (u : UserCfg) (start now : List Nat)
    (hmode : u.mode = .tap ∨ maxMtu u.mode u.mtu now ≤ maxMtu u.mode u.mtu start)
    (hm : u.methods ≠ []) (hmtu : 1231 ≤ u.mtu)
    (hfw : u.mode = .tap → u.forward = true → ∀ p ∈ u.methods, ∀ q ∈ u.methods, p.overhead = q.overhead)
    (haf : u.multiaf = true → u.mode = .tun → .cipherTest ∈ u.methods →
      ∃ p ∈ u.methods, p ≠ .cipherTest ∧ p ≠ .composedGmac ∧ p ≠ .composedUmac)
    (es : List Event) (he : ∀ e ∈ es, Env u now e) : Safe (u.cfg start now) es := by
  have hle : maxMtu u.mode u.mtu now ≤ maxMtu u.mode u.mtu start := by
    rcases hmode with h | h
    · unfold maxMtu; rw [if_pos h, if_pos h]; exact Nat.le_refl _
    · exact h
  have hge : 1231 ≤ maxPayload u.mode (maxMtu u.mode u.mtu now) := by
    have h1 : u.mtu ≤ maxMtu u.mode u.mtu now := by
      unfold maxMtu
      split
      · exact Nat.le_refl _
      · exact foldl_max_ge _ _
    cases hmd : u.mode <;> simp only [maxPayload] <;> rw [hmd] at h1 <;> omega
  refine safe_of hm ?_ (align_mod _) (roomy_of hm hge hfw haf) (fun e h => env_ok (he e h))
  have hp : maxPayload u.mode (maxMtu u.mode u.mtu now) ≤ maxPayload u.mode (maxMtu u.mode u.mtu start) := by
    cases hmd : u.mode <;> simp only [maxPayload] <;> rw [hmd] at hle <;> omega
  show Fastd.Buffer.alignto (max (_ + maxPayload u.mode (maxMtu u.mode u.mtu now)) 1232) 16
    ≤ Fastd.Buffer.alignto (max (_ + maxPayload u.mode (maxMtu u.mode u.mtu start)) 1232) 16
  apply (align_le (align_mod _)).2
  refine Nat.le_trans ?_ (align_ge _).1
  have : ∀ a x y : Nat, x ≤ y → max (a + x) 1232 ≤ max (a + y) 1232 := fun a x y h => by omega
  exact this _ _ _ hp

example : maxMtu .tun 1280 [1400, 1500] ≤ maxMtu .tun 1280 [1500] ∧ maxMtu .tun 1280 [1500] = 1500 := by decide

/-! ### C63 -/

/-- The claim: packets with a control header are handled as safely as packets without. -/
def C63_claim : Prop :=
  ∀ (u : UserCfg), u.methods ≠ [] → 1231 ≤ u.mtu → u.forward = false → u.multiaf = false →
    ∀ (len : Nat) (ctl : Bool) (kind : Kind), Safe (u.cfg [] []) [.udp len ctl kind]

/-- TAP mode with a single method. -/
def gmacCfg (mtu : Nat) : UserCfg where
  mode := .tap
  mtu := mtu
  methods := [.genericGmac]
  forward := false
  multiaf := false

/-- A data packet in a control header: the ciphertext is not 16-byte aligned. -/
theorem C63_misaligned :
    (run ((gmacCfg 1500).cfg [] []) [.udp 100 true .data] (St.init (answers [0, 0, 0, 0, 0, 0, 1]))).ending
      = .died .misaligned := by decide +kernel

/-- A data packet in a control header: the ciphertext is read past the end of the buffer. -/
theorem C63_overread :
    (run ((gmacCfg 1490).cfg [] []) [.udp 1528 true .data] (St.init (answers [0, 0, 0, 0, 0, 0, 1]))).ending
      = .died .oob := by decide +kernel

/-- **C63 is false**: a data packet in a control header leads to accesses to misaligned blocks and past
the end of the buffer, before the packet is authenticated. -/
theorem C63_false : ¬ C63_claim := by
  intro h
  obtain ⟨s, hs, _⟩ := h (gmacCfg 1490) (by decide) (by decide) rfl rfl 1528 true .data
    (answers [0, 0, 0, 0, 0, 0, 1])
  have := C63_overread
  rw [hs] at this
  exact absurd this (by simp [Out.ending])

/-- **C63** (partial: if the packet is a data packet in a control header, only for the methods without
encryption; false otherwise) -/
theorem C63_partial (u : UserCfg) (hm : u.methods ≠ []) (hmtu : 1231 ≤ u.mtu) (hf : u.forward = false)
    (hmaf : u.multiaf = false) (len : Nat) (ctl : Bool) (kind : Kind)
    (hctl : ctl = false ∨ kind ≠ .data ∨ ∀ p ∈ u.methods, p = .null ∨ p = .nullL2tp) :
    Safe (u.cfg [] []) [.udp len ctl kind] := by
  apply C11_partial u [] [] (.inr (Nat.le_refl _)) hm hmtu
  · intro _ h; rw [hf] at h; cases h
  · intro h; rw [hmaf] at h; cases h
  · intro e he
    simp only [List.mem_singleton] at he
    subst he
    intro h1 h2
    rcases hctl with h | h | h
    · rw [h] at h1; cases h1
    · exact absurd h2 h
    · exact h

end Fastd.Path
