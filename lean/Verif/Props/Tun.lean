import Verif.Net.TunLemmas

/-!
# Properties C100 and C101: TUN/TAP interfaces

C100: an interface that has been opened has the configured name, type and MTU; if opening fails, or when it is closed, the system is left as before: no
descriptor stays open, interfaces that existed still exist, and those that did not exist vanish. C101: packets pass between the interface and the
rest of fastd unchanged. On systems with a header for the address family this fails for packets that are as large as the MTU allows.
-/

namespace Fastd.Net.Tun

/-! ## C100 -/

theorem ifname_len {ifname m : Bytes} (hl : ifname.length ≤ 15) (h : (if ifname = [] then none else some ifname) = some m) :
    m ≠ [] ∧ m.length ≤ 15 := by
  by_cases he : ifname = []
  · rw [if_pos he] at h; cases h
  · rw [if_neg he] at h; cases h; exact ⟨he, hl⟩

/-- **C100, opening**: the descriptor is new and it is attached to an interface of the right type, with the configured MTU; the name is the one given, unless
the kernel is to choose it. Packets have the header that fastd expects. Nothing else changes. -/
theorem C100_open (p : Plat) (sys : Sys) (k k1 : K) (mode : Mode) (ifname : Bytes) (mtu : Nat) (i : Iface)
    (hg : Good sys k) (hw : Wf p k) (hl : ifname.length ≤ 15)
    (h : ifaceOpen p sys k mode ifname mtu = (some (some i), k1)) :
    ∃ fd n x, i.fd = some fd ∧ i.name = some n ∧ k.fds fd = none ∧ k1.fds fd = some ⟨some n⟩ ∧ k1.ifs n = some x ∧
      x.type = (if mode = .tun then .tun else .tap) ∧ x.mtu = mtu ∧
      (p = .linux → x.head = false) ∧ (p = .freebsd → mode = .tun → x.head = true) ∧
      (ifname ≠ [] → (0x25 : UInt8) ∉ ifname → n = ifname) ∧
      (∀ m, m ≠ fd → k1.fds m = k.fds m) ∧ (∀ m, m ≠ n → k1.ifs m = k.ifs m) := by
  unfold ifaceOpen at h
  cases ho : openIface p sys k mode (if ifname = [] then none else some ifname) mtu with
  | mk a ka =>
  rw [ho] at h
  match a with
  | none => cases h
  | some (false, j) =>
    simp only at h
    cases hf : j.fd with
    | none => rw [hf] at h; cases h
    | some fd =>
      rw [hf] at h
      simp only at h
      cases hc : close sys ka fd with
      | mk b kb => rw [hc] at h; cases b <;> cases h
  | some (true, j) =>
    cases h
    rcases openIface_post hg hw (fun m hm => ifname_len hl hm) ho with ⟨h, -⟩ | ⟨h, -⟩ | ⟨fd, n, x, hx⟩
    · cases h
    · cases h
    · refine ⟨fd, n, x, hx.ifd, hx.iname, hx.at_.free, hx.at_.att, hx.at_.iface, ?_, hx.mtu rfl, ?_, ?_, ?_, hx.at_.fds, hx.at_.ifs⟩
      · rw [hx.type]; cases mode <;> rfl
      · intro hp; rw [hx.head rfl (.inl hp), hp]; rfl
      · intro hp hm; rw [hx.head rfl (.inr hm), hp]; rfl
      · intro hn hp
        exact hx.name ifname (if_neg hn) hp

/-- Closing an interface that has just been opened, in both places -/
theorem closed {p : Plat} {sys : Sys} {k k1 k2 : K} {fd : Nat} {n : Bytes} {x : If} {i : Iface} (hx : At p k k1 fd n x) (hn : i.name = some n)
    (hc : p = .freebsd → i.cleanup = (k.ifs n).isNone)
    (h : k2 = match close sys k1 fd with
      | (true, kk) => cleanupIface p sys kk i
      | (false, kk) => kk) :
    (∀ m, k2.fds m = k.fds m) ∧ (∀ m, m ≠ n → k2.ifs m = k.ifs m) ∧
    (∀ y, k.ifs n = some y → ∃ z, k2.ifs n = some z ∧ z.mtu = x.mtu) ∧
    ((∀ q, sys.closeErr q = false ∧ sys.destroyErr q = false) → (k2.ifs n).isSome = (k.ifs n).isSome) := by
  cases hcl : close sys k1 fd with
  | mk b kk =>
  rw [hcl] at h
  obtain ⟨h1, h2, h3, h4⟩ := close_at hx hcl
  have hif : ifr (i.name.getD []) = n := by rw [hn]; exact List.take_of_length_le hx.len
  have keep : ∀ y, k.ifs n = some y → ∃ z, kk.ifs n = some z ∧ z.mtu = x.mtu := by
    intro y hy
    rcases hx.origin with ⟨ho, -⟩ | ⟨-, ho⟩
    · rw [ho] at hy; cases hy
    · rw [h3, if_pos ho]; exact ⟨_, rfl, rfl⟩
  cases b with
  | false =>
    simp only at h
    subst h
    refine ⟨h1, h2, keep, fun he => ?_⟩
    rw [(he _).1] at h4
    cases h4
  | true =>
    simp only at h
    cases p with
    | linux =>
      have h : k2 = kk := h
      subst h
      refine ⟨h1, h2, keep, fun _ => ?_⟩
      rw [h3]
      rcases hx.origin with ⟨ho, hp⟩ | ⟨ho, hp⟩
      · rw [hp, ho]; rfl
      · rw [hp, ho]; rfl
    | freebsd =>
      unfold cleanupIface at h
      simp only at h
      rw [hif, hc rfl] at h
      cases hk : k.ifs n with
      | some y =>
        rw [hk] at h
        have h : k2 = kk := h
        subst h
        refine ⟨h1, h2, fun y' hy' => keep y hk, fun _ => ?_⟩
        obtain ⟨z, hz, -⟩ := keep y hk
        rw [hz]
        rfl
      | none =>
        rw [hk] at h
        simp only [Option.isNone_none, Bool.not_true, Bool.false_eq_true, if_false] at h
        refine ⟨fun m => ?_, fun m hm => ?_, fun y hy => (by cases hy), fun he => ?_⟩
        · rw [h]; unfold destroy; split <;> exact h1 m
        · rw [h]; unfold destroy
          split
          · exact h2 m hm
          · exact (if_neg hm).trans (h2 m hm)
        · rw [h]; unfold destroy
          rw [(he _).2]
          simp [setIf]

/-- **C100, failure**: if the interface cannot be opened, no descriptor is left open, all interfaces that existed still exist with the same MTU, and no
other ones do, provided that the kernel lets us remove them. -/
theorem C100_refused (p : Plat) (sys : Sys) (k k1 : K) (mode : Mode) (ifname : Bytes) (mtu : Nat)
    (hg : Good sys k) (hw : Wf p k) (hl : ifname.length ≤ 15)
    (h : ifaceOpen p sys k mode ifname mtu = (some none, k1)) :
    (∀ m, k1.fds m = k.fds m) ∧
    (∀ m y, k.ifs m = some y → ∃ z, k1.ifs m = some z ∧ z.mtu = y.mtu) ∧
    ((∀ q, sys.closeErr q = false ∧ sys.destroyErr q = false) → ∀ m, (k1.ifs m).isSome = (k.ifs m).isSome) := by
  unfold ifaceOpen at h
  cases ho : openIface p sys k mode (if ifname = [] then none else some ifname) mtu with
  | mk a ka =>
  rw [ho] at h
  match a with
  | none => cases h
  | some (true, j) => cases h
  | some (false, j) =>
    simp only at h
    rcases openIface_post hg hw (fun m hm => ifname_len hl hm) ho with ⟨-, h1, h2, h3⟩ | ⟨-, fd, h1, hcl, h2, h3, h4, h5⟩ | ⟨fd, n, x, hx⟩
    · rw [h1] at h
      cases h
      exact ⟨fun m => by rw [h3], fun m y hy => ⟨y, by rw [h2]; exact hy, rfl⟩, fun _ m => by rw [h2]⟩
    · rw [h1] at h
      simp only at h
      have hk : k1.ifs = k.ifs ∧ ∀ m, k1.fds m = k.fds m := by
        have hcc : ∀ kk, cleanupIface p sys kk j = kk := by
          intro kk
          cases p
          · rfl
          · unfold cleanupIface; rw [hcl]; rfl
        unfold close at h
        rw [h3] at h
        simp only [Option.bind_some] at h
        have : k1 = setFd (tick ka) fd none := by
          cases hcE : !sys.closeErr ka.pos <;> rw [hcE] at h <;> simp only [hcc, Prod.mk.injEq, true_and] at h <;> exact h.symm
        subst this
        refine ⟨h5, fun m => ?_⟩
        show (if m = fd then none else ka.fds m) = _
        by_cases hm : m = fd
        · rw [if_pos hm, hm, h2]
        · rw [if_neg hm]; exact h4 m hm
      exact ⟨hk.2, fun m y hy => ⟨y, by rw [hk.1]; exact hy, rfl⟩, fun _ m => by rw [hk.1]⟩
    · rw [hx.ifd] at h
      simp only at h
      have he : k1 = match close sys ka fd with
          | (true, kk) => cleanupIface p sys kk j
          | (false, kk) => kk := by
        cases hc : close sys ka fd with
        | mk b kb => rw [hc] at h; cases b <;> (cases h; rfl)
      obtain ⟨c1, c2, c3, c4⟩ := closed hx.at_ hx.iname hx.cleanup he
      refine ⟨c1, fun m y hy => ?_, fun hq m => ?_⟩
      · by_cases hm : m = n
        · subst hm
          obtain ⟨z, hz, hzm⟩ := c3 y hy
          exact ⟨z, hz, hzm.trans (hx.mtu' rfl y hy)⟩
        · exact ⟨y, (c2 m hm).trans hy, rfl⟩
      · by_cases hm : m = n
        · subst hm; exact c4 hq
        · rw [c2 m hm]

/-- **C100, closing**: after the interface has been closed, the descriptors and the interfaces are the same as before it was opened. -/
theorem C100_close (p : Plat) (sys : Sys) (k k1 : K) (mode : Mode) (ifname : Bytes) (mtu : Nat) (i : Iface)
    (hg : Good sys k) (hw : Wf p k) (hl : ifname.length ≤ 15)
    (h : ifaceOpen p sys k mode ifname mtu = (some (some i), k1)) :
    (∀ m, (ifaceClose p sys k1 i).fds m = k.fds m) ∧
    (∀ m, (k.ifs m).isSome = true → ((ifaceClose p sys k1 i).ifs m).isSome = true) ∧
    ((∀ q, sys.closeErr q = false ∧ sys.destroyErr q = false) → ∀ m, ((ifaceClose p sys k1 i).ifs m).isSome = (k.ifs m).isSome) := by
  have hop : openIface p sys k mode (if ifname = [] then none else some ifname) mtu = (some (true, i), k1) := by
    unfold ifaceOpen at h
    cases ho : openIface p sys k mode (if ifname = [] then none else some ifname) mtu with
    | mk a ka =>
    rw [ho] at h
    match a with
    | none => cases h
    | some (true, j) => cases h; rfl
    | some (false, j) =>
      simp only at h
      cases hf : j.fd with
      | none => rw [hf] at h; cases h
      | some fd =>
        rw [hf] at h
        simp only at h
        cases hc : close sys ka fd with
        | mk b kb => rw [hc] at h; cases b <;> cases h
  rcases openIface_post hg hw (fun m hm => ifname_len hl hm) hop with ⟨h, -⟩ | ⟨h, -⟩ | ⟨fd, n, x, hx⟩
  · cases h
  · cases h
  · have he : ifaceClose p sys k1 i = match close sys k1 fd with
        | (true, kk) => cleanupIface p sys kk i
        | (false, kk) => kk := by
      unfold ifaceClose
      rw [hx.ifd]
      cases hcl : close sys k1 fd with
      | mk b kk => cases b <;> simp only [hcl]
    obtain ⟨c1, c2, c3, c4⟩ := closed hx.at_ hx.iname hx.cleanup he
    refine ⟨c1, fun m hm => ?_, fun hq m => ?_⟩
    · by_cases hmn : m = n
      · subst hmn
        cases hk : k.ifs m with
        | none => rw [hk] at hm; cases hm
        | some y =>
          obtain ⟨z, hz, -⟩ := c3 y hk
          rw [hz]
          rfl
      · rw [c2 m hmn]; exact hm
    · by_cases hm : m = n
      · subst hm; exact c4 hq
      · rw [c2 m hm]

namespace TunDemo

/-- "tap0" -/
def tap0 : Bytes := [0x74, 0x61, 0x70, 0x30]
/-- "tun7" -/
def tun7 : Bytes := [0x74, 0x75, 0x6e, 0x37]

/-- A persistent interface, and another one that is in use -/
def k0 : K where
  ifs := fun n => if n = tap0 then some ⟨.tap, 1500, true, true, false⟩ else none
  fds := fun fd => if fd < 5 then some {} else none
  pos := 0

def sys (tape : List (Option Nat)) : Sys where
  tape := fun n => tape.getD n (some 0)
  pick := fun _ n => if n = [] then [0x74, 0x61, 0x70, 0x31] else n.take 15
  clone := fun _ t => typeName t ++ [0x39]
  closeErr := fun _ => false
  destroyErr := fun _ => false

def show_ (r : Out (Option Iface)) (n : Bytes) : Option (Option Iface) × Option If × Option Fd := (r.1, r.2.ifs n, r.2.fds 5)

/-- The persistent interface is used, and its MTU is changed. -/
example : show_ (ifaceOpen .linux (sys [some 5]) k0 .tap tap0 1426) tap0 =
    (some (some { fd := some 5, name := some tap0 }), some ⟨.tap, 1426, false, true, true⟩, some ⟨some tap0⟩) := by decide +kernel

/-- The MTU cannot be set: the descriptor is closed again. -/
example : show_ (ifaceOpen .linux (sys [some 5, some 0, some 0, none]) k0 .tap tap0 1426) tap0 =
    (some none, some ⟨.tap, 1500, false, true, false⟩, none) := by decide +kernel

/-- FreeBSD: the interface is created, and it is destroyed when the MTU cannot be set. -/
example : show_ (ifaceOpen .freebsd (sys [some 5]) k0 .tun tun7 1426) tun7 =
      (some (some { fd := some 5, name := some tun7, cleanup := true }), some ⟨.tun, 1426, true, true, true⟩, some ⟨some tun7⟩) ∧
    show_ (ifaceOpen .freebsd (sys [some 5, some 0, some 0, some 0, none]) k0 .tun tun7 1426) tun7 = (some none, none, none) := by decide +kernel

/-- FreeBSD: an interface that existed before is not destroyed. -/
example : (ifaceClose .freebsd (sys []) (ifaceOpen .freebsd (sys [some 5]) k0 .tap tap0 1426).2 { fd := some 5, name := some tap0 }).ifs tap0 =
    some ⟨.tap, 1426, true, true, false⟩ := by decide +kernel

end TunDemo

/-! ## C101 -/

/-- What the kernel passes to the process for a packet, and what it reads: FreeBSD, OpenBSD and NetBSD put the address family in front of packets of TUN
interfaces, as a number in network byte order. -/
def Framed (af : Af) (mode : Mode) (family : Nat) (pkt raw : Bytes) : Prop :=
  if af.multiaf ∧ mode = .tun then
    ∃ h : Bytes, h.length = 4 ∧ raw = h ++ pkt ∧ h.foldl (fun n b => n * 256 + b.toNat) 0 = family
  else raw = pkt

/-- The largest packet: with the Ethernet header for TAP interfaces -/
def largest (mode : Mode) (mtu : Nat) : Nat := if mode = .tun then mtu else mtu + 14

theorem maxPayload_eq (mode : Mode) (mtu : Nat) : maxPayload mode mtu = largest mode mtu := by cases mode <;> rfl

theorem tun_iff (mode : Mode) : ifaceType mode = .tun ↔ mode = .tun := by cases mode <;> simp [ifaceType]

/-- **C101, from the interface** (partial): packets of the interface are passed on unchanged. On systems with a header for the address family this is proved
for packets that are at least 4 bytes shorter than the MTU only; for larger ones it is false, see `C101_read_false`. -/
theorem C101_read_partial (af : Af) (mode : Mode) (mtu family : Nat) (pkt raw : Bytes) (hf : Framed af mode family pkt raw)
    (hl : pkt.length ≤ largest mode mtu) (hs : af.multiaf = true → mode = .tun → pkt.length + 4 ≤ mtu) :
    handle af mode mtu (some raw) = .data pkt := by
  unfold handle
  simp only
  rw [maxPayload_eq]
  unfold Framed at hf
  by_cases hm : af.multiaf ∧ mode = .tun
  · rw [if_pos hm] at hf
    obtain ⟨h, h4, rfl, -⟩ := hf
    have := hs hm.1 hm.2
    have hlar : largest mode mtu = mtu := by unfold largest; rw [if_pos hm.2]
    have hlen : (h ++ pkt).length ≤ mtu := by simp only [List.length_append]; omega
    rw [if_pos ⟨hm.1, (tun_iff mode).2 hm.2⟩, hlar, List.take_of_length_le hlen, if_neg (by simp only [List.length_append]; omega)]
    rw [List.drop_append, List.drop_of_length_le (by omega)]
    simp [h4]
  · rw [if_neg hm] at hf
    subst hf
    rw [if_neg (fun h => hm ⟨h.1, (tun_iff mode).1 h.2⟩), List.take_of_length_le hl]

/-- **C101, refuted**: for every MTU of at least 4, a packet that is as large as the MTU allows loses its last 4 bytes on systems with a header: `read` is called with the size
of the packet, though 4 more bytes have been reserved (src/iface.c:432, 436). -/
theorem C101_read_false (af : Af) (hm : af.multiaf = true) (mtu : Nat) (h4 : 4 ≤ mtu) (pkt h : Bytes) (hh : h.length = 4) (hp : pkt.length = mtu) :
    handle af .tun mtu (some (h ++ pkt)) = .data (pkt.take (mtu - 4)) ∧ pkt.take (mtu - 4) ≠ pkt := by
  refine ⟨?_, ?_⟩
  · unfold handle
    simp only
    rw [if_pos ⟨hm, rfl⟩]
    show (if (List.take mtu (h ++ pkt)).length < 4 then _ else _) = _
    have ht : List.take mtu (h ++ pkt) = h ++ pkt.take (mtu - 4) := by
      rw [List.take_append, List.take_of_length_le (by omega), hh]
    show (if (List.take mtu (h ++ pkt)).length < 4 then Read.bug else Read.data ((List.take mtu (h ++ pkt)).drop 4)) = _
    rw [ht, if_neg (by simp only [List.length_append]; omega), List.drop_append, List.drop_of_length_le (by omega)]
    simp [hh]
  · intro he
    have := congrArg List.length he
    simp only [List.length_take] at this
    omega

/-- FreeBSD: a packet of 8 bytes with an MTU of 8 -/
example : handle ⟨true, 2, 28⟩ .tun 8 (some ([0, 0, 0, 2] ++ [0x45, 1, 2, 3, 4, 5, 6, 7])) = .data [0x45, 1, 2, 3] := by decide

/-- **C101, to the interface**: a packet is written unchanged, marked as IPv4 or IPv6 where the system needs this. Empty packets, and packets of other
protocols where they would have to be marked, are not written. -/
theorem C101_write (af : Af) (h4 : af.inet < 2 ^ 32) (h6 : af.inet6 < 2 ^ 32) (mode : Mode) (pkt : Bytes) :
    match write af mode pkt with
    | some raw => pkt ≠ [] ∧ ∃ family, Framed af mode family pkt raw ∧
        (af.multiaf = true → mode = .tun → (pkt.head?.map (·.toNat / 16) = some 4 ∧ family = af.inet) ∨ (pkt.head?.map (·.toNat / 16) = some 6 ∧ family = af.inet6))
    | none => pkt = [] ∨ (af.multiaf = true ∧ mode = .tun ∧ pkt.head?.map (·.toNat / 16) ≠ some 4 ∧ pkt.head?.map (·.toNat / 16) ≠ some 6) := by
  have be : ∀ n, n < 2 ^ 32 → (be32 n).foldl (fun n b => n * 256 + b.toNat) 0 = n := by
    intro n hn
    simp only [be32, List.foldl_cons, List.foldl_nil, UInt8.toNat_ofNat']
    omega
  cases pkt with
  | nil => exact .inl rfl
  | cons b l =>
    have hsh : ∀ v : Nat, v < 16 → (b >>> 4 = UInt8.ofNat v ↔ b.toNat / 16 = v) := by
      intro v hv
      rw [← UInt8.toNat_inj, UInt8.toNat_shiftRight, UInt8.toNat_ofNat', Nat.shiftRight_eq_div_pow, Nat.mod_eq_of_lt (by omega : v < 2 ^ 8)]
      rfl
    unfold write
    simp only
    by_cases hm : af.multiaf ∧ ifaceType mode = .tun
    · rw [if_pos hm]
      have hm' : af.multiaf ∧ mode = .tun := ⟨hm.1, (tun_iff mode).1 hm.2⟩
      by_cases hb4 : b >>> 4 = 4
      · rw [if_pos hb4]
        refine ⟨by simp, af.inet, ?_, fun _ _ => .inl ⟨by simpa using (hsh 4 (by omega)).1 hb4, rfl⟩⟩
        unfold Framed
        rw [if_pos hm']
        exact ⟨_, rfl, rfl, be _ h4⟩
      · rw [if_neg hb4]
        by_cases hb6 : b >>> 4 = 6
        · rw [if_pos hb6]
          refine ⟨by simp, af.inet6, ?_, fun _ _ => .inr ⟨by simpa using (hsh 6 (by omega)).1 hb6, rfl⟩⟩
          unfold Framed
          rw [if_pos hm']
          exact ⟨_, rfl, rfl, be _ h6⟩
        · rw [if_neg hb6]
          refine .inr ⟨hm'.1, hm'.2, ?_, ?_⟩
          · intro h; exact hb4 ((hsh 4 (by omega)).2 (by simpa using h))
          · intro h; exact hb6 ((hsh 6 (by omega)).2 (by simpa using h))
    · rw [if_neg hm]
      have hm' : ¬ (af.multiaf ∧ mode = .tun) := fun h => hm ⟨h.1, (tun_iff mode).2 h.2⟩
      refine ⟨by simp, 0, ?_, fun h1 h2 => absurd ⟨h1, h2⟩ hm'⟩
      unfold Framed
      rw [if_neg hm']

/-- FreeBSD: an IPv6 packet -/
example : write ⟨true, 2, 28⟩ .tun [0x60, 1, 2] = some [0, 0, 0, 28, 0x60, 1, 2] := by decide

end Fastd.Net.Tun
