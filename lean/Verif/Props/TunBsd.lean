import Verif.Net.TunBsdLemmas

/-!
# Property C115: TUN/TAP interfaces of OpenBSD, NetBSD and macOS

An interface that has been opened is the configured one, with the configured type and MTU and with the header that fastd expects; if opening fails, or when it is closed,
no descriptor stays open and interfaces that existed still exist, with the same MTU in case of failure. That interfaces which did not exist vanish depends on the driver:
fastd itself does not remove them.
-/

namespace Fastd.Net.Tun

/-- The prefix that names must have: `tap` or `tun` -/
def Fits (mode : Mode) (n : Bytes) : Prop :=
  ∃ rest, n = (if mode = .tun then "tun" else "tap").toList.map (fun c => UInt8.ofNat c.toNat) ++ rest

theorem fits_of {mode : Mode} {n : Bytes} (h : n.take 3 = typeName (ifaceType mode)) : Fits mode n := by
  refine ⟨n.drop 3, ?_⟩
  conv => lhs; rw [← List.take_append_drop 3 n, h]
  cases mode <;> rfl

theorem named_len {ifname m : Bytes} (hl : ifname.length ≤ 15) (h : (if ifname = [] then none else some ifname) = some m) : m.length ≤ 15 := by
  by_cases he : ifname = []
  · rw [if_pos he] at h; cases h
  · rw [if_neg he] at h; cases h; exact hl

theorem namedOpen_some {p : Bsd} {drv : Driver} {sys : Sys} {k k1 : K} {mode : Mode} {ifname : Bytes} {mtu : Nat} {i : Iface}
    (h : namedOpen p drv sys k mode ifname mtu = (some (some i), k1)) :
    openNamed p drv sys k mode (if ifname = [] then none else some ifname) mtu = (some (true, i), k1) := by
  unfold namedOpen at h
  cases ho : openNamed p drv sys k mode (if ifname = [] then none else some ifname) mtu with
  | mk a ka =>
  rw [ho] at h
  match a with
  | none => cases h
  | some (true, j) => cases h; rfl
  | some (false, j) =>
    simp only at h
    cases hf : j.fd <;> rw [hf] at h <;> cases h

theorem named_eq {ifname n : Bytes} (h : (if ifname = [] then none else some ifname) = some n) : ifname = n ∧ ifname ≠ [] := by
  by_cases he : ifname = []
  · rw [if_pos he] at h; cases h
  · rw [if_neg he] at h; cases h; exact ⟨rfl, he⟩

/-- **C115, opening**: there must be a name, and it must fit the mode. The descriptor is new and it is attached to the interface with this name, which has the right type and
the configured MTU. Packets begin with a header if and only if fastd expects one. Nothing else changes. -/
theorem C115_open (p : Bsd) (drv : Driver) (sys : Sys) (k k1 : K) (mode : Mode) (ifname : Bytes) (mtu : Nat) (i : Iface)
    (hw : WfB p k) (hl : ifname.length ≤ 15) (h : namedOpen p drv sys k mode ifname mtu = (some (some i), k1)) :
    Fits mode ifname ∧ ∃ fd x, i.fd = some fd ∧ i.name = some ifname ∧ k.fds fd = none ∧ k1.fds fd = some ⟨some ifname⟩ ∧ k1.ifs ifname = some x ∧
      x.type = (if mode = .tun then .tun else .tap) ∧ x.mtu = mtu ∧ x.head = (multiafTun p && decide (ifaceType mode = .tun)) ∧
      (∀ m, m ≠ fd → k1.fds m = k.fds m) ∧ (∀ m, m ≠ ifname → k1.ifs m = k.ifs m) := by
  rcases openNamed_post hw (fun m hm => named_len hl hm) (namedOpen_some h) with ⟨h, -⟩ | ⟨fd, n, x, hn, hp, hf, hi, hx, ht, hm, -, hh⟩
  · cases h
  · obtain ⟨rfl, -⟩ := named_eq hn
    refine ⟨fits_of hp, fd, x, hf, hi, hx.free, hx.att, hx.iface, ?_, hm rfl, ?_, hx.fds, hx.ifs⟩
    · rw [ht]; cases mode <;> rfl
    · rw [hh rfl]; cases p <;> cases mode <;> rfl

/-- **C115, names**: without name, or with a name that does not fit, nothing happens at all. -/
theorem C115_name (p : Bsd) (drv : Driver) (sys : Sys) (k : K) (mode : Mode) (ifname : Bytes) (mtu : Nat) (h : ¬ Fits mode ifname) :
    namedOpen p drv sys k mode ifname mtu = (some none, k) := by
  unfold namedOpen openNamed
  by_cases he : ifname = []
  · rw [if_pos he]
  · rw [if_neg he]
    simp only
    rw [if_pos (fun ht => h (fits_of ht))]

/-- **C115, failure**: if the interface cannot be opened, no descriptor is left open and all interfaces that existed still exist with the same MTU. There are no
new ones if the driver removes them. -/
theorem C115_refused (p : Bsd) (drv : Driver) (sys : Sys) (k k1 : K) (mode : Mode) (ifname : Bytes) (mtu : Nat)
    (hw : WfB p k) (hl : ifname.length ≤ 15) (h : namedOpen p drv sys k mode ifname mtu = (some none, k1)) :
    (∀ m, k1.fds m = k.fds m) ∧ (∀ m y, k.ifs m = some y → ∃ z, k1.ifs m = some z ∧ z.mtu = y.mtu) ∧
    (drv.keep ifname = false → ∀ m, (k1.ifs m).isSome = (k.ifs m).isSome) := by
  unfold namedOpen at h
  cases ho : openNamed p drv sys k mode (if ifname = [] then none else some ifname) mtu with
  | mk a ka =>
  rw [ho] at h
  match a with
  | none => cases h
  | some (true, j) => cases h
  | some (false, j) =>
    rcases openNamed_post hw (fun m hm => named_len hl hm) ho with ⟨-, h1, h2, h3⟩ | ⟨fd, n, x, hn, -, hf, -, hx, -, -, hm, -⟩
    · simp only [h1] at h
      cases h
      exact ⟨fun m => by rw [h3], fun m y hy => ⟨y, by rw [h2]; exact hy, rfl⟩, fun _ m => by rw [h2]⟩
    · obtain ⟨rfl, -⟩ := named_eq hn
      simp only [hf] at h
      cases h
      obtain ⟨c1, c2, c3⟩ := close_node (sys := sys) hx
      refine ⟨c1, fun m y hy => ?_, fun hk m => ?_⟩
      · by_cases hmn : m = ifname
        · subst hmn
          rcases hx.origin with ⟨h, -⟩ | ⟨-, h⟩
          · rw [h] at hy; cases hy
          · rw [c3, if_pos h]; exact ⟨_, rfl, hm rfl y hy⟩
        · exact ⟨y, (c2 m hmn).trans hy, rfl⟩
      · by_cases hmn : m = ifname
        · subst hmn
          rcases hx.origin with ⟨h, hp⟩ | ⟨h, hp⟩
          · rw [c3, hp, hk, h]; rfl
          · rw [c3, hp, h]; rfl
        · rw [c2 m hmn]

/-- **C115, closing** (partial): after the interface has been closed, the descriptors are the same as before it was opened, and all interfaces that existed still exist.
That there are no other ones is proved if the driver removes them; fastd does not, see `C115_close_false`. -/
theorem C115_close_partial (p : Bsd) (drv : Driver) (sys : Sys) (k k1 : K) (mode : Mode) (ifname : Bytes) (mtu : Nat) (i : Iface)
    (hw : WfB p k) (hl : ifname.length ≤ 15) (h : namedOpen p drv sys k mode ifname mtu = (some (some i), k1)) :
    (∀ m, (namedClose sys k1 i).fds m = k.fds m) ∧
    (∀ m, (k.ifs m).isSome = true → ((namedClose sys k1 i).ifs m).isSome = true) ∧
    (drv.keep ifname = false → ∀ m, ((namedClose sys k1 i).ifs m).isSome = (k.ifs m).isSome) := by
  rcases openNamed_post hw (fun m hm => named_len hl hm) (namedOpen_some h) with ⟨h, -⟩ | ⟨fd, n, x, hn, -, hf, -, hx, -⟩
  · cases h
  · obtain ⟨rfl, -⟩ := named_eq hn
    unfold namedClose
    rw [hf]
    obtain ⟨c1, c2, c3⟩ := close_node (sys := sys) hx
    refine ⟨c1, fun m hs => ?_, fun hk m => ?_⟩
    · by_cases hmn : m = ifname
      · subst hmn
        rcases hx.origin with ⟨h, -⟩ | ⟨-, h⟩
        · rw [h] at hs; cases hs
        · show ((close sys k1 fd).2.ifs m).isSome = true
          rw [c3, if_pos h]; rfl
      · show ((close sys k1 fd).2.ifs m).isSome = true
        rw [c2 m hmn]; exact hs
    · show ((close sys k1 fd).2.ifs m).isSome = _
      by_cases hmn : m = ifname
      · subst hmn
        rcases hx.origin with ⟨h, hp⟩ | ⟨h, hp⟩
        · rw [c3, hp, hk, h]; rfl
        · rw [c3, hp, h]; rfl
      · rw [c2 m hmn]

/-- **C115, refuted**: if the driver creates the interface when its device is opened and keeps it afterwards (not all drivers do), then every
interface that did not exist stays behind after it has been opened and closed. -/
theorem C115_close_false (p : Bsd) (drv : Driver) (sys : Sys) (k k1 : K) (mode : Mode) (ifname : Bytes) (mtu : Nat) (i : Iface)
    (hw : WfB p k) (hl : ifname.length ≤ 15) (h : namedOpen p drv sys k mode ifname mtu = (some (some i), k1))
    (hn : k.ifs ifname = none) (hk : drv.keep ifname = true) :
    ((namedClose sys k1 i).ifs ifname).isSome = true := by
  rcases openNamed_post hw (fun m hm => named_len hl hm) (namedOpen_some h) with ⟨h, -⟩ | ⟨fd, n, x, hnn, -, hf, -, hx, -⟩
  · cases h
  · obtain ⟨rfl, -⟩ := named_eq hnn
    unfold namedClose
    rw [hf]
    show ((close sys k1 fd).2.ifs ifname).isSome = true
    rcases hx.origin with ⟨-, hp⟩ | ⟨h, -⟩
    · rw [(close_node (sys := sys) hx).2.2, hp, hk]; rfl
    · rw [hn] at h; cases h

namespace TunBsdDemo

/-- "tap0" -/
def tap0 : Bytes := [0x74, 0x61, 0x70, 0x30]
/-- "tun7" -/
def tun7 : Bytes := [0x74, 0x75, 0x6e, 0x37]

/-- One interface exists. -/
def k0 : K where
  ifs := fun n => if n = tap0 then some ⟨.tap, 1500, false, true, false⟩ else none
  fds := fun fd => if fd < 5 then some {} else none
  pos := 0

def sys (tape : List (Option Nat)) : Sys where
  tape := fun n => tape.getD n (some 0)
  pick := fun _ n => n
  clone := fun _ _ => []
  closeErr := fun _ => false
  destroyErr := fun _ => false

/-- TUN interfaces are created and kept. -/
def drv : Driver := ⟨fun n => n.take 3 = [0x74, 0x75, 0x6e], fun _ => true⟩

def show_ (r : Out (Option Iface)) (n : Bytes) : Option (Option Iface) × Option If × Option Fd := (r.1, r.2.ifs n, r.2.fds 5)

example (p : Bsd) : WfB p k0 := by
  have h : ∀ n i, k0.ifs n = some i → n = tap0 ∧ i = ⟨.tap, 1500, false, true, false⟩ := by
    intro n i hi
    have hi : (if n = tap0 then some ⟨.tap, 1500, false, true, false⟩ else none) = some i := hi
    by_cases hn : n = tap0
    · rw [if_pos hn] at hi; cases hi; exact ⟨hn, rfl⟩
    · rw [if_neg hn] at hi; cases hi
  refine ⟨fun n i hi => ?_, fun n i hi => ?_, fun n i hi _ => ?_⟩
  · rw [(h n i hi).2]; exact .inl rfl
  · rw [(h n i hi).1, (h n i hi).2]; decide
  · rw [(h n i hi).2]; simp

/-- NetBSD: the interface is created, with header and MTU. -/
example : show_ (namedOpen .netbsd drv (sys [some 5]) k0 .tun tun7 1426) tun7 =
    (some (some { fd := some 5, name := some tun7 }), some ⟨.tun, 1426, true, true, true⟩, some ⟨some tun7⟩) := by decide +kernel

/-- NetBSD: it stays after it has been closed. -/
example : (namedClose (sys []) (namedOpen .netbsd drv (sys [some 5]) k0 .tun tun7 1426).2 { fd := some 5, name := some tun7 }).ifs tun7 =
    some ⟨.tun, 1426, true, true, false⟩ := by decide +kernel

/-- macOS: an existing TAP interface whose MTU cannot be set -/
example : show_ (namedOpen .apple drv (sys [some 5, none]) k0 .tap tap0 1426) tap0 = (some none, some ⟨.tap, 1500, false, true, false⟩, none) := by decide +kernel

/-- OpenBSD: the name of a TAP interface does not fit TUN mode. -/
example : (namedOpen .openbsd drv (sys [some 5]) k0 .tun tap0 1426).1 = some none := by decide +kernel

end TunBsdDemo

end Fastd.Net.Tun
