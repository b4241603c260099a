import Verif.Net.Tun

/-! # Lemmas about TUN/TAP interfaces -/

namespace Fastd.Net.Tun

/-- What is assumed about names chosen by the kernel. -/
structure Good (sys : Sys) (k : K) : Prop where
  /-- names have at most 15 bytes -/
  pick_len : ∀ q n, (sys.pick q n).length ≤ 15
  /-- a name without `%` is used as it is -/
  pick_eq : ∀ q n, n ≠ [] → (0x25 : UInt8) ∉ n → sys.pick q n = n
  /-- devices are cloned for interfaces that do not exist -/
  clone_new : ∀ q t, k.ifs (sys.clone q t) = none
  clone_len : ∀ q t, (sys.clone q t).length ≤ 15
  clone_type : ∀ q t, typeOfName (sys.clone q t) = t

/-- Existing interfaces. Linux: an interface that does not persist is in use. FreeBSD: interfaces persist, and their type follows from their name. -/
def Wf : Plat → K → Prop
  | .linux, k => ∀ n i, k.ifs n = some i → i.persist = true ∨ i.busy = true
  | .freebsd, k => ∀ n i, k.ifs n = some i → i.persist = true ∧ i.type = typeOfName n

/-- The descriptor `fd` has been opened, and it is attached to the interface `n`. -/
structure At (p : Plat) (k k1 : K) (fd : Nat) (n : Bytes) (x : If) : Prop where
  free : k.fds fd = none
  att : k1.fds fd = some ⟨some n⟩
  fds : ∀ m, m ≠ fd → k1.fds m = k.fds m
  iface : k1.ifs n = some x
  ifs : ∀ m, m ≠ n → k1.ifs m = k.ifs m
  len : n.length ≤ 15
  /-- the interface is new, or it has existed and it will not vanish -/
  origin : (k.ifs n = none ∧ x.persist = decide (p = .freebsd)) ∨ ((k.ifs n).isSome = true ∧ x.persist = true)

theorem At.tick {p : Plat} {k k1 : K} {fd : Nat} {n : Bytes} {x : If} (h : At p k k1 fd n x) : At p k (tick k1) fd n x :=
  ⟨h.free, h.att, h.fds, h.iface, h.ifs, h.len, h.origin⟩

theorem At.set {p : Plat} {k k1 : K} {fd : Nat} {n : Bytes} {x y : If} (h : At p k k1 fd n x) (hp : y.persist = x.persist) :
    At p k (setIf (Tun.tick k1) n (some y)) fd n y := by
  refine ⟨h.free, h.att, h.fds, if_pos rfl, fun m hm => (if_neg hm).trans (h.ifs m hm), h.len, ?_⟩
  rw [hp]
  exact h.origin

theorem putMtu_at {sys : Sys} {p : Plat} {k k1 k2 : K} {fd : Nat} {n : Bytes} {x : If} {mtu : Nat} {ok : Bool} (h : At p k k1 fd n x)
    (he : putMtu sys k1 n mtu = (ok, k2)) :
    ∃ y, At p k k2 fd n y ∧ y.type = x.type ∧ y.head = x.head ∧ (ok = true → y.mtu = mtu) ∧ (ok = false → y.mtu = x.mtu) := by
  unfold putMtu at he
  cases ht : sys.tape k1.pos with
  | none =>
    rw [ht] at he
    cases he
    exact ⟨x, h.tick, rfl, rfl, (fun h => by cases h), fun _ => rfl⟩
  | some _ =>
    rw [ht, h.iface] at he
    cases he
    exact ⟨_, h.set rfl, rfl, rfl, fun _ => rfl, fun h => by cases h⟩

theorem setMtu_at {sys : Sys} {p : Plat} {k k1 k2 : K} {fd : Nat} {n : Bytes} {x : If} {mtu : Nat} {ok : Bool} (h : At p k k1 fd n x)
    (he : setMtu sys k1 n mtu = (ok, k2)) :
    ∃ y, At p k k2 fd n y ∧ y.type = x.type ∧ y.head = x.head ∧ (ok = true → y.mtu = mtu) ∧ (ok = false → y.mtu = x.mtu) := by
  have hn : ifr n = n := List.take_of_length_le h.len
  unfold setMtu getMtu at he
  rw [hn] at he
  cases ht : sys.tape k1.pos with
  | none =>
    rw [ht] at he
    cases he
    exact ⟨x, h.tick, rfl, rfl, (fun h => by cases h), fun _ => rfl⟩
  | some _ =>
    rw [ht, h.iface] at he
    simp only [Option.map_some] at he
    by_cases hm : x.mtu = mtu
    · rw [if_pos hm] at he
      cases he
      exact ⟨x, h.tick, rfl, rfl, fun _ => hm, fun h => by cases h⟩
    · rw [if_neg hm] at he
      exact putMtu_at h.tick he

/-- What has happened when `open_iface` returns. -/
structure Opened (p : Plat) (mode : Mode) (ifname : Option Bytes) (mtu : Nat) (k k1 : K) (ok : Bool) (i : Iface) (fd : Nat) (n : Bytes) (x : If) : Prop where
  at_ : At p k k1 fd n x
  ifd : i.fd = some fd
  iname : i.name = some n
  cleanup : p = .freebsd → i.cleanup = (k.ifs n).isNone
  type : x.type = ifaceType mode
  name : ∀ m, ifname = some m → (0x25 : UInt8) ∉ m → n = m
  mtu : ok = true → x.mtu = mtu
  mtu' : ok = false → ∀ y, k.ifs n = some y → x.mtu = y.mtu
  head : ok = true → p = .linux ∨ mode = .tun → x.head = decide (p = .freebsd)

/-- All outcomes of `open_iface` -/
def Post (p : Plat) (mode : Mode) (ifname : Option Bytes) (mtu : Nat) (k k1 : K) (ok : Bool) (i : Iface) : Prop :=
  (ok = false ∧ i.fd = none ∧ k1.ifs = k.ifs ∧ k1.fds = k.fds) ∨
  (ok = false ∧ ∃ fd, i.fd = some fd ∧ i.cleanup = false ∧ k.fds fd = none ∧ k1.fds fd = some ⟨none⟩ ∧ (∀ m, m ≠ fd → k1.fds m = k.fds m) ∧ k1.ifs = k.ifs) ∨
  ∃ fd n x, Opened p mode ifname mtu k k1 ok i fd n x

theorem openTun_some {sys : Sys} {k k1 : K} {fd : Nat} (h : openTun sys k = (some fd, k1)) :
    k.fds fd = none ∧ k1 = setFd (tick k) fd (some {}) := by
  unfold openTun at h
  cases ht : sys.tape k.pos with
  | none => rw [ht] at h; cases h
  | some f =>
    rw [ht] at h
    simp only at h
    cases hf : k.fds f with
    | some _ => rw [hf] at h; cases h
    | none => rw [hf] at h; cases h; exact ⟨hf, rfl⟩

theorem openLinux_post {sys : Sys} {k k1 : K} {mode : Mode} {ifname : Option Bytes} {mtu : Nat} {ok : Bool} {i : Iface}
    (hg : Good sys k) (hw : Wf .linux k) (hl : ∀ m, ifname = some m → m ≠ [] ∧ m.length ≤ 15)
    (h : openLinux sys k mode ifname mtu = (some (ok, i), k1)) : Post .linux mode ifname mtu k k1 ok i := by
  unfold openLinux at h
  cases ho : openTun sys k with
  | mk a ka =>
  rw [ho] at h
  cases a with
  | none => cases h
  | some fd =>
    obtain ⟨hfree, rfl⟩ := openTun_some ho
    simp only at h
    generalize hnm : (ifname.map ifr).getD [] = name at h
    have hka : (setFd (tick k) fd (some {})).ifs = k.ifs := rfl
    unfold tunsetiff at h
    cases ht : sys.tape (setFd (tick k) fd (some {})).pos with
    | none =>
      rw [ht] at h
      cases h
      exact .inr (.inl ⟨rfl, fd, rfl, rfl, hfree, if_pos rfl, fun m hm => if_neg hm, rfl⟩)
    | some _ =>
      rw [ht] at h
      simp only at h
      generalize hn : sys.pick (setFd (tick k) fd (some {})).pos name = n at h
      have hlen : n.length ≤ 15 := hn ▸ hg.pick_len _ _
      have hname : ∀ m, ifname = some m → (0x25 : UInt8) ∉ m → n = m := by
        intro m hm hp
        obtain ⟨h1, h2⟩ := hl m hm
        subst hm
        have : name = m := by rw [← hnm]; exact List.take_of_length_le h2
        rw [← hn, this]
        exact hg.pick_eq _ _ h1 hp
      rw [hka] at h
      cases hi : k.ifs n with
      | some y =>
        rw [hi] at h
        simp only at h
        cases hb : y.busy with
        | true =>
          rw [hb] at h
          simp only [Bool.true_or, if_true] at h
          cases h
          exact .inr (.inl ⟨rfl, fd, rfl, rfl, hfree, if_pos rfl, fun m hm => if_neg hm, rfl⟩)
        | false =>
          rw [hb, Bool.false_or] at h
          by_cases hty : y.type = ifaceType mode
          · rw [if_neg (by simp [hty])] at h
            simp only at h
            generalize hk2 : setFd (setIf (tick (setFd (tick k) fd (some {}))) n (some { y with head := !true, busy := true })) fd (some ⟨some n⟩) = k2 at h
            have hat : At .linux k k2 fd n { y with head := !true, busy := true } := by
              subst hk2
              refine ⟨hfree, if_pos rfl, fun m hm => (if_neg hm).trans (if_neg hm), if_pos rfl, fun m hm => if_neg hm, hlen, .inr ⟨by rw [hi]; rfl, ?_⟩⟩
              rcases hw n y hi with h | h
              · exact h
              · rw [hb] at h; cases h
            rw [show ifr n = n from List.take_of_length_le hlen] at h
            cases hm : setMtu sys k2 n mtu with
            | mk b k3 =>
            rw [hm] at h
            cases h
            obtain ⟨z, hz, h1, h2, h3, h4⟩ := setMtu_at hat hm
            refine .inr (.inr ⟨fd, n, z, hz, rfl, rfl, (fun h => by cases h), h1.trans hty, hname, h3, ?_, fun _ _ => h2⟩)
            intro hok y' hy'
            rw [hi] at hy'
            cases hy'
            exact h4 hok
          · rw [if_pos (by simp [hty])] at h
            cases h
            exact .inr (.inl ⟨rfl, fd, rfl, rfl, hfree, if_pos rfl, fun m hm => if_neg hm, rfl⟩)
      | none =>
        rw [hi] at h
        simp only at h
        generalize hk2 : setFd (setIf (tick (setFd (tick k) fd (some {}))) n (some ⟨ifaceType mode, 1500, !true, false, true⟩)) fd (some ⟨some n⟩) = k2 at h
        have hat : At .linux k k2 fd n ⟨ifaceType mode, 1500, !true, false, true⟩ := by
          subst hk2
          exact ⟨hfree, if_pos rfl, fun m hm => (if_neg hm).trans (if_neg hm), if_pos rfl, fun m hm => if_neg hm, hlen, .inl ⟨hi, rfl⟩⟩
        rw [show ifr n = n from List.take_of_length_le hlen] at h
        cases hm : setMtu sys k2 n mtu with
        | mk b k3 =>
        rw [hm] at h
        cases h
        obtain ⟨z, hz, h1, h2, h3, h4⟩ := setMtu_at hat hm
        refine .inr (.inr ⟨fd, n, z, hz, rfl, rfl, (fun h => by cases h), h1, hname, h3, ?_, fun _ _ => h2⟩)
        intro _ y' hy'
        rw [hi] at hy'
        cases hy'

theorem devName_at {sys : Sys} {p : Plat} {k k1 k2 : K} {fd : Nat} {n m : Bytes} {x : If} (h : At p k k1 fd n x)
    (he : devName sys k1 fd = (some m, k2)) : m = n ∧ At p k k2 fd n x := by
  unfold devName at he
  cases ht : sys.tape k1.pos with
  | none => rw [ht] at he; cases he
  | some _ =>
    rw [ht, h.att] at he
    cases he
    exact ⟨rfl, h.tick⟩

theorem setDevMtu_at {sys : Sys} {p : Plat} {k k1 k2 : K} {fd : Nat} {n : Bytes} {x : If} {mtu : Nat} {ok : Bool} (h : At p k k1 fd n x)
    (he : setDevMtu sys k1 fd mtu = (some ok, k2)) :
    ∃ y, At p k k2 fd n y ∧ y.type = x.type ∧ y.head = x.head ∧ (ok = true → y.mtu = mtu) ∧ (ok = false → y.mtu = x.mtu) := by
  unfold setDevMtu at he
  cases hd : devName sys k1 fd with
  | mk a ka =>
  rw [hd] at he
  cases a with
  | none => cases he
  | some m =>
    obtain ⟨rfl, h1⟩ := devName_at h hd
    simp only at he
    cases hp : putMtu sys ka m mtu with
    | mk b kb =>
    rw [hp] at he
    cases he
    exact putMtu_at h1 hp

theorem setupBsd_post {sys : Sys} {k k1 k2 : K} {mode : Mode} {ifname : Option Bytes} {fd : Nat} {n : Bytes} {x : If} {mtu : Nat} {ok cleanup : Bool} {i : Iface}
    (h : At .freebsd k k1 fd n x) (hty : x.type = ifaceType mode) (hmtu : ∀ y, k.ifs n = some y → x.mtu = y.mtu) (hc : cleanup = (k.ifs n).isNone)
    (hn : ∀ m, ifname = some m → (0x25 : UInt8) ∉ m → n = m)
    (he : setupBsd sys k1 mode fd cleanup mtu = (some (ok, i), k2)) : Post .freebsd mode ifname mtu k k2 ok i := by
  unfold setupBsd at he
  cases hd : devName sys k1 fd with
  | mk a ka =>
  rw [hd] at he
  cases a with
  | none => cases he
  | some m =>
    obtain ⟨rfl, h1⟩ := devName_at h hd
    simp only at he
    cases hm : ifaceType mode with
    | tap =>
      rw [hm] at he hty
      simp only at he
      unfold setupTap at he
      cases hd2 : devName sys ka fd with
      | mk a2 ka2 =>
      rw [hd2] at he
      cases a2 with
      | none => cases he
      | some m2 =>
        obtain ⟨rfl, h2⟩ := devName_at h1 hd2
        simp only at he
        cases hs : setDevMtu sys ka2 fd mtu with
        | mk b kb =>
        rw [hs] at he
        cases b with
        | none => cases he
        | some b =>
          simp only at he
          rw [show ifr m2 = m2 from List.take_of_length_le h.len] at he
          cases he
          obtain ⟨y, hy, t1, t2, t3, t4⟩ := setDevMtu_at h2 hs
          refine .inr (.inr ⟨fd, m2, y, hy, rfl, rfl, fun _ => hc, by rw [t1, hty, hm], hn, t3, fun ho z hz => (t4 ho).trans (hmtu z hz), ?_⟩)
          intro _ ho
          rcases ho with ho | ho
          · cases ho
          · subst ho; cases hm
    | tun =>
      rw [hm] at he hty
      simp only at he
      unfold setupTun sifHead at he
      cases ht : sys.tape ka.pos with
      | none =>
        rw [ht] at he
        cases he
        exact .inr (.inr ⟨fd, m, x, h1.tick, rfl, rfl, fun _ => hc, by rw [hty, hm], hn, (fun h => by cases h), fun _ => hmtu, fun h => by cases h⟩)
      | some _ =>
        rw [ht, h1.att] at he
        simp only [Option.bind_some] at he
        rw [h1.iface] at he
        simp only at he
        generalize hk2 : setIf (tick ka) m (some { x with head := true }) = kk at he
        have hat : At .freebsd k kk fd m { x with head := true } := by
          subst hk2
          exact h1.set rfl
        cases hs : setDevMtu sys kk fd mtu with
        | mk b kb =>
        rw [hs] at he
        cases b with
        | none => cases he
        | some b =>
          cases he
          obtain ⟨y, hy, t1, t2, t3, t4⟩ := setDevMtu_at hat hs
          exact .inr (.inr ⟨fd, m, y, hy, rfl, rfl, fun _ => hc, by rw [t1, hm]; exact hty, hn, t3, fun ho z hz => (t4 ho).trans (hmtu z hz), fun _ _ => t2⟩)

theorem openDev_post {sys : Sys} {k k1 : K} {name : Bytes} {r : Option Nat} (h : openDev sys k name = (r, k1)) (hw : Wf .freebsd k)
    (hlen : (if name.length ≤ 3 then sys.clone k.pos (typeOfName name) else name).length ≤ 15) :
    match r with
    | none => k1.ifs = k.ifs ∧ k1.fds = k.fds
    | some fd =>
      ∃ x, At .freebsd k k1 fd (if name.length ≤ 3 then sys.clone k.pos (typeOfName name) else name) x ∧
        x.type = typeOfName (if name.length ≤ 3 then sys.clone k.pos (typeOfName name) else name) ∧
        ∀ y, k.ifs (if name.length ≤ 3 then sys.clone k.pos (typeOfName name) else name) = some y → x.mtu = y.mtu := by
  unfold openDev at h
  cases ht : sys.tape k.pos with
  | none => rw [ht] at h; cases h; exact ⟨rfl, rfl⟩
  | some fd =>
    rw [ht] at h
    simp only at h
    cases hf : k.fds fd with
    | some _ => rw [hf] at h; cases h; exact ⟨rfl, rfl⟩
    | none =>
      rw [hf] at h
      simp only at h
      generalize (if name.length ≤ 3 then sys.clone k.pos (typeOfName name) else name) = n at h hlen ⊢
      cases hi : k.ifs n with
      | some y =>
        rw [hi] at h
        simp only at h
        cases hb : y.busy with
        | true =>
          rw [hb, if_pos rfl] at h
          cases h
          exact ⟨rfl, rfl⟩
        | false =>
          rw [hb, if_neg (by decide)] at h
          cases h
          refine ⟨_, ⟨hf, if_pos rfl, fun m hm => if_neg hm, if_pos rfl, fun m hm => if_neg hm, hlen, .inr ⟨by rw [hi]; rfl, (hw n y hi).1⟩⟩, (hw n y hi).2, ?_⟩
          intro z hz
          cases hz
          rfl
      | none =>
        rw [hi] at h
        cases h
        exact ⟨_, ⟨hf, if_pos rfl, fun m hm => if_neg hm, if_pos rfl, fun m hm => if_neg hm, hlen, .inl ⟨hi, rfl⟩⟩, rfl, fun z hz => by cases hz⟩

theorem typeOfName_prefix {n : Bytes} {t : Type_} (h : n.take 3 = typeName t) : typeOfName n = t := by
  unfold typeOfName
  rw [h]
  cases t <;> rfl

theorem openBsd_post {sys : Sys} {k k1 : K} {mode : Mode} {ifname : Option Bytes} {mtu : Nat} {ok : Bool} {i : Iface}
    (hg : Good sys k) (hw : Wf .freebsd k) (hl : ∀ m, ifname = some m → m ≠ [] ∧ m.length ≤ 15)
    (h : openBsd sys k mode ifname mtu = (some (ok, i), k1)) : Post .freebsd mode ifname mtu k k1 ok i := by
  unfold openBsd at h
  cases ifname with
  | some n =>
    simp only at h
    obtain ⟨-, hlen⟩ := hl n rfl
    by_cases hb : n.length ≤ 3 ∨ n.take 3 ≠ typeName (ifaceType mode)
    · rw [if_pos hb] at h
      cases h
      exact .inl ⟨rfl, rfl, rfl, rfl⟩
    · rw [if_neg hb, show n.take 15 = n from List.take_of_length_le hlen] at h
      have h3 : ¬ n.length ≤ 3 := fun h => hb (.inl h)
      have hpre : n.take 3 = typeName (ifaceType mode) := by
        cases hd : decide (n.take 3 = typeName (ifaceType mode)) with
        | true => exact of_decide_eq_true hd
        | false => exact absurd (.inr (of_decide_eq_false hd)) hb
      cases ho : openDev sys k n with
      | mk a ka =>
      have hp := openDev_post ho hw (by rw [if_neg h3]; exact hlen)
      rw [ho] at h
      cases a with
      | none =>
        cases h
        exact .inl ⟨rfl, rfl, hp.1, hp.2⟩
      | some fd =>
        simp only [if_neg h3] at hp
        obtain ⟨x, hat, hty, hmtu⟩ := hp
        simp only at h
        refine setupBsd_post hat (hty.trans (typeOfName_prefix hpre)) hmtu ?_ ?_ h
        · cases k.ifs n <;> rfl
        · intro m hm _
          cases hm
          rfl
  | none =>
    simp only at h
    have h3 : (typeName (ifaceType mode)).length ≤ 3 := by cases ifaceType mode <;> decide
    have hty' : typeOfName (typeName (ifaceType mode)) = ifaceType mode := by cases ifaceType mode <;> decide
    cases ho : openDev sys k (typeName (ifaceType mode)) with
    | mk a ka =>
    have hp := openDev_post ho hw (by rw [if_pos h3]; exact hg.clone_len _ _)
    rw [ho] at h
    cases a with
    | none =>
      cases h
      exact .inl ⟨rfl, rfl, hp.1, hp.2⟩
    | some fd =>
      simp only [if_pos h3] at hp
      obtain ⟨x, hat, hty, hmtu⟩ := hp
      simp only at h
      refine setupBsd_post hat ?_ hmtu ?_ (fun m hm => by cases hm) h
      · rw [hty, hg.clone_type, hty']
      · rw [hg.clone_new]; rfl

theorem openIface_post {p : Plat} {sys : Sys} {k k1 : K} {mode : Mode} {ifname : Option Bytes} {mtu : Nat} {ok : Bool} {i : Iface}
    (hg : Good sys k) (hw : Wf p k) (hl : ∀ m, ifname = some m → m ≠ [] ∧ m.length ≤ 15)
    (h : openIface p sys k mode ifname mtu = (some (ok, i), k1)) : Post p mode ifname mtu k k1 ok i := by
  cases p with
  | linux => exact openLinux_post hg hw hl h
  | freebsd => exact openBsd_post hg hw hl h

/-- Closing what has been opened -/
theorem close_at {p : Plat} {sys : Sys} {k k1 k2 : K} {fd : Nat} {n : Bytes} {x : If} {b : Bool} (h : At p k k1 fd n x)
    (he : close sys k1 fd = (b, k2)) :
    (∀ m, k2.fds m = k.fds m) ∧ (∀ m, m ≠ n → k2.ifs m = k.ifs m) ∧
    k2.ifs n = (if x.persist then some { x with busy := false } else none) ∧ b = !sys.closeErr k1.pos := by
  unfold close at he
  rw [h.att] at he
  simp only [Option.bind_some] at he
  rw [h.iface] at he
  simp only [Option.bind_some] at he
  cases he
  refine ⟨fun m => ?_, fun m hm => (if_neg hm).trans (h.ifs m hm), if_pos rfl, rfl⟩
  show (if m = fd then none else k1.fds m) = _
  by_cases hm : m = fd
  · rw [if_pos hm, hm, h.free]
  · rw [if_neg hm]; exact h.fds m hm

end Fastd.Net.Tun
