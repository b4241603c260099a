import Verif.Net.TunBsd

/-! # Lemmas about TUN/TAP interfaces of OpenBSD, NetBSD and macOS -/

namespace Fastd.Net.Tun

/-- Existing interfaces: their type follows from their name, those that vanish when they are closed are in use, and headers are as the driver has set them up. Only on
NetBSD headers of TUN interfaces can be switched on and off. -/
structure WfB (p : Bsd) (k : K) : Prop where
  stay : ∀ n i, k.ifs n = some i → i.persist = true ∨ i.busy = true
  type : ∀ n i, k.ifs n = some i → i.type = typeOfName n
  head : ∀ n i, k.ifs n = some i → p ≠ .netbsd ∨ i.type = .tap → i.head = decide (p = .openbsd ∧ i.type = .tun)

/-- The descriptor `fd` has been opened, and it is attached to the interface `n`. -/
structure Node (drv : Driver) (k k1 : K) (fd : Nat) (n : Bytes) (x : If) : Prop where
  free : k.fds fd = none
  att : k1.fds fd = some ⟨some n⟩
  fds : ∀ m, m ≠ fd → k1.fds m = k.fds m
  iface : k1.ifs n = some x
  ifs : ∀ m, m ≠ n → k1.ifs m = k.ifs m
  origin : (k.ifs n = none ∧ x.persist = drv.keep n) ∨ ((k.ifs n).isSome = true ∧ x.persist = true)

variable {drv : Driver} {sys : Sys} {p : Bsd} {k k1 k2 : K} {fd : Nat} {n : Bytes} {x y : If} {mtu : Nat} {ok : Bool}

theorem Node.tick (h : Node drv k k1 fd n x) : Node drv k (tick k1) fd n x :=
  ⟨h.free, h.att, h.fds, h.iface, h.ifs, h.origin⟩

theorem Node.set (h : Node drv k k1 fd n x) (hp : y.persist = x.persist) : Node drv k (setIf (Tun.tick k1) n (some y)) fd n y := by
  refine ⟨h.free, h.att, h.fds, if_pos rfl, fun m hm => (if_neg hm).trans (h.ifs m hm), ?_⟩
  rw [hp]
  exact h.origin

theorem putMtu_node (h : Node drv k k1 fd n x) (he : putMtu sys k1 n mtu = (ok, k2)) :
    ∃ y, Node drv k k2 fd n y ∧ y.type = x.type ∧ y.head = x.head ∧ (ok = true → y.mtu = mtu) ∧ (ok = false → y.mtu = x.mtu) := by
  unfold putMtu at he
  cases ht : sys.tape k1.pos with
  | none =>
    rw [ht] at he
    cases he
    exact ⟨x, h.tick, rfl, rfl, (fun h => by cases h), fun _ => rfl⟩
  | some _ =>
    rw [ht, h.iface] at he
    cases he
    exact ⟨_, h.set rfl, rfl, rfl, fun _ => rfl, fun h => by cases h⟩

theorem setDevMtu_node (h : Node drv k k1 fd n x) (he : setDevMtu sys k1 fd mtu = (some ok, k2)) :
    ∃ y, Node drv k k2 fd n y ∧ y.type = x.type ∧ y.head = x.head ∧ (ok = true → y.mtu = mtu) ∧ (ok = false → y.mtu = x.mtu) := by
  unfold setDevMtu devName at he
  cases ht : sys.tape k1.pos with
  | none => rw [ht] at he; cases he
  | some _ =>
    rw [ht, h.att] at he
    simp only [Option.bind_some] at he
    cases hp : putMtu sys (Tun.tick k1) n mtu with
    | mk b kb =>
    rw [hp] at he
    cases he
    exact putMtu_node h.tick hp

theorem sifHead_node (h : Node drv k k1 fd n x) (he : sifHead sys k1 fd = (ok, k2)) :
    ∃ y, Node drv k k2 fd n y ∧ y.type = x.type ∧ y.mtu = x.mtu ∧ (ok = true → y.head = true) := by
  unfold sifHead at he
  cases ht : sys.tape k1.pos with
  | none =>
    rw [ht] at he
    cases he
    exact ⟨x, h.tick, rfl, rfl, fun h => by cases h⟩
  | some _ =>
    rw [ht, h.att] at he
    simp only [Option.bind_some, h.iface] at he
    cases he
    exact ⟨_, h.set rfl, rfl, rfl, fun _ => rfl⟩

theorem setupNode_node {netbsd : Bool} {mode : Mode} (h : Node drv k k1 fd n x) (hn : n.length ≤ 15) (he : setupNode netbsd sys k1 mode fd n mtu = (ok, k2)) :
    ∃ y, Node drv k k2 fd n y ∧ y.type = x.type ∧ (ok = true → y.head = (if netbsd = true ∧ ifaceType mode = .tun then true else x.head)) ∧
      (ok = true → y.mtu = mtu) ∧ (ok = false → y.mtu = x.mtu) := by
  unfold setupNode at he
  rw [show ifr n = n from List.take_of_length_le hn] at he
  by_cases hc : netbsd = true ∧ ifaceType mode = .tun
  · rw [if_pos hc] at he ⊢
    cases hs : sifHead sys k1 fd with
    | mk b kb =>
    rw [hs] at he
    obtain ⟨y, hy, h1, h2, h3⟩ := sifHead_node h hs
    cases b with
    | false =>
      cases he
      exact ⟨y, hy, h1, (fun h => by cases h), (fun h => by cases h), fun _ => h2⟩
    | true =>
      obtain ⟨z, hz, g1, g2, g3, g4⟩ := putMtu_node hy he
      exact ⟨z, hz, g1.trans h1, fun _ => g2.trans (h3 rfl), g3, fun h => (g4 h).trans h2⟩
  · rw [if_neg hc] at he ⊢
    obtain ⟨z, hz, g1, g2, g3, g4⟩ := putMtu_node h he
    exact ⟨z, hz, g1, fun _ => g2, g3, g4⟩

theorem openNode_node (hw : WfB p k) (he : openNode p drv sys k n = (some fd, k1)) :
    ∃ x, Node drv k k1 fd n x ∧ x.type = typeOfName n ∧ (∀ y, k.ifs n = some y → x.mtu = y.mtu) ∧
      (p ≠ .netbsd ∨ x.type = .tap → x.head = decide (p = .openbsd ∧ x.type = .tun)) := by
  unfold openNode at he
  cases ht : sys.tape k.pos with
  | none => rw [ht] at he; cases he
  | some f =>
    rw [ht] at he
    simp only at he
    cases hf : k.fds f with
    | some _ => rw [hf] at he; cases he
    | none =>
      rw [hf] at he
      simp only at he
      cases hi : k.ifs n with
      | some i =>
        rw [hi] at he
        simp only at he
        cases hb : i.busy with
        | true => rw [hb] at he; cases he
        | false =>
          rw [hb] at he
          cases he
          refine ⟨{ i with busy := true }, ⟨hf, if_pos rfl, fun m hm => if_neg hm, if_pos rfl, fun m hm => if_neg hm, .inr ⟨by rw [hi]; rfl, ?_⟩⟩,
            hw.type n i hi, ?_, hw.head n i hi⟩
          · rcases hw.stay n i hi with h | h
            · exact h
            · rw [hb] at h; cases h
          · intro y hy; cases hy; rfl
      | none =>
        rw [hi] at he
        simp only at he
        cases hcr : drv.create n with
        | false => rw [hcr] at he; cases he
        | true =>
          rw [hcr, if_pos rfl] at he
          cases he
          refine ⟨_, ⟨hf, if_pos rfl, fun m hm => if_neg hm, if_pos rfl, fun m hm => if_neg hm, .inl ⟨hi, rfl⟩⟩, rfl, fun y hy => (by cases hy), fun _ => ?_⟩
          show headAlways p (typeOfName n) = decide (p = .openbsd ∧ typeOfName n = .tun)
          cases p <;> cases typeOfName n <;> rfl

theorem openNode_none (he : openNode p drv sys k n = (none, k1)) : k1.ifs = k.ifs ∧ k1.fds = k.fds := by
  unfold openNode at he
  split at he
  · cases he; exact ⟨rfl, rfl⟩
  · split at he
    · cases he; exact ⟨rfl, rfl⟩
    · split at he
      · split at he
        · cases he; exact ⟨rfl, rfl⟩
        · cases he
      · split at he
        · cases he
        · cases he; exact ⟨rfl, rfl⟩

theorem close_node (h : Node drv k k1 fd n x) :
    (∀ m, (close sys k1 fd).2.fds m = k.fds m) ∧ (∀ m, m ≠ n → (close sys k1 fd).2.ifs m = k.ifs m) ∧
    (close sys k1 fd).2.ifs n = if x.persist then some { x with busy := false } else none := by
  unfold close
  rw [h.att]
  simp only [Option.bind_some, h.iface]
  refine ⟨fun m => ?_, fun m hm => ?_, ?_⟩
  · show (if m = fd then none else k1.fds m) = _
    by_cases hm : m = fd
    · rw [if_pos hm, hm, h.free]
    · rw [if_neg hm]; exact h.fds m hm
  · show (if m = n then _ else k1.ifs m) = _
    rw [if_neg hm]; exact h.ifs m hm
  · show (if n = n then _ else _) = _
    rw [if_pos rfl]

theorem typeOfName_of {n : Bytes} {t : Type_} (h : n.take 3 = typeName t) : typeOfName n = t := by
  unfold typeOfName
  cases t with
  | tap => exact if_pos h
  | tun => rw [if_neg]; rw [h]; decide

/-- What has happened when `open_iface` returns. -/
theorem openNamed_post {mode : Mode} {ifname : Option Bytes} {i : Iface} (hw : WfB p k) (hl : ∀ m, ifname = some m → m.length ≤ 15)
    (h : openNamed p drv sys k mode ifname mtu = (some (ok, i), k1)) :
    (ok = false ∧ i.fd = none ∧ k1.ifs = k.ifs ∧ k1.fds = k.fds) ∨
    ∃ fd n x, ifname = some n ∧ n.take 3 = typeName (ifaceType mode) ∧ i.fd = some fd ∧ i.name = some n ∧ Node drv k k1 fd n x ∧ x.type = ifaceType mode ∧
      (ok = true → x.mtu = mtu) ∧ (ok = false → ∀ y, k.ifs n = some y → x.mtu = y.mtu) ∧
      (ok = true → x.head = decide (p ≠ .apple ∧ mode = .tun)) := by
  unfold openNamed at h
  cases ifname with
  | none => cases h; exact .inl ⟨rfl, rfl, rfl, rfl⟩
  | some n =>
    simp only at h
    by_cases ht : n.take 3 = typeName (ifaceType mode)
    · rw [if_neg (fun hn => hn ht), show n.take 15 = n from List.take_of_length_le (hl n rfl)] at h
      cases ho : openNode p drv sys k n with
      | mk a ka =>
      rw [ho] at h
      cases a with
      | none =>
        cases h
        obtain ⟨h1, h2⟩ := openNode_none ho
        exact .inl ⟨rfl, rfl, h1, h2⟩
      | some fd =>
        right
        obtain ⟨x, hx, hxt, hxm, hxh⟩ := openNode_node hw ho
        have hty : x.type = ifaceType mode := hxt.trans (typeOfName_of ht)
        have htun : ifaceType mode = .tun ↔ mode = .tun := by cases mode <;> simp [ifaceType]
        have hno : mode ≠ .tun → ifaceType mode = .tap := by cases mode <;> simp [ifaceType]
        cases p with
        | openbsd =>
          simp only at h
          cases hm : setDevMtu sys ka fd mtu with
          | mk b kb =>
          rw [hm] at h
          cases b with
          | none => cases h
          | some b =>
            cases h
            obtain ⟨y, hy, g1, g2, g3, g4⟩ := setDevMtu_node hx hm
            refine ⟨fd, n, y, rfl, ht, rfl, rfl, hy, g1.trans hty, g3, fun ho z hz => (g4 ho).trans (hxm z hz), fun _ => ?_⟩
            rw [g2, hxh (.inl (by decide)), hty]
            simp [htun]
        | netbsd =>
          simp only at h
          cases hm : setupNode true sys ka mode fd n mtu with
          | mk b kb =>
          rw [hm] at h
          cases h
          obtain ⟨y, hy, g1, g2, g3, g4⟩ := setupNode_node hx (hl n rfl) hm
          refine ⟨fd, n, y, rfl, ht, rfl, rfl, hy, g1.trans hty, g3, fun ho z hz => (g4 ho).trans (hxm z hz), fun ho => ?_⟩
          rw [g2 ho]
          by_cases hmode : mode = .tun
          · subst hmode; rfl
          · rw [if_neg (fun hc => hmode (htun.1 hc.2)), hxh (.inr (hty.trans (hno hmode)))]
            simp [hmode]
        | apple =>
          simp only at h
          cases hm : setupNode false sys ka mode fd n mtu with
          | mk b kb =>
          rw [hm] at h
          cases h
          obtain ⟨y, hy, g1, g2, g3, g4⟩ := setupNode_node hx (hl n rfl) hm
          refine ⟨fd, n, y, rfl, ht, rfl, rfl, hy, g1.trans hty, g3, fun ho z hz => (g4 ho).trans (hxm z hz), fun ho => ?_⟩
          rw [g2 ho, if_neg (by simp), hxh (.inl (by decide))]
          simp
    · rw [if_pos ht] at h
      cases h
      exact .inl ⟨rfl, rfl, rfl, rfl⟩

end Fastd.Net.Tun
