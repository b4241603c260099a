import Verif.Spec.Caps
import Verif.Props.Start
import Verif.Props.Addr

/-!
# C79: privileges
-/

namespace Fastd.Config.Spec

open Fastd.Config (Bytes lit)
open Fastd.Config.Gram
open Fastd.Config.Exec
open Fastd.Config.Opt
open Fastd.Config.Caps
open Fastd.Config.Start (SEnv Provider Ready SRes persistentIfaces useOffload)

variable {D : Type} {env : SEnv D}

/-! ## Lemmas -/

/-- What is known of a process that has been started -/
structure Facts (env : SEnv D) (its : List (Nat × Item D)) (r : Ready D) : Prop where
  binds : r.st.conf.bindAddrs.reverse = binds env.toEnv its
  default4 : IsDefault (fun b => notV6 b.addr) (·.default4) (Spec.binds env.toEnv its) r.st.conf.default4
  default6 : IsDefault (fun b => notV4 b.addr) (·.default6) (Spec.binds env.toEnv its) r.st.conf.default6
  mark : r.st.conf.packetMark = mark its
  mode : r.st.conf.mode = (last theMode its).getD .tap
  persist : r.st.conf.persist = (last thePersist its).getD true
  dropCaps : r.st.conf.dropCaps = dropWhen its
  user : r.st.conf.user = last theUser its
  group : r.st.conf.group = last theGroup its
  offload : useOffload env.toEnv r.st.conf = true ↔ env.offloadL2tp = true ∧ last theOffload its = some true
  permanent : ∃ b, persistentIfaces env.toEnv r.st = some b ∧ (b = true ↔ Permanent env.toEnv its)
  peers : r.st.peers = its.filterMap (thePeer env.toEnv)
  running : Running env its r

theorem facts (hs : Sane env.toEnv) (hu : env.cmdUser = true → env.useUser = true) {args : List Bytes} (hf : FineArgs args) {d : D} {r : Ready D}
    (h : Start.start env d args = .running r) {as its next} (ha : Accepted env.toOEnv d args as its next) : Facts env its r := by
  obtain ⟨hr, hp, c, hc, hl⟩ := C77_running hs hu hf h ha
  have h2 := (C77_ifaces hs hu hf h ha).2
  have e : r.st.conf.bindAddrs = c.bindAddrs ∧ r.st.conf.default4 = c.default4 ∧ r.st.conf.default6 = c.default6 ∧ r.st.conf.packetMark = c.packetMark ∧ r.st.conf.mode = c.mode ∧
      r.st.conf.persist = c.persist ∧ r.st.conf.dropCaps = c.dropCaps ∧ r.st.conf.user = c.user ∧ r.st.conf.group = c.group ∧ r.st.conf.offloadL2tp = c.offloadL2tp := by
    unfold DefaultLevel at hl
    split at hl <;> rw [hl] <;> simp
  obtain ⟨e1, e2, e3, e4, e5, e6, e7, e8, e9, e10⟩ := e
  refine ⟨?_, ?_, ?_, e4.trans hc.mark, e5.trans hc.mode, e6.trans hc.persist, e7.trans hc.dropCaps, e8.trans hc.user, e9.trans hc.group, ?_, h2, hp, hr⟩
  · rw [e1]; exact hc.binds
  · rw [e2]; have := hc.default4; rw [hc.binds] at this; exact this
  · rw [e3]; have := hc.default6; rw [hc.binds] at this; exact this
  · unfold useOffload
    rw [e10, hc.offload, Bool.and_eq_true]
    cases last theOffload its <;> simp

theorem defaultAddr_iff {its : List (Nat × Item D)} {r : Ready D} (h : Facts env its r) {v6 b} : defaultAddr r.st.conf v6 = some b → Outgoing env.toEnv its v6 b := by
  unfold defaultAddr Outgoing
  intro hd
  split at hd
  · rename_i n hn
    rw [h.binds] at hd
    refine ⟨n, hd, ?_⟩
    cases v6 with
    | true => simp only [if_true] at hn ⊢; rw [← hn]; exact h.default6
    | false => simp only [Bool.false_eq_true, if_false] at hn ⊢; rw [← hn]; exact h.default4
  · cases hd

/-- The default is unique. -/
theorem IsDefault.unique {usable marked : Bind → Bool} {bs : List Bind} {x y} (hx : IsDefault usable marked bs x) (hy : IsDefault usable marked bs y) : x = y := by
  cases x with
  | none =>
    cases y with
    | none => rfl
    | some j =>
      obtain ⟨b, hb, hu, _⟩ := hy
      rw [hx b (List.mem_of_getElem? hb)] at hu; cases hu
  | some i =>
    obtain ⟨a, ha, hau, ham⟩ := hx
    cases y with
    | none => rw [hy a (List.mem_of_getElem? ha)] at hau; cases hau
    | some j =>
      obtain ⟨b, hb, hbu, hbm⟩ := hy
      congr 1
      rcases ham with ⟨h1, h2⟩ | h1 <;> rcases hbm with ⟨h3, h4⟩ | h3
      · rcases Nat.lt_trichotomy i j with h | h | h
        · rw [h2 j b hb h hbu] at h3; cases h3
        · exact h
        · rw [h4 i a ha h hau] at h1; cases h1
      · rw [(h3 i a ha hau).1] at h1; cases h1
      · rw [(h1 j b hb hbu).1] at h3; cases h3
      · have := (h1 j b hb hbu).2; have := (h3 i a ha hau).2; omega

theorem Outgoing.defaultAddr {its : List (Nat × Item D)} {r : Ready D} (h : Facts env its r) {v6 b} (hb : Outgoing env.toEnv its v6 b) : defaultAddr r.st.conf v6 = some b := by
  obtain ⟨n, hn, hd⟩ := hb
  unfold Caps.defaultAddr
  cases v6 with
  | true =>
    simp only [if_true] at hd ⊢
    rw [h.default6.unique hd, h.binds]; exact hn
  | false =>
    simp only [Bool.false_eq_true, if_false] at hd ⊢
    rw [h.default4.unique hd, h.binds]; exact hn

theorem mem_binds {its : List (Nat × Item D)} {v6 b} {env : Env D} (h : Outgoing env its v6 b) : b ∈ binds env its := by
  obtain ⟨n, hn, _⟩ := h
  exact List.mem_of_getElem? hn

theorem port_v6 (a : Bytes) (p : UInt64) : port (v6 a p) = p.toUInt16 := by
  unfold v6
  split <;> rfl

/-- Dynamic addresses have no port. -/
theorem dynamic_port {env : Env D} {its : List (Nat × Item D)} {b} (h : b ∈ binds env its) (hd : b.dynamic = true) : port b.addr = 0 := by
  unfold binds at h
  obtain ⟨x, _, hb⟩ := List.mem_flatMap.1 h
  unfold theBinds at hb
  split at hb
  · rename_i d a p i df hx
    cases a with
    | any =>
      simp only at hb
      split at hb
      · simp only [List.mem_singleton] at hb; subst hb
        simp only [Option.isNone_iff_eq_none] at hd; subst hd; rfl
      · simp only [List.mem_cons, List.not_mem_nil, or_false] at hb
        rcases hb with rfl | rfl <;> (simp only [Option.isNone_iff_eq_none] at hd; subst hd; rfl)
    | v4 a =>
      simp only [List.mem_singleton] at hb
      subst hb
      simp only [Option.isNone_iff_eq_none] at hd
      subst hd
      rfl
    | v6 a =>
      simp only [List.mem_singleton] at hb
      subst hb
      simp only [Option.isNone_iff_eq_none] at hd
      subst hd
      simp only [port_v6, Option.getD_none]
      rfl
  · simp only [List.mem_singleton] at hb
    subst hb
    simp only [Option.isNone_iff_eq_none] at hd
    subst hd
    simp only [port_v6, Option.getD_none]
    rfl
  · cases hb

theorem switches_iff {its : List (Nat × Item D)} {r : Ready D} (h : Facts env its r) : (r.st.conf.user.isSome ∨ r.st.conf.group.isSome) ↔ Switches its := by
  rw [h.user, h.group]; rfl

theorem bind_ok' {α β} {x : Out α} {f : α → Out β} {b} (h : x.bind f = .ok b) : ∃ a, x = .ok a ∧ f a = .ok b := by
  cases x with
  | ok a => exact ⟨a, rfl, h⟩
  | _ => cases h

theorem orExit_ok {α} {x : Option α} {a} (h : orExit x = .ok a) : x = some a := by
  cases x with
  | some b => cases h; rfl
  | none => cases h

/-- The steps of the initialisation -/
structure Steps (env : Env D) (r : Ready D) (pid : Bool) (p : Proc) (t : Times) : Prop where
  preUp : t.preUp = acquire p
  early : r.st.conf.dropCaps = .early ∨ r.st.conf.dropCaps = .force → drop env r (writePid env r pid (setGroups env r t.preUp)) = .ok t.up ∧ t.final = t.up
  late : r.st.conf.dropCaps = .on ∨ r.st.conf.dropCaps = .off → t.up = writePid env r pid (setGroups env r t.preUp)
  on : r.st.conf.dropCaps = .on → drop env r t.up = .ok t.final
  off : r.st.conf.dropCaps = .off → setUser env r t.up = some t.final

theorem steps {env : Env D} {r : Ready D} {pid p t} (h : init env r pid p = .ok t) : Steps env r pid p t := by
  unfold init at h
  simp only at h
  split at h
  · split at h
    · cases h
    · obtain ⟨up, h1, h⟩ := bind_ok' h
      split at h
      · obtain ⟨final, h2, h3⟩ := bind_ok' h
        cases h3
        cases hd : r.st.conf.dropCaps <;> simp [hd] at h1 h2
        · exact ⟨rfl, by simp [hd], fun _ => h1.symm, by simp [hd], fun _ => orExit_ok h2⟩
        · exact ⟨rfl, by simp [hd], fun _ => h1.symm, fun _ => h2, by simp [hd]⟩
        · exact ⟨rfl, fun _ => ⟨h1, h2.symm⟩, by simp [hd], by simp [hd], by simp [hd]⟩
        · exact ⟨rfl, fun _ => ⟨h1, h2.symm⟩, by simp [hd], by simp [hd], by simp [hd]⟩
      · cases h
  · cases h

theorem drop_ok {env : Env D} {r : Ready D} {p q} (h : drop env r p = .ok q) :
    ∃ p' l, setUser env r p = some p' ∧ retained env r.st = some l ∧ q = { p' with permitted := l, effective := l } := by
  unfold drop at h
  obtain ⟨p', h1, h2⟩ := bind_ok' h
  refine ⟨p', ?_⟩
  unfold reacquireDrop at h2
  split at h2
  · cases h2
  · rename_i l hl
    have := orExit_ok h2
    unfold capSetProc at this
    split at this
    · cases this; exact ⟨l, orExit_ok h1, hl, rfl⟩
    · cases this

/-- After the initialisation, there are exactly the capabilities of `retained`. -/
theorem final_caps {env : Env D} {r : Ready D} {pid p t} (h : init env r pid p = .ok t) (hd : r.st.conf.dropCaps ≠ .off) :
    ∃ l, retained env r.st = some l ∧ t.final.permitted = l ∧ t.final.effective = l := by
  have hs := steps h
  have key : ∃ q, drop env r q = .ok t.final := by
    cases hc : r.st.conf.dropCaps with
    | off => exact absurd hc hd
    | on => exact ⟨_, hs.on hc⟩
    | early => have := hs.early (.inl hc); rw [this.2]; exact ⟨_, this.1⟩
    | force => have := hs.early (.inr hc); rw [this.2]; exact ⟨_, this.1⟩
  obtain ⟨q, hq⟩ := key
  obtain ⟨p', l, _, h2, h3⟩ := drop_ok hq
  exact ⟨l, h2, by rw [h3], by rw [h3]⟩

theorem mem_retained {env : Env D} {st : St D} {l} (h : retained env st = some l) (c : Cap) :
    c ∈ l ↔ c = .netAdmin ∧ needAdmin env st = some true ∨ c = .netBindService ∧ needBindService env st = true ∨ c = .netRaw ∧ needRaw env st = true := by
  unfold retained at h
  rw [Option.map_eq_some_iff] at h
  obtain ⟨admin, h1, rfl⟩ := h
  rw [h1]
  cases admin <;> cases needBindService env st <;> cases needRaw env st <;> simp

theorem sockDefault_false {c : Conf} {v6} (h : ∀ b, defaultAddr c v6 = some b → b.dynamic = true) : sockDefault c v6 = false := by
  unfold sockDefault
  split
  · rename_i b hb; simp [h b hb]
  · rfl

/-! ## The properties -/

/-- **C79, operation**: after the initialisation fastd has the privileges for everything it does later. Excluded are: `drop capabilities no` (see `C79_off_partial`),
interfaces with `drop capabilities force` (as documented), and packet marks when connections of one family use a socket with a fixed port, and those of the other do not. -/
theorem C79_partial (hs : Sane env.toEnv) (hu : env.cmdUser = true → env.useUser = true) {args : List Bytes} (hf : FineArgs args) {d : D} {r : Ready D}
    (h : Start.start env d args = .running r) {as its next} (ha : Accepted env.toOEnv d args as its next) {pid p t} (hi : init env.toEnv r pid p = .ok t)
    (hoff : dropWhen its ≠ .off) (hm : mark its ≠ 0 → ∀ v v' b b', Outgoing env.toEnv its v b → Outgoing env.toEnv its v' b' → b.dynamic = b'.dynamic)
    {op} (hl : Later env.toEnv its op) (hforce : op = .iface → dropWhen its ≠ .force) : ∀ c ∈ needs env.toEnv (mark its) op, c ∈ t.final.effective := by
  have hF := facts hs hu hf h ha
  obtain ⟨l, h1, h2, h3⟩ := final_caps hi (by rw [hF.dropCaps]; exact hoff)
  rw [h3]
  obtain ⟨b, hb, hb'⟩ := hF.permanent
  -- a dynamic socket
  have hsock : ∀ b, (∀ c ∈ needs env.toEnv (mark its) (.socket b), c = .netRaw → b.bindtodev.isSome = true → needRaw env.toEnv r.st = true) →
      (mark its ≠ 0 → ∀ v6, sockDefault r.st.conf v6 = false) → port b.addr = 0 → ∀ c ∈ needs env.toEnv (mark its) (.socket b), c ∈ l := by
    intro b hraw hmark hport c hc
    have hc' := hc
    unfold needs at hc
    simp only [List.mem_append, hport] at hc
    rcases hc with (hc | hc) | hc
    · split at hc
      · rename_i hh
        simp only [List.mem_singleton] at hc
        exact (mem_retained h1 c).2 (.inr (.inr ⟨hc, hraw c hc' hc hh.2.1⟩))
      · cases hc
    · split at hc
      · rename_i hh
        simp only [List.mem_singleton] at hc
        refine (mem_retained h1 c).2 (.inl ⟨hc, ?_⟩)
        simp [needAdmin, hb, hmark hh.2, hF.mark, hh]
      · cases hc
    · split at hc
      · rename_i hh; exact absurd hh.1 (by decide)
      · cases hc
  have hoffl : useOffload env.toEnv r.st.conf = true → ∀ c ∈ netCaps, c ∈ l := by
    intro ho c hc
    rw [mem_retained h1]
    simp only [netCaps, List.mem_cons, List.not_mem_nil, or_false] at hc
    rcases hc with rfl | rfl | rfl <;> simp [needAdmin, needBindService, needRaw, hb, ho]
  cases hl with
  | @socket v6 b ho hd =>
    have hda := ho.defaultAddr hF
    refine hsock b ?_ ?_ (dynamic_port (mem_binds ho) hd)
    · intro _ _ _ hdev
      have : sockDefault r.st.conf v6 = false := by simp [sockDefault, hda, hd]
      unfold needRaw
      cases v6 <;> simp [hda, this, hdev]
    · intro hmk v
      exact sockDefault_false fun b' hb' => (hm hmk v v6 b' b (defaultAddr_iff hF hb') ho).trans hd
  | @any b hn hdev hport =>
    refine hsock b (fun _ _ _ hh => by rw [hdev] at hh; cases hh) (fun _ v => sockDefault_false fun b' hb' => ?_) hport
    have := mem_binds (defaultAddr_iff hF hb')
    rw [hn] at this; cases this
  | iface hmode hw =>
    intro c hc
    simp only [needs, List.mem_singleton] at hc
    refine (mem_retained h1 c).2 (.inl ⟨hc, ?_⟩)
    have hbf : b = false := by
      rw [← Bool.not_eq_true, hb']
      unfold Permanent
      rintro (hh | ⟨h4, h5, h6⟩)
      · exact hmode hh
      · rcases hw with hw | ⟨x, hx, hw⟩ | ⟨x, hx, hw⟩
        · exact h4 hw
        · rw [h5 x hx] at hw; cases hw
        · rw [h6 x hx] at hw; cases hw
    have := hforce rfl
    simp [needAdmin, hb, hbf, hF.dropCaps, this]
  | offload h4 h5 =>
    intro c hc
    refine hoffl (hF.offload.2 ⟨h4, h5⟩) c ?_
    unfold needs at hc
    split at hc
    · simp only [List.mem_append] at hc
      rcases hc with (hc | hc) | hc <;> (split at hc <;> simp at hc; subst hc; simp [netCaps])
    · simp only [List.mem_singleton] at hc; subst hc; simp [netCaps]

/-- The sockets opened by `fastd_peer_reset_socket` are those of `Later`. -/
theorem C79_sockets (hs : Sane env.toEnv) (hu : env.cmdUser = true → env.useUser = true) {args : List Bytes} (hf : FineArgs args) {d : D} {r : Ready D}
    (h : Start.start env d args = .running r) {as its next} (ha : Accepted env.toOEnv d args as its next) {v6 op} (ho : resetSocket r.st.conf v6 = some op) :
    Later env.toEnv its op := by
  have hF := facts hs hu hf h ha
  unfold resetSocket at ho
  split at ho
  · cases ho
  · rename_i hsd
    rw [Option.map_eq_some_iff] at ho
    obtain ⟨b, h1, rfl⟩ := ho
    unfold socketOpen at h1
    split at h1
    · rename_i b' hb'
      cases h1
      refine .socket (defaultAddr_iff hF hb') ?_
      simpa [sockDefault, hb'] using hsd
    · split at h1
      · rename_i hn
        cases h1
        have hnone : ∀ v6 : Bool, (if v6 then r.st.conf.default6 else r.st.conf.default4) = none := by
          intro v
          have h3 : defaultAddr r.st.conf v = none := by
            cases v
            · simpa using hn.2
            · simpa using hn.1
          unfold defaultAddr at h3
          split at h3
          · rename_i n hn'
            rw [hF.binds] at h3
            cases v with
            | true =>
              have h5 := hF.default6
              simp only [if_true] at hn'
              rw [hn'] at h5
              obtain ⟨_, h6, _⟩ := h5
              rw [h3] at h6; cases h6
            | false =>
              have h5 := hF.default4
              simp only [Bool.false_eq_true, if_false] at hn'
              rw [hn'] at h5
              obtain ⟨_, h6, _⟩ := h5
              rw [h3] at h6; cases h6
          · assumption
        refine .any ?_ rfl (by cases v6 <;> rfl)
        have h4 := hF.default4
        have h6 := hF.default6
        rw [show r.st.conf.default4 = none from hnone false] at h4
        rw [show r.st.conf.default6 = none from hnone true] at h6
        cases hbs : binds env.toEnv its with
        | nil => rfl
        | cons x xs =>
          rw [hbs] at h4 h6
          have h7 : notV6 x.addr = false := h4 x (by simp)
          have h8 : notV4 x.addr = false := h6 x (by simp)
          revert h7 h8
          cases x.addr <;> simp [notV4, notV6]
      · cases h1

theorem accepted_valid {args : List Bytes} {d : D} {as its next} (ha : Accepted env.toOEnv d args as its next) : ∀ x ∈ its, Valid env.toEnv x.2 := by
  obtain ⟨_, _, _, _, _, hv, _⟩ := ha
  exact hv

theorem linkLocal_v6 {ip : Bytes} (n : UInt64) (h : Fastd.Daemon.linkLocal (vec16 ip) = true) : isV6LinkLocal (v6 ip n) = true := by
  unfold v6
  split
  · rename_i hm
    rw [Fastd.Daemon.v4Mapped_not_ll _ hm] at h; cases h
  · exact h

/-- Devices are refused where they can not be used. -/
theorem device_valid {its : List (Nat × Item D)} {env : Env D} (hv : ∀ x ∈ its, Valid env x.2) {b} (hb : b ∈ binds env its) (hdev : b.bindtodev.isSome = true)
    (hll : isV6LinkLocal b.addr = false) : env.bindToDevice = true := by
  unfold binds at hb
  obtain ⟨x, hx, hb⟩ := List.mem_flatMap.1 hb
  have hval := hv x hx
  unfold theBinds at hb
  split at hb
  · rename_i d a p i df hxe
    rw [hxe] at hval
    simp only [Valid] at hval
    have key : b.bindtodev = i ∧ ((∀ ip, a ≠ .v6 ip) ∨ ∃ ip, a = .v6 ip ∧ b.addr = v6 ip (p.getD 0)) := by
      cases a with
      | any =>
        simp only at hb
        split at hb
        · simp only [List.mem_singleton] at hb; subst hb; exact ⟨rfl, .inl (by simp)⟩
        · simp only [List.mem_cons, List.not_mem_nil, or_false] at hb
          rcases hb with rfl | rfl <;> exact ⟨rfl, .inl (by simp)⟩
      | v4 a => simp only [List.mem_singleton] at hb; subst hb; exact ⟨rfl, .inl (by simp)⟩
      | v6 a =>
        simp only [List.mem_singleton] at hb
        exact ⟨by rw [hb], .inr ⟨a, rfl, by rw [hb]⟩⟩
    obtain ⟨rfl, hcase⟩ := key
    rcases hval.2 hdev with hh | ⟨ip, he, hl⟩
    · exact hh
    · rcases hcase with hc | ⟨ip', he', hc⟩
      · exact absurd he (hc ip)
      · rw [he] at he'; cases he'
        rw [hc, linkLocal_v6 _ hl] at hll; cases hll
  · rename_i d a i p df hxe
    rw [hxe] at hval
    simp only [Valid] at hval
    simp only [List.mem_singleton] at hb
    subst hb
    rcases hval.2 with hh | hl
    · exact hh
    · simp only [linkLocal_v6 _ hl] at hll; cases hll
  · cases hb

/-- **C79, least privilege**: every capability that is kept is needed for something fastd does later. Excluded are offloading, and devices for link-local addresses. Without
`drop capabilities no`, there are no other capabilities. -/
theorem C79_least_partial (hs : Sane env.toEnv) (hu : env.cmdUser = true → env.useUser = true) {args : List Bytes} (hf : FineArgs args) {d : D} {r : Ready D}
    (h : Start.start env d args = .running r) {as its next} (ha : Accepted env.toOEnv d args as its next) {pid p t} (hi : init env.toEnv r pid p = .ok t)
    (hoff : dropWhen its ≠ .off) (hno : last theOffload its ≠ some true)
    (hll : ∀ v b, Outgoing env.toEnv its v b → b.dynamic = true → isV6LinkLocal b.addr = false) :
    ∀ c, (c ∈ t.final.permitted ↔ c ∈ t.final.effective) ∧ (c ∈ t.final.permitted → ∃ op, Later env.toEnv its op ∧ c ∈ needs env.toEnv (mark its) op) := by
  have hF := facts hs hu hf h ha
  obtain ⟨l, h1, h2, h3⟩ := final_caps hi (by rw [hF.dropCaps]; exact hoff)
  intro c
  rw [h2, h3]
  refine ⟨Iff.rfl, fun hc => ?_⟩
  have hno' : useOffload env.toEnv r.st.conf = false := by rw [← Bool.not_eq_true, hF.offload]; exact fun hh => hno hh.2
  rw [mem_retained h1] at hc
  obtain ⟨b, hb, hb'⟩ := hF.permanent
  rcases hc with ⟨rfl, hc⟩ | ⟨rfl, hc⟩ | ⟨rfl, hc⟩
  · simp only [needAdmin, hb, hno', Bool.or_false, Option.some.injEq, Bool.or_eq_true, Bool.and_eq_true] at hc
    rcases hc with ⟨hc, _⟩ | ⟨hpm, hnd, hmk⟩
    · refine ⟨.iface, ?_, by simp [needs]⟩
      have : ¬ Permanent env.toEnv its := by rw [← hb']; simpa using hc
      unfold Permanent at this
      rw [not_or] at this
      refine .iface this.1 ?_
      by_contra hcon
      rw [not_or] at hcon
      refine this.2 ⟨hcon.1, ?_, ?_⟩
      · intro x hx
        by_contra hne
        exact hcon.2 (.inl ⟨x, hx, Option.isSome_iff_ne_none.2 hne⟩)
      · intro x hx
        by_contra hne
        exact hcon.2 (.inr ⟨x, hx, Option.isSome_iff_ne_none.2 hne⟩)
    · -- there is a family for which a socket is opened
      have hex : ∃ v6 op, resetSocket r.st.conf v6 = some op := by
        simp only [Bool.not_eq_true', Bool.or_eq_false_iff] at hnd
        cases h4 : defaultAddr r.st.conf false with
        | some x => exact ⟨false, .socket x, by simp [resetSocket, hnd.1, socketOpen, h4]⟩
        | none =>
          cases h6 : defaultAddr r.st.conf true with
          | some x => exact ⟨true, .socket x, by simp [resetSocket, hnd.2, socketOpen, h6]⟩
          | none => exact ⟨false, _, by simp [resetSocket, hnd.1, socketOpen, h4, h6]; rfl⟩
      obtain ⟨v6, op, hop⟩ := hex
      refine ⟨op, C79_sockets hs hu hf h ha hop, ?_⟩
      have hsock : ∃ x, op = .socket x := by
        unfold resetSocket at hop
        split at hop
        · cases hop
        · rw [Option.map_eq_some_iff] at hop
          obtain ⟨x, _, rfl⟩ := hop
          exact ⟨x, rfl⟩
      obtain ⟨x, rfl⟩ := hsock
      have hmk' : mark its ≠ 0 := by rw [← hF.mark]; simpa using hmk
      simp [needs, hpm, hmk']
  · rw [needBindService, hno'] at hc; cases hc
  · unfold needRaw at hc
    rw [hno', Bool.or_false, Bool.or_eq_true] at hc
    have key : ∃ v6 x, defaultAddr r.st.conf v6 = some x ∧ sockDefault r.st.conf v6 = false ∧ x.bindtodev.isSome = true := by
      rcases hc with hc | hc <;> split at hc
      · rename_i x hx; simp only [Bool.and_eq_true, Bool.not_eq_true'] at hc; exact ⟨_, x, hx, hc.1, hc.2⟩
      · cases hc
      · rename_i x hx; simp only [Bool.and_eq_true, Bool.not_eq_true'] at hc; exact ⟨_, x, hx, hc.1, hc.2⟩
      · cases hc
    obtain ⟨v6, x, hx, hsd, hdev⟩ := key
    have hdyn : x.dynamic = true := by simpa [sockDefault, hx] using hsd
    have ho := defaultAddr_iff hF hx
    have hxl := hll v6 x ho hdyn
    refine ⟨.socket x, .socket ho hdyn, ?_⟩
    simp [needs, hdev, hxl, device_valid (accepted_valid ha) (mem_binds ho) hdev hxl]

/-! ## Users and groups -/

theorem fixup_ids (p q : Proc) : (fixup p q).ruid = q.ruid ∧ (fixup p q).euid = q.euid ∧ (fixup p q).suid = q.suid ∧ (fixup p q).rgid = q.rgid ∧ (fixup p q).egid = q.egid ∧
    (fixup p q).sgid = q.sgid ∧ (fixup p q).groups = q.groups ∧ (fixup p q).keep = q.keep := by
  unfold fixup
  simp only
  split <;> split <;> split <;> simp

theorem setUser_some {env : Env D} {r : Ready D} {p q} (h : setUser env r p = some q) :
    (env.useUser = true ∧ (r.st.conf.user.isSome ∨ r.st.conf.group.isSome) →
      q.ruid = r.uid ∧ q.euid = r.uid ∧ q.suid = r.uid ∧ q.rgid = r.gid ∧ q.egid = r.gid ∧ q.sgid = r.gid) ∧
    (¬ (env.useUser = true ∧ (r.st.conf.user.isSome ∨ r.st.conf.group.isSome)) → q = p) := by
  unfold setUser at h
  split at h
  · rename_i hc
    refine ⟨fun _ => ?_, fun hn => absurd hc hn⟩
    rw [Option.bind_eq_some_iff] at h
    obtain ⟨p', h1, h2⟩ := h
    unfold setresgid at h1
    split at h1
    · cases h1
      unfold setresuid at h2
      split at h2
      · cases h2
        obtain ⟨e1, e2, e3, e4, e5, e6, _, _⟩ := fixup_ids { p with rgid := r.gid, egid := r.gid, sgid := r.gid }
          { p with rgid := r.gid, egid := r.gid, sgid := r.gid, ruid := r.uid, euid := r.uid, suid := r.uid }
        exact ⟨e1, e2, e3, e4, e5, e6⟩
      · cases h2
    · cases h1
  · rename_i hc
    cases h
    exact ⟨fun hh => absurd hh hc, fun _ => rfl⟩

theorem useUser_of {its : List (Nat × Item D)} {env : Env D} (hv : ∀ x ∈ its, Valid env x.2) (h : Switches its) : env.useUser = true := by
  have key : ∀ {α} (f : Item D → Option α), (last f its).isSome → ∃ x ∈ its, (f x.2).isSome := by
    intro α f hf
    obtain ⟨a, ha⟩ := Option.isSome_iff_exists.1 hf
    unfold last at ha
    have := List.mem_of_getLast? ha
    obtain ⟨x, hx, hxa⟩ := List.mem_filterMap.1 this
    exact ⟨x, hx, by rw [hxa]; rfl⟩
  rcases h with h | h
  · obtain ⟨x, hx, hu⟩ := key _ h
    have := hv x hx
    revert this hu
    cases x.2 with
    | simple d s => cases s <;> simp [theUser, Valid]
    | _ => simp [theUser]
  · obtain ⟨x, hx, hu⟩ := key _ h
    have := hv x hx
    revert this hu
    cases x.2 with
    | simple d s => cases s <;> simp [theGroup, Valid]
    | _ => simp [theGroup]

/-- After the initialisation, `setUser` has been applied. -/
theorem final_user {env : Env D} {r : Ready D} {pid p t} (h : init env r pid p = .ok t) :
    ∃ q q', setUser env r q = some q' ∧ q = writePid env r pid (setGroups env r (acquire p)) ∧ ∃ c e, t.final = { q' with permitted := c, effective := e } := by
  have hs := steps h
  have key : ∀ q, drop env r q = .ok t.final → ∃ q', setUser env r q = some q' ∧ ∃ c e, t.final = { q' with permitted := c, effective := e } := by
    intro q hq
    obtain ⟨q', l, h1, _, h3⟩ := drop_ok hq
    exact ⟨q', h1, l, l, h3⟩
  cases hc : r.st.conf.dropCaps with
  | off =>
    refine ⟨_, t.final, ?_, rfl, t.final.permitted, t.final.effective, rfl⟩
    rw [← hs.preUp, ← hs.late (.inr hc)]; exact hs.off hc
  | on =>
    obtain ⟨q', h1, h2⟩ := key _ (hs.on hc)
    refine ⟨_, q', ?_, rfl, h2⟩
    rw [← hs.preUp, ← hs.late (.inl hc)]; exact h1
  | early =>
    have he := hs.early (.inl hc)
    obtain ⟨q', h1, h2⟩ := key _ (he.2 ▸ he.1)
    exact ⟨_, q', by rw [← hs.preUp]; exact h1, rfl, h2⟩
  | force =>
    have he := hs.early (.inr hc)
    obtain ⟨q', h1, h2⟩ := key _ (he.2 ▸ he.1)
    exact ⟨_, q', by rw [← hs.preUp]; exact h1, rfl, h2⟩

/-- **C79, user**: if a user or a group is configured, then fastd runs as the user and the group of C77 after the initialisation, and can not return to the previous ones. -/
theorem C79_user (hs : Sane env.toEnv) (hu : env.cmdUser = true → env.useUser = true) {args : List Bytes} (hf : FineArgs args) {d : D} {r : Ready D}
    (h : Start.start env d args = .running r) {as its next} (ha : Accepted env.toOEnv d args as its next) {pid p t} (hi : init env.toEnv r pid p = .ok t)
    (hsw : Switches its) : ∃ groups, Ids env its t.final.euid t.final.egid groups ∧
    t.final.ruid = t.final.euid ∧ t.final.suid = t.final.euid ∧ t.final.rgid = t.final.egid ∧ t.final.sgid = t.final.egid := by
  have hF := facts hs hu hf h ha
  obtain ⟨q, q', h1, _, c, e, h3⟩ := final_user hi
  have huu := useUser_of (accepted_valid ha) hsw
  obtain ⟨e1, e2, e3, e4, e5, e6⟩ := (setUser_some h1).1 ⟨huu, (switches_iff hF).2 hsw⟩
  refine ⟨r.groups, ?_⟩
  rw [h3]
  simp only
  rw [e1, e2, e3, e4, e5, e6]
  exact ⟨hF.running.ids huu, rfl, rfl, rfl, rfl⟩

/-! ## Root -/

/-- `Root`, with the flag for capabilities set -/
structure RootK (p : Proc) : Prop where
  root : Root p
  keep : p.keep = true

theorem tryCap_root {p : Proc} (h : Root p) {c} (hc : c ∈ netCaps ++ [.setuid, .setgid]) : tryCap c p = p := by
  unfold tryCap
  rw [if_pos (h.caps c hc).2]

theorem acquire_root {p : Proc} (h : Root p) : RootK (acquire p) := by
  unfold acquire
  rw [tryCap_root h (by simp [netCaps]), tryCap_root h (by simp [netCaps]), tryCap_root h (by simp [netCaps])]
  exact ⟨⟨h.uid, h.caps⟩, rfl⟩

theorem setGroups_root {env : Env D} {r : Ready D} {p : Proc} (h : RootK p) : RootK (setGroups env r p) := by
  have key : ∀ gs, RootK ((setgroups gs p).getD p) := by
    intro gs
    unfold setgroups
    split
    · exact ⟨⟨h.root.uid, h.root.caps⟩, h.keep⟩
    · exact h
  unfold setGroups
  split
  · split
    · exact key _
    · split
      · exact key _
      · exact h
  · exact h

theorem setegid_root {p : Proc} {g} (h : RootK p) : RootK ((setegid g p).getD p) := by
  unfold setegid
  split
  · exact ⟨⟨h.root.uid, h.root.caps⟩, h.keep⟩
  · exact h

theorem seteuid_same {p : Proc} (h : p.euid = p.ruid) : seteuid p.euid p = some p := by
  unfold seteuid
  rw [if_pos (.inr (.inl h))]
  unfold fixup
  simp only
  split
  · rename_i hh
    exact absurd hh (by rintro ⟨h1 | h1 | h1, h2, h3, h4, _⟩ <;> contradiction)
  · split
    · rename_i hh; exact absurd hh.1 hh.2
    · split
      · rename_i hh; exact absurd hh.2 hh.1
      · rfl

theorem seteuid_root {p : Proc} (u : UInt32) (h : RootK p) : RootK ((seteuid 0 ((seteuid u p).getD p)).getD ((seteuid u p).getD p)) := by
  obtain ⟨⟨⟨h1, h2, h3⟩, h4⟩, h5⟩ := h
  have hset : Cap.setuid ∈ p.effective := (h4 _ (by simp)).2
  by_cases hu : u = 0
  · subst hu
    have e : seteuid 0 p = some p := by rw [← h2]; exact seteuid_same (h2.trans h1.symm)
    simp only [e, Option.getD_some]
    exact ⟨⟨⟨h1, h2, h3⟩, h4⟩, h5⟩
  · have e : seteuid u p = some { p with euid := u, effective := [] } := by
      unfold seteuid fixup
      simp [h1, h2, hset, hu]
    rw [e, Option.getD_some]
    have e' : seteuid 0 { p with euid := u, effective := [] } = some { p with euid := 0, effective := p.permitted } := by
      unfold seteuid fixup
      simp [h1, hu]
    rw [e', Option.getD_some]
    exact ⟨⟨⟨h1, rfl, h3⟩, fun c hc => ⟨(h4 c hc).1, (h4 c hc).1⟩⟩, h5⟩

theorem writePid_root {env : Env D} {r : Ready D} {pid} {p : Proc} (h : RootK p) : RootK (writePid env r pid p) := by
  unfold writePid
  split
  · simp only
    refine setegid_root ?_
    rw [h.root.uid.2.1]
    split
    · exact seteuid_root _ (setegid_root h)
    · have e : seteuid 0 p = some p := by rw [← h.root.uid.2.1]; exact seteuid_same (h.root.uid.2.1.trans h.root.uid.1.symm)
      rw [e]
      exact h
  · exact h

/-- Root can become any user, and keeps the permitted capabilities. -/
theorem setUser_root {env : Env D} {r : Ready D} {p : Proc} (h : RootK p) : ∃ q, setUser env r p = some q ∧ ∀ c ∈ netCaps, c ∈ q.permitted := by
  unfold setUser
  split
  · have hg : Cap.setgid ∈ p.effective := (h.root.caps _ (by simp)).2
    have hu : Cap.setuid ∈ p.effective := (h.root.caps _ (by simp)).2
    simp only [setresgid, hg, true_or, if_true, Option.bind_some, setresuid, hu]
    refine ⟨_, rfl, fun c hc => ?_⟩
    have := (h.root.caps c (by simp [hc])).1
    unfold fixup
    simp only [h.keep]
    split
    · rename_i hh; simp at hh
    · split <;> split <;> exact this
  · exact ⟨p, rfl, fun c hc => (h.root.caps c (by simp [hc])).1⟩

theorem drop_root {env : Env D} {r : Ready D} {p : Proc} (h : RootK p) {b} (hb : persistentIfaces env r.st = some b) : ∃ q, drop env r p = .ok q := by
  obtain ⟨q, h1, h2⟩ := setUser_root (env := env) (r := r) h
  have hr : ∃ l, retained env r.st = some l := by simp [retained, needAdmin, hb]
  obtain ⟨l, hl⟩ := hr
  refine ⟨{ q with permitted := l, effective := l }, ?_⟩
  unfold drop
  rw [h1]
  simp only [orExit, Out.bind, reacquireDrop, hl]
  unfold capSetProc
  rw [if_pos]
  refine ⟨fun c hc => h2 c ?_, fun c hc => hc⟩
  rw [mem_retained hl] at hc
  rcases hc with ⟨rfl, _⟩ | ⟨rfl, _⟩ | ⟨rfl, _⟩ <;> simp [netCaps]

theorem needs_net {env : Env D} {mk op} : ∀ c ∈ needs env mk op, c ∈ netCaps := by
  intro c hc
  unfold needs at hc
  split at hc
  · simp only [List.mem_append] at hc
    rcases hc with (hc | hc) | hc <;> (split at hc <;> simp at hc; subst hc; simp [netCaps])
  · simp only [List.mem_singleton] at hc; subst hc; simp [netCaps]

theorem permits_net {env : Env D} {c : Conf} {p : Proc} (h : ∀ x ∈ netCaps, x ∈ p.effective) (op) : permits env c p op = true := by
  unfold permits
  rw [List.all_eq_true]
  intro x hx
  simpa using h x (needs_net x hx)

theorem RootK.net {p : Proc} (h : RootK p) : ∀ x ∈ netCaps, x ∈ p.effective := fun x hx => (h.root.caps x (by simp [hx])).2

/-- **C79, start**: the privileges of root suffice for the initialisation, with the exception of: `drop capabilities early` or `force`, and interfaces of peers that are
created at the start. -/
theorem C79_start_partial (hs : Sane env.toEnv) (hu : env.cmdUser = true → env.useUser = true) {args : List Bytes} (hf : FineArgs args) {d : D} {r : Ready D}
    (h : Start.start env d args = .running r) {as its next} (ha : Accepted env.toOEnv d args as its next) (pid) {p} (hp : Root p)
    (hx : dropWhen its = .on ∨ dropWhen its = .off ∨ (last theMode its).getD .tap = .tap ∨ last thePersist its = some false ∨ (∀ q ∈ its.filterMap (thePeer env.toEnv), q.disabled = true)) :
    ∃ t, init env.toEnv r pid p = .ok t := by
  have hF := facts hs hu hf h ha
  obtain ⟨b, hb, _⟩ := hF.permanent
  have h1 := acquire_root hp
  have h2 : RootK (writePid env.toEnv r pid (setGroups env.toEnv r (acquire p))) := writePid_root (setGroups_root h1)
  unfold init
  simp only
  rw [if_pos (by rw [List.all_eq_true]; intro op _; exact permits_net h1.net op), if_neg (by rw [permits_net h1.net]; simp)]
  have hup : ∃ up, (if r.st.conf.dropCaps = .early ∨ r.st.conf.dropCaps = .force then drop env.toEnv r (writePid env.toEnv r pid (setGroups env.toEnv r (acquire p)))
      else .ok (writePid env.toEnv r pid (setGroups env.toEnv r (acquire p)))) = .ok up ∧ (r.st.conf.dropCaps = .on ∨ r.st.conf.dropCaps = .off → RootK up) := by
    split
    · rename_i hc
      obtain ⟨q, hq⟩ := drop_root h2 hb
      refine ⟨q, hq, fun hc' => ?_⟩
      rcases hc with hc | hc <;> rw [hc] at hc' <;> simp at hc'
    · exact ⟨_, rfl, fun _ => h2⟩
  obtain ⟨up, hup, hroot⟩ := hup
  rw [hup]
  simp only [Out.bind]
  have hif : (peerIfaces r.st).all (permits env.toEnv r.st.conf up) = true := by
    have hnil : ((last theMode its).getD .tap = .tap ∨ last thePersist its = some false ∨ (∀ q ∈ its.filterMap (thePeer env.toEnv), q.disabled = true)) → peerIfaces r.st = [] := by
      rintro (hh | hh | hh)
      · unfold peerIfaces; rw [hF.mode, hh]; simp
      · unfold peerIfaces; rw [hF.persist, hh]; simp
      · unfold peerIfaces
        split
        · rw [List.map_eq_nil_iff, List.filter_eq_nil_iff, hF.peers]
          intro q hq; simp [hh q hq]
        · rfl
    rcases hx with hx | hx | hx
    · rw [List.all_eq_true]; intro op _; exact permits_net (hroot (.inl (by rw [hF.dropCaps]; exact hx))).net op
    · rw [List.all_eq_true]; intro op _; exact permits_net (hroot (.inr (by rw [hF.dropCaps]; exact hx))).net op
    · rw [hnil hx]; rfl
  rw [if_pos hif]
  have hfin : ∃ q, (if r.st.conf.dropCaps = .on then drop env.toEnv r up else if r.st.conf.dropCaps = .off then orExit (setUser env.toEnv r up) else .ok up) = .ok q := by
    split
    · rename_i hc
      exact drop_root (hroot (.inl hc)) hb
    · split
      · rename_i hc
        obtain ⟨q, hq, _⟩ := setUser_root (env := env.toEnv) (r := r) (hroot (.inr hc))
        rw [hq]; exact ⟨_, rfl⟩
      · exact ⟨_, rfl⟩
  obtain ⟨q, hq⟩ := hfin
  rw [hq]
  exact ⟨_, rfl⟩

/-- **C79, commands**: when fastd is started by root, then `on pre-up` is executed with the privileges of root; so is `on up`, unless `drop capabilities` is `early` or
`force`; then it is executed with the user and the capabilities that fastd has after the initialisation. -/
theorem C79_commands (hs : Sane env.toEnv) (hu : env.cmdUser = true → env.useUser = true) {args : List Bytes} (hf : FineArgs args) {d : D} {r : Ready D}
    (h : Start.start env d args = .running r) {as its next} (ha : Accepted env.toOEnv d args as its next) {pid p t} (hi : init env.toEnv r pid p = .ok t) (hp : Root p) :
    Root t.preUp ∧ (dropWhen its = .on ∨ dropWhen its = .off → Root t.up) ∧ (dropWhen its = .early ∨ dropWhen its = .force → t.up = t.final) := by
  have hF := facts hs hu hf h ha
  have hst := steps hi
  have h1 := acquire_root hp
  rw [← hF.dropCaps]
  refine ⟨by rw [hst.preUp]; exact h1.root, fun hd => ?_, fun hd => (hst.early hd).2.symm⟩
  rw [hst.late hd, hst.preUp]
  exact (writePid_root (setGroups_root h1)).root

theorem tryCap_mono {c x : Cap} {p : Proc} (h : x ∈ p.effective) : x ∈ (tryCap c p).effective := by
  unfold tryCap
  split
  · exact h
  · unfold capSetProc
    split
    · exact List.mem_cons_of_mem _ h
    · exact h

theorem tryCap_permitted {c : Cap} {p : Proc} : (tryCap c p).permitted = p.permitted := by
  unfold tryCap
  split
  · rfl
  · unfold capSetProc
    split <;> rfl

theorem tryCap_mem {c : Cap} {p : Proc} (h : c ∈ p.permitted) (he : ∀ x ∈ p.effective, x ∈ p.permitted) : c ∈ (tryCap c p).effective := by
  unfold tryCap
  split
  · assumption
  · unfold capSetProc
    rw [if_pos ⟨fun _ h => h, by intro x hx; rcases List.mem_cons.1 hx with rfl | hx; exacts [h, he x hx]⟩]
    exact List.mem_cons_self

theorem tryCap_sub {c : Cap} {p : Proc} (he : ∀ x ∈ p.effective, x ∈ p.permitted) : ∀ x ∈ (tryCap c p).effective, x ∈ (tryCap c p).permitted := by
  rw [tryCap_permitted]
  unfold tryCap
  split
  · exact he
  · unfold capSetProc
    split
    · rename_i h; exact h.2
    · exact he

theorem acquire_net {p : Proc} (hc : ∀ c ∈ netCaps, c ∈ p.permitted) (he : ∀ c ∈ p.effective, c ∈ p.permitted) : ∀ c ∈ netCaps, c ∈ (acquire p).effective := by
  intro c hcn
  unfold acquire
  simp only
  have e1 := tryCap_sub (c := .netAdmin) he
  have e2 := tryCap_sub (c := .netBindService) e1
  have hp := hc c hcn
  simp only [netCaps, List.mem_cons, List.not_mem_nil, or_false] at hcn
  rcases hcn with rfl | rfl | rfl
  · exact tryCap_mono (tryCap_mono (tryCap_mem hp he))
  · exact tryCap_mono (tryCap_mem (by rw [tryCap_permitted]; exact hp) e1)
  · exact tryCap_mem (by rw [tryCap_permitted, tryCap_permitted]; exact hp) e2

/-- **C79, no drop**: with `drop capabilities no`, and without a configured user or group, everything is permitted for which the capabilities have been given to fastd. -/
theorem C79_off_partial (hs : Sane env.toEnv) (hu : env.cmdUser = true → env.useUser = true) {args : List Bytes} (hf : FineArgs args) {d : D} {r : Ready D}
    (h : Start.start env d args = .running r) {as its next} (ha : Accepted env.toOEnv d args as its next) {pid p t} (hi : init env.toEnv r pid p = .ok t)
    (hoff : dropWhen its = .off) (hsw : ¬ Switches its) (hc : ∀ c ∈ netCaps, c ∈ p.permitted) (he : ∀ c ∈ p.effective, c ∈ p.permitted) (huid : p.euid = p.ruid) :
    ∀ op, ∀ c ∈ needs env.toEnv (mark its) op, c ∈ t.final.effective := by
  have hF := facts hs hu hf h ha
  have hst := steps hi
  have hd : r.st.conf.dropCaps = .off := by rw [hF.dropCaps]; exact hoff
  have hn : ¬ (r.st.conf.user.isSome ∨ r.st.conf.group.isSome) := fun hh => hsw ((switches_iff hF).1 hh)
  have e1 := (setUser_some (hst.off hd)).2 fun hh => hn hh.2
  have hids : ∀ c q, (tryCap c q).euid = q.euid ∧ (tryCap c q).ruid = q.ruid := by
    intro c q
    unfold tryCap
    split
    · exact ⟨rfl, rfl⟩
    · unfold capSetProc
      split <;> exact ⟨rfl, rfl⟩
  have e2 : (acquire p).euid = (acquire p).ruid := by
    unfold acquire
    simp only
    rw [(hids _ _).1, (hids _ _).1, (hids _ _).1, (hids _ _).2, (hids _ _).2, (hids _ _).2]; exact huid
  have e3 : ∀ q : Proc, (setGroups env.toEnv r q).effective = q.effective ∧ (setGroups env.toEnv r q).euid = q.euid ∧ (setGroups env.toEnv r q).ruid = q.ruid := by
    intro q
    have key : ∀ gs, ((setgroups gs q).getD q).effective = q.effective ∧ ((setgroups gs q).getD q).euid = q.euid ∧ ((setgroups gs q).getD q).ruid = q.ruid := by
      intro gs
      unfold setgroups
      split <;> exact ⟨rfl, rfl, rfl⟩
    unfold setGroups
    split
    · split
      · exact key _
      · simp only [if_neg hn]; exact ⟨trivial, trivial, trivial⟩
    · exact ⟨rfl, rfl, rfl⟩
  have e4 : ∀ q : Proc, q.euid = q.ruid → (writePid env.toEnv r pid q).effective = q.effective := by
    intro q hq
    unfold writePid
    split
    · simp only [if_neg hn, seteuid_same hq, Option.getD_some]
      unfold setegid
      split <;> rfl
    · rfl
  intro op c hcn
  rw [e1, hst.late (.inr hd), hst.preUp, e4 _ (by rw [(e3 _).2.1, (e3 _).2.2]; exact e2), (e3 _).1]
  exact acquire_net hc he c (needs_net c hcn)

/-- **C79, no drop** is false with a configured user: after root has become another user, no capability is effective, although nothing is dropped according to the manual. -/
theorem C79_off_user (hs : Sane env.toEnv) (hu : env.cmdUser = true → env.useUser = true) {args : List Bytes} (hf : FineArgs args) {d : D} {r : Ready D}
    (h : Start.start env d args = .running r) {as its next} (ha : Accepted env.toOEnv d args as its next) {pid p t} (hi : init env.toEnv r pid p = .ok t)
    (hoff : dropWhen its = .off) (hsw : Switches its) (hp : Root p) (huid : r.uid ≠ 0) : t.final.effective = [] := by
  have hF := facts hs hu hf h ha
  have hst := steps hi
  have hd : r.st.conf.dropCaps = .off := by rw [hF.dropCaps]; exact hoff
  have huu := useUser_of (accepted_valid ha) hsw
  have hroot : RootK t.up := by rw [hst.late (.inr hd), hst.preUp]; exact writePid_root (setGroups_root (acquire_root hp))
  have hset := hst.off hd
  unfold setUser at hset
  rw [if_pos ⟨huu, (switches_iff hF).2 hsw⟩] at hset
  have hg : Cap.setgid ∈ t.up.effective := (hroot.root.caps _ (by simp)).2
  have hu' : Cap.setuid ∈ t.up.effective := (hroot.root.caps _ (by simp)).2
  simp only [setresgid, hg, true_or, if_true, Option.bind_some, setresuid, hu', Option.some.injEq] at hset
  rw [← hset]
  unfold fixup
  simp [hroot.keep, hroot.root.uid, huid]

namespace Demo

open Kw

/-- `senv` with the given statements in the file `m`, and `secret "xy"; peer "p" { key "kk"; }` -/
def cenv (stmts : List T) : SEnv Bytes :=
  { senv with
    file := fun d name => if d = [] ∧ name = lit "m" then
        some (.kw kSecret :: .str (lit "xy") :: .semi :: .kw kPeer :: .str (lit "p") :: .lbrace :: .kw kKey :: .str (lit "kk") :: .semi :: .rbrace :: stmts, false)
      else none }

def rootProc : Proc :=
  { ruid := 0, euid := 0, suid := 0, rgid := 0, egid := 0, sgid := 0, groups := [3], permitted := [.netAdmin, .netBindService, .netRaw, .setuid, .setgid, .other 7],
    effective := [.netAdmin, .netBindService, .netRaw, .setuid, .setgid, .other 7], keep := false }

theorem root_rootProc : Root rootProc := ⟨by decide, by decide⟩

/-- The state after the checks, and what happens during the initialisation -/
def started (stmts : List T) (p : Proc) : Option (St Bytes × Option Times) :=
  (ready (Start.start (cenv stmts) [] [lit "-c", lit "m"])).map fun r =>
    (r.st, match init (cenv stmts).toEnv r true p with | .ok t => some t | _ => none)

/-- The sockets opened for new connections, with the permissions -/
def dynamicSockets (stmts : List T) (p : Proc) : Option (List (Option Bool)) :=
  (started stmts p).bind fun x => x.2.map fun t => [false, true].map fun v6 => (resetSocket x.1.conf v6).map (permits (cenv stmts).toEnv x.1.conf t.final)

/-- `user "u"; bind any interface "e"; packet mark 5;` -/
def dynStmts : List T := [.kw kUser, .str (lit "u"), .semi, .kw kBind, .kw kAny, .kw kInterface, .str (lit "e"), .semi, .kw kPacket, .kw kMark, .uint 5, .semi]

example : (started dynStmts rootProc).bind (fun x => x.2.map fun t => (t.final.ruid, t.final.euid, t.final.suid, t.final.rgid, t.final.groups)) =
    some (5, 5, 5, 6, [6, 9]) := by decide +kernel
example : (started dynStmts rootProc).bind (fun x => x.2.map fun t => (t.final.permitted, t.final.effective)) =
    some ([.netAdmin, .netRaw], [.netAdmin, .netRaw]) := by decide +kernel
example : (started dynStmts rootProc).bind (fun x => x.2.map fun t => (t.up.euid, t.up.effective.length, t.preUp.euid)) = some (0, 6, 0) := by decide +kernel
example : dynamicSockets dynStmts rootProc = some [some true, some true] := by decide +kernel

/-- Without capabilities fastd does not start. -/
example : (started dynStmts { rootProc with ruid := 4, euid := 4, suid := 4, permitted := [], effective := [] }).map (·.2) = some none := by decide +kernel

/-- With capabilities fastd starts without root, as the same user. -/
example : (started (dynStmts.drop 3) { rootProc with ruid := 4, euid := 4, suid := 4, permitted := [.netAdmin, .netRaw], effective := [] }).bind
    (fun x => x.2.map fun t => (t.final.euid, t.final.effective)) = some (4, [.netAdmin, .netRaw]) := by decide +kernel

/-- `mode tap` with a port: nothing is kept -/
example : (started [.kw kBind, .kw kAny, .colon, .uint 80, .semi] rootProc).bind (fun x => x.2.map fun t => (t.final.permitted, t.final.effective)) = some ([], []) := by
  decide +kernel

/-- `packet mark 5; bind 0.0.0.0 port 1000; bind [::];` -/
def markStmts : List T :=
  [.kw kPacket, .kw kMark, .uint 5, .semi, .kw kBind, .addr4 [0, 0, 0, 0], .kw kPort, .uint 1000, .semi, .kw kBind, .addr6 (List.replicate 16 0), .semi]

/-- `mode tun; drop capabilities early;` -/
def earlyStmts : List T := [.kw kMode, .kw kTun, .semi, .kw kDrop, .kw kCapabilities, .kw kEarly, .semi]

/-- `mode tun; drop capabilities no; user "u"; persist interface no;` -/
def offStmts : List T :=
  [.kw kMode, .kw kTun, .semi, .kw kDrop, .kw kCapabilities, .kw kNo, .semi, .kw kUser, .str (lit "u"), .semi, .kw kPersist, .kw kInterface, .kw kNo, .semi]

/-- `bind [fe80::1%e];` -/
def localStmts : List T := [.kw kBind, .addr6s ([0xfe, 0x80] ++ List.replicate 13 0 ++ [1]) (lit "e"), .semi]

end Demo

/-- **C79, operation** is false with a packet mark and a fixed port for IPv4 only: `CAP_NET_ADMIN` is dropped, so that sockets for IPv6 connections can not be opened. -/
theorem C79_false : Root Demo.rootProc ∧ Demo.dynamicSockets Demo.markStmts Demo.rootProc = some [none, some false] := ⟨Demo.root_rootProc, by decide +kernel⟩

/-- **C79, start** is false with `drop capabilities early` and `mode tun`: the interfaces of all peers are created after `CAP_NET_ADMIN` has been dropped, so that fastd exits. -/
theorem C79_start_false : Root Demo.rootProc ∧ (Demo.started Demo.earlyStmts Demo.rootProc).map (fun x => x.2) = some none ∧
    (Demo.started (Demo.earlyStmts.take 3) Demo.rootProc).map (fun x => x.2.isSome) = some true := ⟨Demo.root_rootProc, by decide +kernel, by decide +kernel⟩

/-- **C79, operation** is false with `drop capabilities no` and a user: no capability is effective afterwards, and the interfaces of peers can not be created. -/
theorem C79_off_false : Root Demo.rootProc ∧
    (Demo.started Demo.offStmts Demo.rootProc).map (fun x => x.2.map fun t => (permits (Demo.cenv Demo.offStmts).toEnv x.1.conf t.final .iface, t.final.effective)) =
    some (some (false, [])) := ⟨Demo.root_rootProc, by decide +kernel⟩

/-- **C79, least privilege** is false for link-local addresses: `CAP_NET_RAW` is kept and not needed. -/
theorem C79_least_false : Root Demo.rootProc ∧
    (Demo.started Demo.localStmts Demo.rootProc).map (fun x => x.2.map fun t => (t.final.effective, (resetSocket x.1.conf true).map (needs (Demo.cenv Demo.localStmts).toEnv x.1.conf.packetMark))) =
    some (some ([.netRaw], some [])) := ⟨Demo.root_rootProc, by decide +kernel⟩

end Fastd.Config.Spec
