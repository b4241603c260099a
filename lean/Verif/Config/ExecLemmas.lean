import Verif.Spec.Conf

/-! # Lemmas for the configuration properties -/

namespace Fastd.Config.Spec

open Fastd.Config (Bytes)
open Fastd.Config.Gram
open Fastd.Config.Exec
open Fastd.Daemon (Addr simplify v4Mapped)

variable {D : Type} {env : Env D}

/-! ## Appending one item -/

theorem last_snoc {α} (f : Item D → Option α) (its : List (Nat × Item D)) (x) : last f (its ++ [x]) = (f x.2).or (last f its) := by
  unfold last
  rw [List.filterMap_append]
  cases h : f x.2 <;> simp [h]

theorem own_snoc (i : Nat) (its : List (Nat × Item D)) (x) : own i (its ++ [x]) = own i its ++ if x.1 = i then [x] else [] := by
  unfold own
  rw [List.filter_append]
  by_cases h : x.1 = i <;> simp [h]

theorem origin_snoc (i : Nat) (its : List (Nat × Item D)) (x) (h : theSub x.2 ≠ some i) : origin i (its ++ [x]) = origin i its := by
  unfold origin
  rw [List.findSome?_append]
  obtain ⟨g, it⟩ := x
  cases it with
  | sub n name =>
    have : n ≠ i := by intro e; exact h (by simp [theSub, e])
    simp [this]
  | _ => simp

theorem groupSpec_other (its : List (Nat × Item D)) (x : Nat × Item D) (i : Nat) (h : theSub x.2 ≠ some i) (hi : x.1 ≠ i) :
    groupSpec env (its ++ [x]) i = groupSpec env its i := by
  unfold groupSpec
  rw [own_snoc, origin_snoc _ _ _ h, if_neg hi, List.append_nil]

theorem eraseDups_snoc (l : List Bytes) (a : Bytes) : (l ++ [a]).eraseDups = if l.eraseDups.contains a then l.eraseDups else l.eraseDups ++ [a] := by
  rw [List.eraseDups_append]
  have h : l.eraseDups.contains a = l.contains a := by
    rw [Bool.eq_iff_iff]; simp
  rw [h]
  by_cases ha : a ∈ l
  · simp [List.removeAll, ha]
  · simp [List.removeAll, ha, List.eraseDups_cons]

theorem ConfSpec.snoc {its : List (Nat × Item D)} {c c' : Conf} {x : Nat × Item D} (hc : ConfSpec env its c)
    (h0 : (c'.logStderr, c'.logSyslog) = stepLevel (c.logStderr, c.logSyslog) x.2)
    (h1 : c'.logIdent = (theIdent x.2).getD c.logIdent)
    (h2 : c'.ifname = (theIface x.2).or c.ifname)
    (h3 : c'.persist = (thePersist x.2).getD c.persist)
    (h4 : c'.bindAddrs.reverse = c.bindAddrs.reverse ++ theBinds env x.2)
    (h5 : IsDefault (fun b => notV6 b.addr) (·.default4) c'.bindAddrs.reverse c'.default4)
    (h6 : IsDefault (fun b => notV4 b.addr) (·.default6) c'.bindAddrs.reverse c'.default6)
    (h7 : c'.mtu = (theGMtu x.2).getD c.mtu)
    (h8 : c'.mode = (theMode x.2).getD c.mode)
    (h9 : c'.packetMark = ((theMark x.2).map UInt64.toUInt32).getD c.packetMark)
    (h10 : c'.forward = (theForward x.2).getD c.forward)
    (h11 : c'.dropCaps = (theDropCaps x.2).getD c.dropCaps)
    (h12 : c'.user = (theUser x.2).or c.user)
    (h13 : c'.group = (theGroup x.2).or c.group)
    (h14 : c'.secret = (theSecret x.2).or c.secret)
    (h15 : c'.onPreUp = (thePreUp env x.2).or c.onPreUp)
    (h16 : c'.onPostDown = (thePostDown env x.2).or c.onPostDown)
    (h17 : c'.onVerify = ((theVerify env x).map (·.2)).or c.onVerify)
    (h18 : c'.onVerifyGroup = ((theVerify env x).map (·.1)).or c.onVerifyGroup)
    (h19 : c'.statusSocket = (theStatus x.2).or c.statusSocket)
    (h20 : c'.offloadL2tp = (theOffload x.2).getD c.offloadL2tp)
    (h21 : c'.hideIp = (theHideIp x.2).getD c.hideIp)
    (h22 : c'.hideMac = (theHideMac x.2).getD c.hideMac)
    (h23 : c'.ciphers = (theCipher x.2).toList ++ c.ciphers)
    (h24 : c'.macs = (theMac x.2).toList ++ c.macs) : ConfSpec env (its ++ [x]) c' := by
  have hv : ((its ++ [x]).filterMap (theVerify env)).getLast? = (theVerify env x).or (its.filterMap (theVerify env)).getLast? := by
    rw [List.filterMap_append]
    cases h : theVerify env x <;> simp [h]
  constructor
  · rw [h0, hc.levels, List.foldl_append]; rfl
  · rw [h1, hc.ident, last_snoc]; cases theIdent x.2 <;> rfl
  · rw [h2, hc.ifname, last_snoc]
  · rw [h3, hc.persist, last_snoc]; cases thePersist x.2 <;> rfl
  · rw [h4, hc.binds]; simp
  · exact h5
  · exact h6
  · rw [h7, hc.mtu, last_snoc]; cases theGMtu x.2 <;> rfl
  · rw [h8, hc.mode, last_snoc]; cases theMode x.2 <;> rfl
  · rw [h9, hc.mark, last_snoc]; cases theMark x.2 <;> rfl
  · rw [h10, hc.forward, last_snoc]; cases theForward x.2 <;> rfl
  · rw [h11, hc.dropCaps, last_snoc]; cases theDropCaps x.2 <;> rfl
  · rw [h12, hc.user, last_snoc]
  · rw [h13, hc.group, last_snoc]
  · rw [h14, hc.secret, last_snoc]
  · rw [h15, hc.preUp, last_snoc]
  · rw [h16, hc.postDown, last_snoc]
  · rw [h17, hc.verify, hv]; cases theVerify env x <;> rfl
  · rw [h18, hc.verifyGroup, hv]; cases theVerify env x <;> rfl
  · rw [h19, hc.status, last_snoc]
  · rw [h20, hc.offload, last_snoc]; cases theOffload x.2 <;> rfl
  · rw [h21, hc.hideIp, last_snoc]; cases theHideIp x.2 <;> rfl
  · rw [h22, hc.hideMac, last_snoc]; cases theHideMac x.2 <;> rfl
  · rw [h23, List.reverse_append, hc.ciphers, List.filterMap_append]; cases h : theCipher x.2 <;> simp [h]
  · rw [h24, List.reverse_append, hc.macs, List.filterMap_append]; cases h : theMac x.2 <;> simp [h]

/-! ## Bind addresses -/

theorem isDefault_snoc {usable marked : Bind → Bool} {bs : List Bind} {o : Option Nat} {b : Bind} (h : IsDefault usable marked bs o) :
    IsDefault usable marked (bs ++ [b]) (if usable b && (marked b || o.isNone) then some bs.length else o) := by
  by_cases hu : usable b = true
  · by_cases hm : marked b = true
    · simp only [hu, hm, Bool.true_or, Bool.and_self, if_true]
      refine ⟨b, by simp, hu, .inl ⟨hm, fun j c hj hlt => ?_⟩⟩
      have := (List.getElem?_eq_some_iff.1 hj).1
      simp at this
      omega
    · rw [Bool.not_eq_true] at hm
      cases o with
      | none =>
        simp only [hu, hm, Option.isNone_none, Bool.or_true, Bool.and_self, if_true]
        refine ⟨b, by simp, hu, .inr fun j c hj huc => ?_⟩
        by_cases hlt : j < bs.length
        · rw [List.getElem?_append_left hlt] at hj
          have := h c (List.mem_of_getElem? hj)
          simp [huc] at this
        · have := (List.getElem?_eq_some_iff.1 hj).1
          simp at this
          have hj' : j = bs.length := by omega
          subst hj'
          simp at hj
          subst hj
          exact ⟨hm, Nat.le_refl _⟩
      | some i =>
        simp only [hu, hm, Option.isNone_some, Bool.or_false, Bool.and_false, Bool.false_eq_true, if_false]
        obtain ⟨b', hb', hub, hcase⟩ := h
        have hi := (List.getElem?_eq_some_iff.1 hb').1
        refine ⟨b', by rw [List.getElem?_append_left hi]; exact hb', hub, ?_⟩
        rcases hcase with ⟨hmk, hall⟩ | hall
        · refine .inl ⟨hmk, fun j c hj hlt huc => ?_⟩
          by_cases hjl : j < bs.length
          · rw [List.getElem?_append_left hjl] at hj
            exact hall j c hj hlt huc
          · have := (List.getElem?_eq_some_iff.1 hj).1
            simp at this
            have hj' : j = bs.length := by omega
            subst hj'
            simp at hj
            subst hj
            exact hm
        · refine .inr fun j c hj huc => ?_
          by_cases hjl : j < bs.length
          · rw [List.getElem?_append_left hjl] at hj
            exact hall j c hj huc
          · have := (List.getElem?_eq_some_iff.1 hj).1
            simp at this
            have hj' : j = bs.length := by omega
            subst hj'
            simp at hj
            subst hj
            exact ⟨hm, by omega⟩
  · rw [Bool.not_eq_true] at hu
    simp only [hu, Bool.false_and, Bool.false_eq_true, if_false]
    have hlast : ∀ j c, (bs ++ [b])[j]? = some c → usable c = true → j < bs.length ∧ bs[j]? = some c := by
      intro j c hj huc
      by_cases hjl : j < bs.length
      · rw [List.getElem?_append_left hjl] at hj
        exact ⟨hjl, hj⟩
      · have := (List.getElem?_eq_some_iff.1 hj).1
        simp at this
        have hj' : j = bs.length := by omega
        subst hj'
        simp at hj
        subst hj
        simp [hu] at huc
    cases o with
    | none =>
      intro c hc
      rcases List.mem_append.1 hc with hc | hc
      · exact h c hc
      · simp at hc; subst hc; exact hu
    | some i =>
      obtain ⟨b', hb', hub, hcase⟩ := h
      have hi := (List.getElem?_eq_some_iff.1 hb').1
      refine ⟨b', by rw [List.getElem?_append_left hi]; exact hb', hub, ?_⟩
      rcases hcase with ⟨hmk, hall⟩ | hall
      · exact .inl ⟨hmk, fun j c hj hlt huc => hall j c (hlast j c hj huc).2 hlt huc⟩
      · exact .inr fun j c hj huc => hall j c (hlast j c hj huc).2 huc

/-- What adding an address changes -/
theorem addBind_eq (b : Bind) (c : Conf) :
    addBind b c = { c with
      bindAddrs := { b with addr := simplify b.addr } :: c.bindAddrs
      default4 := if notV6 (simplify b.addr) && (b.default4 || c.default4.isNone) then some c.bindAddrs.length else c.default4
      default6 := if notV4 (simplify b.addr) && (b.default6 || c.default6.isNone) then some c.bindAddrs.length else c.default6 } := by
  simp only [addBind]
  split <;> split <;> simp_all

structure Defaults (c : Conf) : Prop where
  d4 : IsDefault (fun b => notV6 b.addr) (·.default4) c.bindAddrs.reverse c.default4
  d6 : IsDefault (fun b => notV4 b.addr) (·.default6) c.bindAddrs.reverse c.default6

theorem addBind_defaults {b : Bind} {c : Conf} (h : Defaults c) : Defaults (addBind b c) := by
  rw [addBind_eq]
  constructor
  · have := isDefault_snoc (b := { b with addr := simplify b.addr }) h.d4
    simpa using this
  · have := isDefault_snoc (b := { b with addr := simplify b.addr }) h.d6
    simpa using this

theorem simplify_v6 (a : Bytes) (p : UInt64) : simplify (.v6 (vec16 a) p.toUInt16 0 0) = v6 a p := by
  have hg : ∀ i (h : i < 16), (vec16 a)[i] = a.getD i 0 := by intro i h; simp only [vec16, Vector.getElem_ofFn]
  have hd : ∀ i, (a.drop 12).getD i 0 = a.getD (12 + i) 0 := by intro i; simp only [List.getD_eq_getElem?_getD, List.getElem?_drop]
  have hv : #v[(vec16 a)[12], (vec16 a)[13], (vec16 a)[14], (vec16 a)[15]] = vec4 (a.drop 12) := by
    rw [hg, hg, hg, hg]
    apply Vector.ext
    intro i hi
    simp only [vec4, Vector.getElem_ofFn, hd]
    match i, hi with
    | 0, _ => rfl
    | 1, _ => rfl
    | 2, _ => rfl
    | 3, _ => rfl
  simp only [simplify, v6, hv]

/-- The addresses added by `bindAddress` -/
def added (env : Env D) (b : Bind) : List Bind :=
  match b.addr with
  | .unspec port => if env.multiafBind then [b] else [{ b with addr := .v4 (vec4 []) port }, { b with addr := .v6 (vec16 []) port 0 0 }]
  | a => [{ b with addr := simplify a }]

theorem bindAddress_some {b : Bind} {c c' : Conf} (hd : Defaults c) (h : bindAddress env b c = some c') :
    (b.bindtodev.isSome → env.bindToDevice = true ∨ isV6LinkLocal b.addr = true) ∧ Defaults c' ∧
    ∃ d4 d6, c' = { c with bindAddrs := (added env b).reverse ++ c.bindAddrs, default4 := d4, default6 := d6 } := by
  unfold bindAddress at h
  split at h
  · cases h
  · rename_i hdev
    refine ⟨?_, ?_⟩
    · intro hb
      cases h1 : env.bindToDevice <;> cases h2 : isV6LinkLocal b.addr <;> simp_all
    · cases ha : b.addr with
      | unspec port =>
        simp only [ha] at h
        by_cases hm : env.multiafBind = true
        · simp only [hm, if_true, Option.some.injEq] at h
          subst h
          refine ⟨addBind_defaults hd, ?_⟩
          have ht : added env b = [{ b with addr := simplify b.addr }] := by
            cases b
            simp only at ha
            subst ha
            simp [added, hm, simplify]
          rw [addBind_eq, ht]
          exact ⟨_, _, rfl⟩
        · simp only [hm, Bool.false_eq_true, if_false, Option.some.injEq] at h
          subst h
          refine ⟨addBind_defaults (addBind_defaults hd), ?_⟩
          have hz : v4Mapped (vec16 []) = false := by decide +kernel
          have ht : added env b = [{ b with addr := .v4 (vec4 []) port }, { b with addr := .v6 (vec16 []) port 0 0 }] := by
            simp [added, ha, hm]
          have hs : simplify (.v6 (vec16 []) port 0 0) = .v6 (vec16 []) port 0 0 := by simp only [simplify, hz]; rfl
          rw [addBind_eq, addBind_eq, ht]
          simp only [hs]
          exact ⟨_, _, rfl⟩
      | v4 ip port =>
        simp only [ha, Option.some.injEq] at h
        subst h
        refine ⟨addBind_defaults hd, ?_⟩
        have ht : added env b = [{ b with addr := simplify b.addr }] := by simp [added, ha]
        rw [addBind_eq, ht]
        exact ⟨_, _, rfl⟩
      | v6 ip port f sc =>
        simp only [ha, Option.some.injEq] at h
        subst h
        refine ⟨addBind_defaults hd, ?_⟩
        have ht : added env b = [{ b with addr := simplify b.addr }] := by simp [added, ha]
        rw [addBind_eq, ht]
        exact ⟨_, _, rfl⟩

theorem bindAddress_valid {b : Bind} {c : Conf} (h : b.bindtodev.isSome → env.bindToDevice = true ∨ isV6LinkLocal b.addr = true) :
    ∃ c', bindAddress env b c = some c' := by
  unfold bindAddress
  rw [if_neg (by
    intro hc
    simp only [Bool.and_eq_true, Bool.not_eq_eq_eq_not, Bool.not_true] at hc
    rcases h hc.1.2 with h | h
    · simp [h] at hc
    · simp [h] at hc)]
  split
  · split <;> exact ⟨_, rfl⟩
  · exact ⟨_, rfl⟩

theorem ConfSpec.defaults {its : List (Nat × Item D)} {c : Conf} (h : ConfSpec env its c) : Defaults c := ⟨h.default4, h.default6⟩

theorem bind_snoc {its : List (Nat × Item D)} {c c' : Conf} {x : Nat × Item D} {b : Bind} (hc : ConfSpec env its c) (h : bindAddress env b c = some c')
    (hx : theBinds env x.2 = added env b) (h0 : ∀ l, stepLevel l x.2 = l)
    (h1 : theIdent x.2 = none) (h2 : theIface x.2 = none) (h3 : thePersist x.2 = none) (h7 : theGMtu x.2 = none) (h8 : theMode x.2 = none)
    (h9 : theMark x.2 = none) (h10 : theForward x.2 = none) (h11 : theDropCaps x.2 = none) (h12 : theUser x.2 = none) (h13 : theGroup x.2 = none)
    (h14 : theSecret x.2 = none) (h15 : thePreUp env x.2 = none) (h16 : thePostDown env x.2 = none) (h17 : theVerify env x = none)
    (h19 : theStatus x.2 = none) (h20 : theOffload x.2 = none) (h21 : theHideIp x.2 = none) (h22 : theHideMac x.2 = none)
    (h23 : theCipher x.2 = none) (h24 : theMac x.2 = none) : ConfSpec env (its ++ [x]) c' := by
  obtain ⟨_, hd, d4, d6, rfl⟩ := bindAddress_some hc.defaults h
  refine hc.snoc ?_ ?_ ?_ ?_ ?_ hd.d4 hd.d6 ?_ ?_ ?_ ?_ ?_ ?_ ?_ ?_ ?_ ?_ ?_ ?_ ?_ ?_ ?_ ?_ ?_ ?_ <;> simp [*]

theorem bindPortOk_iff {p} : bindPortOk p = true ↔ PortValid p := by
  cases p with
  | none => simp [bindPortOk, PortValid]
  | some p => simp [bindPortOk, PortValid, UInt64.lt_iff_toNat_lt, UInt64.le_iff_toNat_le]

theorem mtu_iff {n : UInt64} : ¬((decide (n < 576) || decide (n > 65535)) = true) ↔ 576 ≤ n.toNat ∧ n.toNat ≤ 65535 := by
  simp [UInt64.lt_iff_toNat_lt, UInt64.le_iff_toNat_le]

theorem execS_ok {its : List (Nat × Item D)} {s : Stmt} {st st' : St D} (g : Nat) (hns : ∀ g, s ≠ .g g) (hc : ConfSpec env its st.conf)
    (h : execS env s st = .ok () st') :
    Valid env (.simple st.cwd s) ∧ st'.cwd = st.cwd ∧ st'.groups = st.groups ∧ st'.peers = st.peers ∧
    ConfSpec env (its ++ [(g, .simple st.cwd s)]) st'.conf := by
  cases s with
  | g s => exact absurd rfl (hns s)
  | bind a p i d =>
    simp only [execS] at h
    split at h
    · rename_i hp
      split at h
      · rename_i c' hb
        simp only [Res.ok.injEq, true_and] at h
        subst h
        unfold handleBind at hb
        refine ⟨⟨bindPortOk_iff.1 hp, ?_⟩, rfl, rfl, rfl, ?_⟩
        · intro hi
          rcases (bindAddress_some hc.defaults hb).1 hi with h | h
          · exact .inl h
          · cases a with
            | v6 ip => exact .inr ⟨ip, rfl, h⟩
            | _ => simp [isV6LinkLocal, bindAddrOf] at h
        · refine bind_snoc hc hb ?_ (fun _ => rfl) rfl rfl rfl rfl rfl rfl rfl rfl rfl rfl rfl rfl rfl rfl rfl rfl rfl rfl rfl rfl
          cases a with
          | v4 a => simp [theBinds, added, v4, simplify, bindAddrOf]
          | v6 a => simp [theBinds, added, simplify_v6, bindAddrOf]
          | any => simp [theBinds, added, bindAddrOf]
      · cases h
    · cases h
  | bindScoped a i p d =>
    simp only [execS] at h
    split at h
    · rename_i hp
      split at h
      · rename_i c' hb
        simp only [Res.ok.injEq, true_and] at h
        subst h
        unfold handleBind at hb
        refine ⟨⟨bindPortOk_iff.1 hp, (bindAddress_some hc.defaults hb).1 rfl⟩, rfl, rfl, rfl, ?_⟩
        refine bind_snoc hc hb ?_ (fun _ => rfl) rfl rfl rfl rfl rfl rfl rfl rfl rfl rfl rfl rfl rfl rfl rfl rfl rfl rfl rfl rfl
        simp [theBinds, added, simplify_v6]
      · cases h
    · cases h
  | mtu n =>
    simp only [execS] at h
    split at h
    · cases h
    · rename_i hn
      simp only [Res.ok.injEq, true_and] at h
      subst h
      refine ⟨mtu_iff.1 hn, rfl, rfl, rfl, ?_⟩
      refine hc.snoc ?_ ?_ ?_ ?_ ?_ hc.default4 hc.default6 ?_ ?_ ?_ ?_ ?_ ?_ ?_ ?_ ?_ ?_ ?_ ?_ ?_ ?_ ?_ ?_ ?_ ?_ <;>
        simp [stepLevel, theIdent, theIface, thePersist, theBinds, theGMtu, theMode, theMark, theForward, theDropCaps, theUser, theGroup, theSecret, thePreUp,
          thePostDown, theVerify, theStatus, theOffload, theHideIp, theHideMac, theCipher, theMac]
  | logSyslog i l =>
    cases i <;>
    · simp only [execS, Res.ok.injEq, true_and] at h
      subst h
      refine ⟨trivial, rfl, rfl, rfl, ?_⟩
      refine hc.snoc ?_ ?_ ?_ ?_ ?_ hc.default4 hc.default6 ?_ ?_ ?_ ?_ ?_ ?_ ?_ ?_ ?_ ?_ ?_ ?_ ?_ ?_ ?_ ?_ ?_ ?_ <;>
        simp [stepLevel, theIdent, theIface, thePersist, theBinds, theGMtu, theMode, theMark, theForward, theDropCaps, theUser, theGroup, theSecret, thePreUp,
          thePostDown, theVerify, theStatus, theOffload, theHideIp, theHideMac, theCipher, theMac]
  | logLevel l =>
    simp only [execS, Res.ok.injEq, true_and] at h
    subst h
    refine ⟨trivial, rfl, rfl, rfl, ?_⟩
    have hb : ∀ (b₁ b₂ : Bool) (c₀ : Conf), c₀ = st.conf → b₁ = c₀.logSyslog.isSome → b₂ = (c₀.logStderr.isSome || c₀.logSyslog.isNone) →
        ConfSpec env (its ++ [(g, .simple st.cwd (.logLevel l))]) (if b₂ then { (if b₁ then { c₀ with logSyslog := some l } else c₀) with logStderr := some l } else
          (if b₁ then { c₀ with logSyslog := some l } else c₀)) := by
      intro b₁ b₂ c₀ h₀ h₁ h₂
      subst h₀
      cases b₁ <;> cases b₂ <;>
      · refine hc.snoc (by clear hc; cases he : st.conf.logStderr <;> cases hy : st.conf.logSyslog <;> simp [he, hy] at h₁ h₂ <;> simp [stepLevel, he, hy]) ?_ ?_ ?_ ?_ hc.default4 hc.default6 ?_ ?_ ?_ ?_ ?_ ?_ ?_ ?_ ?_ ?_ ?_ ?_ ?_ ?_ ?_ ?_ ?_ ?_ <;>
          simp [stepLevel, theIdent, theIface, thePersist, theBinds, theGMtu, theMode, theMark, theForward, theDropCaps, theUser, theGroup, theSecret, thePreUp,
            thePostDown, theVerify, theStatus, theOffload, theHideIp, theHideMac, theCipher, theMac]
    exact hb _ _ _ rfl rfl (by cases he : st.conf.logStderr <;> cases hy : st.conf.logSyslog <;> simp [he, hy])
  | _ =>
    simp only [execS] at h
    (repeat' split at h) <;> first
      | (cases h; done)
      | (simp only [Res.ok.injEq, true_and] at h
         subst h
         refine ⟨by first | trivial | assumption | simp_all [Valid], rfl, rfl, rfl, ?_⟩
         refine hc.snoc ?_ ?_ ?_ ?_ ?_ hc.default4 hc.default6 ?_ ?_ ?_ ?_ ?_ ?_ ?_ ?_ ?_ ?_ ?_ ?_ ?_ ?_ ?_ ?_ ?_ ?_ <;>
          simp [stepLevel, theIdent, theIface, thePersist, theBinds, theGMtu, theMode, theMark, theForward, theDropCaps, theUser, theGroup, theSecret, thePreUp,
            thePostDown, theVerify, theStatus, theOffload, theHideIp, theHideMac, theCipher, theMac, cmdSet])

theorem execS_valid {s : Stmt} {st : St D} (h : Valid env (.simple st.cwd s)) : ∃ st', execS env s st = .ok () st' := by
  cases s with
  | bind a p i d =>
    obtain ⟨hp, hi⟩ := h
    simp only [execS]
    rw [if_pos (bindPortOk_iff.2 hp)]
    unfold handleBind
    obtain ⟨c', hc⟩ := bindAddress_valid (env := env) (c := st.conf) (b := { addr := bindAddrOf a (p.getD 0).toUInt16, default4 := decide (d = some .both ∨ d = some .ipv4), default6 := decide (d = some .both ∨ d = some .ipv6), dynamic := p.isNone, bindtodev := i }) (by
      intro h1
      rcases hi h1 with h | ⟨ip, rfl, h⟩
      · exact .inl h
      · exact .inr h)
    rw [hc]
    exact ⟨_, rfl⟩
  | bindScoped a i p d =>
    obtain ⟨hp, hi⟩ := h
    simp only [execS]
    rw [if_pos (bindPortOk_iff.2 hp)]
    unfold handleBind
    obtain ⟨c', hc⟩ := bindAddress_valid (env := env) (c := st.conf) (b := { addr := .v6 (vec16 a) (p.getD 0).toUInt16 0 0, default4 := decide (d = some .both ∨ d = some .ipv4), default6 := decide (d = some .both ∨ d = some .ipv6), dynamic := p.isNone, bindtodev := some i }) (fun _ => hi)
    rw [hc]
    exact ⟨_, rfl⟩
  | mtu n => simp only [execS]; rw [if_neg (mtu_iff.2 h)]; exact ⟨_, rfl⟩
  | logSyslog i l => cases i <;> exact ⟨_, rfl⟩
  | offload b =>
    simp only [execS]
    rw [if_pos (by rcases h with h | h <;> simp [h])]
    exact ⟨_, rfl⟩
  | protocol n => simp only [execS]; rw [if_neg (by simpa [Valid] using h)]; exact ⟨_, rfl⟩
  | _ =>
    simp only [execS]
    first
      | exact ⟨_, rfl⟩
      | (rw [if_pos (by exact h)]; exact ⟨_, rfl⟩)

/-! ## Settings of groups -/

theorem addPeerDir_eq (hs : Sane env) (g : Nat) (dir : Bytes) (st : St D) :
    addPeerDir env g dir st = setGroup st g fun gr => { gr with peerDirs := ((env.chdir st.cwd dir).map env.pwd).toList ++ gr.peerDirs } := by
  unfold addPeerDir
  cases h : env.chdir st.cwd dir with
  | none =>
    simp only [setGroup, Option.map_none, Option.toList_none, List.nil_append]
    congr 1
    have : (fun gr : Group => { gr with peerDirs := gr.peerDirs }) = id := by funext gr; rfl
    rw [this]
    simp
  | some d =>
    simp only [hs d st.cwd]
    rfl

/-- What a setting does to its group -/
def upd (env : Env D) (d : D) (s : GStmt) (gr : Group) : Group :=
  match s with
  | .limit n => { gr with maxConnections := n.toNat }
  | .method m => addMethod gr m
  | .on .up sync cmd => { gr with onUp := some { command := cmd, dir := env.pwd d, sync } }
  | .on .down sync cmd => { gr with onDown := some { command := cmd, dir := env.pwd d, sync } }
  | .on .connect sync cmd => { gr with onConnect := some { command := cmd, dir := env.pwd d, sync } }
  | .on .establish sync cmd => { gr with onEstablish := some { command := cmd, dir := env.pwd d, sync } }
  | .on .disestablish sync cmd => { gr with onDisestablish := some { command := cmd, dir := env.pwd d, sync } }
  | .inclPeers dir => { gr with peerDirs := ((env.chdir d dir).map env.pwd).toList ++ gr.peerDirs }
  | _ => gr

theorem groupSpec_leaf (its : List (Nat × Item D)) (g : Nat) (d : D) (s : GStmt) :
    groupSpec env (its ++ [(g, .leaf d s)]) g = upd env d s (groupSpec env its g) := by
  unfold groupSpec
  rw [own_snoc, origin_snoc _ _ _ (by simp [theSub]), if_pos rfl]
  simp only [last_snoc, List.filterMap_append]
  cases s with
  | limit n => simp [upd, theLimit, theMethod, theCmd, theDir, theSub]
  | method m =>
    have hm : ([(g, Item.leaf d (.method m))] : List (Nat × Item D)).filterMap (fun x => theMethod x.2) = [m] := rfl
    rw [hm, eraseDups_snoc]
    by_cases hc : ((own g its).filterMap fun x => theMethod x.2).eraseDups.contains m = true
    · simp only [upd, addMethod, hc, if_true]
      simp [theLimit, theCmd, theDir, theSub]
    · simp only [upd, addMethod, hc, if_false]
      simp [theLimit, theCmd, theDir, theSub]
  | on ev sync cmd => cases ev <;> simp [upd, theLimit, theMethod, theCmd, theDir, theSub]
  | inclPeers dir => cases h : env.chdir d dir <;> simp [upd, theLimit, theMethod, theCmd, theDir, theSub, h]
  | _ => simp [upd, theLimit, theMethod, theCmd, theDir, theSub]

theorem ConfSpec.snoc_same {its : List (Nat × Item D)} {c : Conf} {x : Nat × Item D} (hc : ConfSpec env its c)
    (hx : ∀ d s, x.2 ≠ .simple d s) (hi : ∀ i, x.2 ≠ .ident i) (hv : theVerify env x = none) : ConfSpec env (its ++ [x]) c := by
  obtain ⟨g, it⟩ := x
  cases it with
  | simple d s => exact absurd rfl (hx d s)
  | ident i => exact absurd rfl (hi i)
  | _ =>
    refine hc.snoc ?_ ?_ ?_ ?_ ?_ hc.default4 hc.default6 ?_ ?_ ?_ ?_ ?_ ?_ ?_ ?_ ?_ ?_ ?_ ?_ ?_ ?_ ?_ ?_ ?_ ?_ <;>
      simp [stepLevel, theIdent, theIface, thePersist, theBinds, theGMtu, theMode, theMark, theForward, theDropCaps, theUser, theGroup, theSecret, thePreUp,
        thePostDown, hv, theStatus, theOffload, theHideIp, theHideMac, theCipher, theMac]

theorem execG_eq (hs : Sane env) {g s} {st : St D} (hl : Leaf s) (hv : ∀ sync cmd, s ≠ .on .verify sync cmd) (hn : Valid env (.leaf st.cwd s)) :
    execG env g s st = .ok () (setGroup st g (upd env st.cwd s)) := by
  cases s with
  | limit n =>
    have : ¬(n > 2147483647) := by
      simp only [Valid] at hn
      simpa [UInt64.lt_iff_toNat_lt] using hn
    simp only [execG, this, if_false]
    rfl
  | method => rfl
  | on ev sync cmd =>
    cases ev with
    | verify => exact absurd rfl (hv _ _)
    | _ => rfl
  | inclPeers dir => simp only [execG, addPeerDir_eq hs]; rfl
  | _ => exact absurd hl id

theorem execG_limit {g n} {st st' : St D} (h : execG env g (.limit n) st = .ok () st') : Valid env (.leaf st.cwd (.limit n)) := by
  simp only [execG] at h
  split at h
  · cases h
  · rename_i hn
    simpa [Valid, UInt64.lt_iff_toNat_lt] using hn

theorem leaf_step (hs : Sane env) {its next g s} {st st' : St D} (hm : Meets env its next st) (hg : g < next) (hl : Leaf s)
    (h : execG env g s st = .ok () st') :
    Valid env (.leaf st.cwd s) ∧ st'.cwd = st.cwd ∧ Meets env (its ++ [(g, .leaf st.cwd s)]) next st' := by
  have hpeers : (its ++ [(g, Item.leaf st.cwd s)]).filterMap (thePeer env) = its.filterMap (thePeer env) := by simp [thePeer]
  by_cases hv : ∃ sync cmd, s = .on .verify sync cmd
  · obtain ⟨sync, cmd, rfl⟩ := hv
    simp only [execG] at h
    split at h
    · rename_i hd
      simp only [Res.ok.injEq, true_and] at h
      subst h
      refine ⟨hd, rfl, ⟨hm.count, ?_, ?_, ?_⟩⟩
      · intro i hi
        rw [hm.group i hi]
        by_cases hig : i = g
        · subst hig; rw [groupSpec_leaf]; rfl
        · rw [groupSpec_other _ _ _ (by simp [theSub]) (fun e => hig e.symm)]
      · rw [hpeers]; exact hm.peers
      · have hc := hm.conf
        refine hc.snoc ?_ ?_ ?_ ?_ ?_ hc.default4 hc.default6 ?_ ?_ ?_ ?_ ?_ ?_ ?_ ?_ ?_ ?_ ?_ ?_ ?_ ?_ ?_ ?_ ?_ ?_ <;>
          simp [stepLevel, theIdent, theIface, thePersist, theBinds, theGMtu, theMode, theMark, theForward, theDropCaps, theUser, theGroup, theSecret, thePreUp,
            thePostDown, theVerify, theStatus, theOffload, theHideIp, theHideMac, theCipher, theMac, cmdSet]
    · cases h
  · have hv' : ∀ sync cmd, s ≠ .on .verify sync cmd := fun a b e => hv ⟨a, b, e⟩
    have hvalid : Valid env (.leaf st.cwd s) := by
      cases s with
      | limit n => exact execG_limit h
      | on ev sync cmd =>
        cases ev with
        | verify => exact absurd rfl (hv' _ _)
        | _ => trivial
      | _ => trivial
    rw [execG_eq hs hl hv' hvalid] at h
    simp only [Res.ok.injEq, true_and] at h
    subst h
    refine ⟨hvalid, rfl, ⟨by simpa [setGroup] using hm.count, ?_, ?_, ?_⟩⟩
    · intro i hi
      simp only [setGroup, List.getElem?_modify]
      rw [hm.group i hi]
      by_cases hig : g = i
      · subst hig; simp [groupSpec_leaf]
      · rw [groupSpec_other _ _ _ (by simp [theSub]) hig]; simp [hig]
    · rw [hpeers]; exact hm.peers
    · refine hm.conf.snoc_same (by simp) (by simp) ?_
      cases s with
      | on ev sync cmd =>
        cases ev with
        | verify => exact absurd rfl (hv' _ _)
        | _ => rfl
      | _ => rfl

theorem leaf_valid (hs : Sane env) {g s} {st : St D} (hl : Leaf s) (hv : Valid env (.leaf st.cwd s)) : ∃ st', execG env g s st = .ok () st' := by
  by_cases h : ∃ sync cmd, s = .on .verify sync cmd
  · obtain ⟨sync, cmd, rfl⟩ := h
    simp only [execG]
    rw [if_pos (by exact hv)]
    exact ⟨_, rfl⟩
  · exact ⟨_, execG_eq hs hl (fun a b e => h ⟨a, b, e⟩) hv⟩

/-! ## Peers -/

theorem lastP_snoc {α} (f : PStmt → Option α) (ss : List PStmt) (s) : lastP f (ss ++ [s]) = (f s).or (lastP f ss) := by
  unfold lastP
  rw [List.filterMap_append]
  cases h : f s <;> simp [h]

theorem portOk_iff {n} : portOk n = true ↔ 1 ≤ n.toNat ∧ n.toNat ≤ 65535 := by
  simp [portOk, UInt64.lt_iff_toNat_lt, UInt64.le_iff_toNat_le]
  omega

/-- The peer after some statements; `p₀` gives the name and the source. -/
def peerAfter (env : Env D) (p₀ : Peer) (g : Nat) (ss : List PStmt) : Peer :=
  { peerSpec env g p₀.name ss with sourceDir := p₀.sourceDir }

theorem execP_some {p₀ : Peer} {g ss s p} (hi : ∀ f, s ≠ .incl f) (h : execP env s (peerAfter env p₀ g ss) = some p) :
    ValidP s ∧ p = peerAfter env p₀ g (ss ++ [s]) := by
  cases s with
  | incl f => exact absurd rfl (hi f)
  | remote4 a n =>
    simp only [execP] at h
    split at h
    · rename_i hp
      simp only [Option.some.injEq] at h
      refine ⟨portOk_iff.1 hp, ?_⟩
      subst h
      simp [peerAfter, peerSpec, lastP_snoc, theRemote, theFloat, theKey, theIfname, theMtu, v4, simplify]
    · cases h
  | remote6 a n =>
    simp only [execP] at h
    split at h
    · rename_i hp
      simp only [Option.some.injEq] at h
      refine ⟨portOk_iff.1 hp, ?_⟩
      subst h
      simp [peerAfter, peerSpec, lastP_snoc, theRemote, theFloat, theKey, theIfname, theMtu, simplify_v6]
    · cases h
  | remote6s a i n =>
    simp only [execP] at h
    split at h
    · rename_i hp
      simp only [Option.some.injEq] at h
      refine ⟨portOk_iff.1 hp, ?_⟩
      subst h
      simp [peerAfter, peerSpec, lastP_snoc, theRemote, theFloat, theKey, theIfname, theMtu]
    · cases h
  | remoteHost af a n =>
    simp only [execP] at h
    split at h
    · rename_i hp
      simp only [Option.some.injEq] at h
      refine ⟨portOk_iff.1 hp, ?_⟩
      subst h
      cases af <;> simp [peerAfter, peerSpec, lastP_snoc, theRemote, theFloat, theKey, theIfname, theMtu]
    · cases h
  | float b =>
    simp only [execP, Option.some.injEq] at h
    subst h
    refine ⟨trivial, ?_⟩
    simp [peerAfter, peerSpec, lastP_snoc, theRemote, theFloat, theKey, theIfname, theMtu]
  | key b =>
    simp only [execP, Option.some.injEq] at h
    subst h
    refine ⟨trivial, ?_⟩
    simp [peerAfter, peerSpec, lastP_snoc, theRemote, theFloat, theKey, theIfname, theMtu]
  | interface n =>
    simp only [execP] at h
    split at h
    · rename_i hp
      simp only [Option.some.injEq] at h
      subst h
      refine ⟨hp, ?_⟩
      simp [peerAfter, peerSpec, lastP_snoc, theRemote, theFloat, theKey, theIfname, theMtu]
    · cases h
  | mtu n =>
    simp only [execP] at h
    split at h
    · cases h
    · rename_i hn
      simp only [Option.some.injEq] at h
      subst h
      refine ⟨mtu_iff.1 hn, ?_⟩
      simp [peerAfter, peerSpec, lastP_snoc, theRemote, theFloat, theKey, theIfname, theMtu]

theorem execP_valid {s p} (h : ValidP s) : ∃ p', execP env s p = some p' := by
  cases s with
  | remote4 a n => simp only [execP]; rw [if_pos (portOk_iff.2 h)]; exact ⟨_, rfl⟩
  | remote6 a n => simp only [execP]; rw [if_pos (portOk_iff.2 h)]; exact ⟨_, rfl⟩
  | remote6s a i n => simp only [execP]; rw [if_pos (portOk_iff.2 h)]; exact ⟨_, rfl⟩
  | remoteHost af a n => simp only [execP]; rw [if_pos (portOk_iff.2 h)]; exact ⟨_, rfl⟩
  | mtu n => simp only [execP]; rw [if_neg (mtu_iff.2 h)]; exact ⟨_, rfl⟩
  | interface n => simp only [execP]; rw [if_pos (by exact h)]; exact ⟨_, rfl⟩
  | _ => exact ⟨_, rfl⟩

end Fastd.Config.Spec
