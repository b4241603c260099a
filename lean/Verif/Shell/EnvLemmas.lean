import Verif.Spec.ShellEnv

/-!
# Lemmas about the environment of shell commands
-/

namespace Fastd.ShellEnv

open Fastd.Log (Res writeAt str)
open Spec

theorem digit_toNat {d : Nat} (h : d < 10) : (UInt8.ofNat (0x30 + d)).toNat = 0x30 + d := by
  simp only [UInt8.toNat_ofNat']
  omega

theorem digit_range {d : Nat} (h : d < 10) : 0x30 ≤ UInt8.ofNat (0x30 + d) ∧ UInt8.ofNat (0x30 + d) ≤ 0x39 := by
  constructor
  · rw [UInt8.le_iff_toNat_le, digit_toNat h]
    show 48 ≤ _
    omega
  · rw [UInt8.le_iff_toNat_le, digit_toNat h]
    show _ ≤ 57
    omega

theorem digit_ne_zero {d : Nat} (h : d < 10) (h0 : d ≠ 0) : UInt8.ofNat (0x30 + d) ≠ 0x30 := by
  intro e
  have := congrArg UInt8.toNat e
  rw [digit_toNat h] at this
  have : 48 + d = 48 := this
  omega

theorem decimalAux_spec (fuel : Nat) : ∀ n, n < fuel →
    decimalAux fuel n ≠ [] ∧ (∀ c ∈ decimalAux fuel n, 0x30 ≤ c ∧ c ≤ 0x39) ∧
    (decimalAux fuel n).foldl (fun v c => 10 * v + (c.toNat - 0x30)) 0 = n ∧
    (n ≠ 0 → (decimalAux fuel n).head? ≠ some 0x30) ∧
    (10 ≤ n → 1 < (decimalAux fuel n).length) ∧ (n < 10 → (decimalAux fuel n).length = 1) := by
  induction fuel with
  | zero => intro n h; omega
  | succ fuel ih =>
    intro n h
    unfold decimalAux
    by_cases hn : n < 10
    · rw [if_pos hn]
      refine ⟨by simp, ?_, ?_, ?_, by omega, by simp⟩
      · intro c hc
        rw [List.mem_singleton] at hc
        subst hc
        exact digit_range hn
      · simp only [List.foldl_cons, List.foldl_nil]
        rw [digit_toNat hn]
        omega
      · intro h0
        simpa using digit_ne_zero hn h0
    · rw [if_neg hn]
      obtain ⟨h1, h2, h3, h4, _, _⟩ := ih (n / 10) (by omega)
      have hm : n % 10 < 10 := Nat.mod_lt _ (by omega)
      refine ⟨by simp, ?_, ?_, ?_, ?_, by omega⟩
      · intro c hc
        rcases List.mem_append.mp hc with hc | hc
        · exact h2 c hc
        · rw [List.mem_singleton] at hc
          subst hc
          exact digit_range hm
      · rw [List.foldl_append, h3]
        simp only [List.foldl_cons, List.foldl_nil]
        rw [digit_toNat hm]
        omega
      · intro _
        cases hx : decimalAux fuel (n / 10) with
        | nil => exact absurd hx h1
        | cons a r =>
          have := h4 (by omega)
          rw [hx] at this
          simpa using this
      · intro _
        have : 0 < (decimalAux fuel (n / 10)).length := List.length_pos_iff.mpr h1
        simp only [List.length_append, List.length_cons, List.length_nil]
        omega

theorem decimal_spec (n : Nat) : Decimal n (decimal n) := by
  obtain ⟨h1, h2, h3, h4, h5, h6⟩ := decimalAux_spec (n + 1) n (by omega)
  refine ⟨h1, h2, h3, ?_⟩
  intro hl
  refine h4 ?_
  rintro rfl
  have : (decimal 0).length = 1 := h6 (by omega)
  omega

theorem decimalAux_length (fuel : Nat) : ∀ n k, 1 ≤ k → n < 10 ^ k → (decimalAux fuel n).length ≤ k := by
  induction fuel with
  | zero => intro n k _ _; simp [decimalAux]
  | succ fuel ih =>
    intro n k hk h
    unfold decimalAux
    by_cases hn : n < 10
    · rw [if_pos hn]; simpa using hk
    · rw [if_neg hn]
      obtain ⟨k, rfl⟩ : ∃ j, k = j + 1 := ⟨k - 1, by omega⟩
      have h2 : n / 10 < 10 ^ k := by
        rw [Nat.pow_succ] at h
        omega
      have h3 : 1 ≤ k := by
        rcases Nat.eq_zero_or_pos k with rfl | h
        · simp at h; omega
        · exact h
      have := ih (n / 10) k h3 h2
      simp only [List.length_append, List.length_cons, List.length_nil]
      omega

theorem decimal_length {n k : Nat} (hk : 1 ≤ k) (h : n < 10 ^ k) : (decimal n).length ≤ k :=
  decimalAux_length _ n k hk h

theorem decimal_no_nul (n : Nat) : (0 : UInt8) ∉ decimal n := by
  intro h
  have := ((decimal_spec n).2.1 0 h).1
  revert this
  decide

theorem takeWhile_nul {t : Bytes} (h : (0 : UInt8) ∉ t) (r : Bytes) :
    (t ++ 0 :: r).takeWhile (· != 0) = t := by
  induction t with
  | nil => simp
  | cons a t ih =>
    have ha : a ≠ 0 := fun e => h (by simp [e])
    have : (a != 0) = true := by simpa using ha
    simp only [List.cons_append, List.takeWhile_cons, this, if_true]
    rw [ih (fun e => h (List.mem_cons_of_mem _ e))]

theorem cstr_text {t : Bytes} (h : (0 : UInt8) ∉ t) (r : Bytes) : cstr (t ++ 0 :: r) = .ok t := by
  unfold cstr
  rw [if_pos (by simp), takeWhile_nul h]

theorem writeAt_zero {mem d : Bytes} (h : d.length ≤ mem.length) :
    writeAt mem 0 d = .ok (d ++ mem.drop d.length) := by
  unfold writeAt
  rw [if_pos (by omega)]
  simp

/-- Printing a number into a buffer that is large enough. -/
theorem printU_ok {buf : Bytes} {n : Nat} (h : (decimal n).length < buf.length) :
    ∃ mem, printU buf n = .ok (mem, decimal n) := by
  unfold printU Log.snprintf
  have h0 : buf.length ≠ 0 := by omega
  have ht : (decimal n).take (buf.length - 1) = decimal n := List.take_of_length_le (by omega)
  rw [if_neg h0, ht, writeAt_zero (by simp; omega)]
  refine ⟨decimal n ++ 0 :: buf.drop ((decimal n).length + 1), ?_⟩
  show (Res.bind _ _ : Res _) = _
  simp only [Res.bind, bind, pure, List.append_assoc, List.length_append, List.length_cons, List.length_nil,
    List.singleton_append]
  rw [cstr_text (decimal_no_nul n)]

theorem inetNtop_ok {mem : Bytes} {size : Nat} {t : Bytes} (h1 : t.length + 1 ≤ size) (h2 : size ≤ mem.length) :
    inetNtop mem size t = .ok (t ++ 0 :: mem.drop (t.length + 1)) := by
  unfold inetNtop
  rw [if_pos h1, writeAt_zero (by simp; omega)]
  simp

/-- The text of a link-local address: the NUL after the address is replaced. -/
theorem addScope_ok {t nm : Bytes} {rest : Bytes} (ht : (0 : UInt8) ∉ t) (hl : 16 ≤ rest.length)
    (hnl : nm.length < 16) :
    ∃ r, addScope (t ++ 0 :: rest) (some nm) = .ok (t ++ 0x25 :: nm ++ 0 :: r) ∧
      (t ++ 0x25 :: nm ++ 0 :: r).length = (t ++ 0 :: rest).length := by
  refine ⟨List.replicate (15 - nm.length) 0 ++ rest.drop 16, ?_, ?_⟩
  · unfold addScope
    show (Res.bind _ _ : Res _) = _
    rw [cstr_text ht]
    have hlen : (nm ++ List.replicate (16 - nm.length) (0 : UInt8)).length = 16 := by simp; omega
    have hw : writeAt (t ++ 0 :: rest) (t.length + 1) (nm ++ List.replicate (16 - nm.length) 0) =
        .ok (t ++ 0 :: (nm ++ 0 :: (List.replicate (15 - nm.length) 0 ++ rest.drop 16))) := by
      unfold writeAt
      rw [if_pos (by rw [hlen]; simp; omega), hlen]
      congr 1
      have e1 : (t ++ 0 :: rest).take (t.length + 1) = t ++ [0] := by
        rw [show t ++ 0 :: rest = (t ++ [0]) ++ rest by simp,
          show t.length + 1 = (t ++ [(0 : UInt8)]).length by simp, List.take_left]
      have e2 : (t ++ 0 :: rest).drop (t.length + 1 + 16) = rest.drop 16 := by
        rw [show t ++ 0 :: rest = (t ++ [0]) ++ rest by simp,
          show t.length + 1 + 16 = (t ++ [(0 : UInt8)]).length + 16 by simp, List.drop_append]
        simp
      have e3 : List.replicate (16 - nm.length) (0 : UInt8) = 0 :: List.replicate (15 - nm.length) 0 := by
        rw [show 16 - nm.length = (15 - nm.length) + 1 by omega, List.replicate_succ]
      rw [e1, e2, e3]
      simp
    simp only [Res.bind, bind]
    rw [hw]
    simp only []
    rw [cstr_text ht]
    simp only []
    unfold writeAt
    rw [if_pos (by simp)]
    congr 1
    simp
  · simp
    omega

/-- The value of the address variable. -/
theorem setAddr_ok {sys : Sys} (hs : Sane sys) {buf : Bytes} (hb : buf.length = 62) (env : Env) (addr : Option PAddr)
    (av pv : Bytes) :
    setAddr sys buf env addr av pv =
      .ok (env ++ [(av, ipText sys (addr.getD .unspec)), (pv, (portOf (addr.getD .unspec)).map decimal)]) := by
  have port : ∀ (mem : Bytes), mem.length = 62 → ∀ (p : UInt16), ∃ m, printU mem p.toNat = .ok (m, decimal p.toNat) := by
    intro mem hm p
    refine printU_ok ?_
    have := decimal_length (n := p.toNat) (k := 5) (by omega) (by have := p.toNat_lt; omega)
    omega
  unfold setAddr
  cases ha : addr.getD .unspec with
  | unspec => simp [envSet, ipText, portOf]
  | v4 a p =>
    simp only []
    obtain ⟨h1, h2⟩ := hs.ntop4 a
    rw [inetNtop_ok (by unfold addrBufLen; omega) (by unfold addrBufLen; omega)]
    simp only [bind, Res.bind]
    rw [cstr_text h2]
    simp only []
    obtain ⟨m, hm⟩ := port (sys.ntop4 a ++ 0 :: buf.drop ((sys.ntop4 a).length + 1)) (by simp; omega) p
    rw [hm]
    simp [envSet, ipText, portOf, pure]
  | v6 a p scope =>
    simp only []
    obtain ⟨h1, h2⟩ := hs.ntop6 a
    rw [inetNtop_ok (by unfold addrBufLen; omega) (by unfold addrBufLen; omega)]
    simp only [bind, Res.bind]
    by_cases hl : linkLocal a = true
    · rw [if_pos hl]
      cases hn : sys.ifname scope with
      | none =>
        simp only [addScope]
        rw [cstr_text h2]
        simp only []
        obtain ⟨m, hm⟩ := port (sys.ntop6 a ++ 0 :: buf.drop ((sys.ntop6 a).length + 1)) (by simp; omega) p
        rw [hm]
        simp [envSet, ipText, portOf, pure, hl, hn]
      | some nm =>
        obtain ⟨h3, h4⟩ := hs.ifname scope nm hn
        obtain ⟨r, hr, hlen⟩ := addScope_ok (t := sys.ntop6 a) (rest := buf.drop ((sys.ntop6 a).length + 1)) h2
          (by simp; omega) h3
        rw [hr]
        simp only []
        have h0 : (0 : UInt8) ∉ sys.ntop6 a ++ 0x25 :: nm := by
          simp only [List.mem_append, List.mem_cons, not_or]
          exact ⟨h2, by decide, h4⟩
        rw [cstr_text h0]
        simp only []
        obtain ⟨m, hm⟩ := port (sys.ntop6 a ++ 0x25 :: nm ++ 0 :: r) (by rw [hlen]; simp; omega) p
        rw [hm]
        have : str "%" = [0x25] := by decide
        simp [envSet, ipText, portOf, pure, hl, hn, this]
    · rw [if_neg hl, cstr_text h2]
      simp only []
      obtain ⟨m, hm⟩ := port (sys.ntop6 a ++ 0 :: buf.drop ((sys.ntop6 a).length + 1)) (by simp; omega) p
      rw [hm]
      simp [envSet, ipText, portOf, pure, hl]

/-- The value of `INTERFACE_MTU`. -/
def mtuText (mtu : UInt16) : Option Bytes := if mtu = 0 then none else some (decimal mtu.toNat)

theorem setIface_ok {buf : Bytes} (hb : buf.length = 6) (env : Env) (nm : Option Bytes) (mtu : UInt16) :
    setIface buf env nm mtu = .ok (env ++ [(str "INTERFACE", nm), (str "INTERFACE_MTU", mtuText mtu)]) := by
  unfold setIface mtuText
  by_cases h : mtu = 0
  · simp [h, envSet, pure]
  · have := decimal_length (n := mtu.toNat) (k := 5) (by omega) (by have := mtu.toNat_lt; omega)
    obtain ⟨m, hm⟩ := printU_ok (buf := buf) (n := mtu.toNat) (by omega)
    simp only [h, ne_eq, not_false_eq_true, if_true, if_false]
    simp only [bind, Res.bind, hm]
    simp [envSet, pure]

/-- All of the variables for a peer. -/
theorem peerEnv_ok {sys : Sys} (hs : Sane sys) {st : Stack} (hz : Sizes st) (pub : Bytes) (peer : Option Peer)
    (loc rem : Option PAddr) :
    peerEnv sys st pub peer loc rem = .ok
      [(str "PEER_NAME", peer.bind (·.name)),
       (str "INTERFACE", (peerIface peer).map (·.name)),
       (str "INTERFACE_MTU", mtuText (((peerIface peer).map (·.mtu)).getD 0)),
       (str "LOCAL_ADDRESS", ipText sys (loc.getD .unspec)),
       (str "LOCAL_PORT", (portOf (loc.getD .unspec)).map decimal),
       (str "PEER_ADDRESS", ipText sys (rem.getD .unspec)),
       (str "PEER_PORT", (portOf (rem.getD .unspec)).map decimal),
       (str "LOCAL_KEY", some (Util.hexdump pub)),
       (str "PEER_KEY", peer.map fun p => Util.hexdump p.key)] := by
  unfold peerEnv
  simp only [bind, Res.bind]
  rw [setIface_ok hz.mtu]
  simp only []
  rw [setAddr_ok hs hz.loc]
  simp only []
  rw [setAddr_ok hs hz.rem]
  simp only [pure, protoEnv]
  cases peer <;> simp [envSet]

/-- Value of a variable after the entries have been applied: the last entry for it counts. -/
theorem applyEnv_get (env : Env) : ∀ (e : PEnv) (k : Bytes),
    applyEnv e env k = match (env.reverse.find? fun x => x.1 = k) with
      | some x => x.2
      | none => e k := by
  induction env with
  | nil => intro e k; simp [applyEnv]
  | cons x r ih =>
    intro e k
    obtain ⟨k', v⟩ := x
    have step : applyEnv e ((k', v) :: r) k = applyEnv (fun q => if q = k' then v else e q) r k := by
      cases v with
      | none => rfl
      | some v => rfl
    rw [step, ih]
    rw [List.reverse_cons, List.find?_append]
    cases hf : r.reverse.find? fun x => decide (x.1 = k) with
    | some y => simp
    | none =>
      by_cases hk : k = k'
      · subst hk; simp
      · have : ¬ k' = k := fun h => hk h.symm
        simp [hk, this]

/-- The environment of the command before the entries are applied. -/
theorem commandSetenv_ok {buf : Bytes} (hb : buf.length = 20) (pid : UInt32) (e : PEnv) (env : Option Env) :
    commandSetenv buf pid e env =
      .ok (applyEnv (setenv (unsetenv e (str "NOTIFY_SOCKET")) (str "FASTD_PID") (decimal pid.toNat)) (env.getD [])) := by
  unfold commandSetenv
  have := decimal_length (n := pid.toNat) (k := 10) (by omega) (by have := pid.toNat_lt; omega)
  obtain ⟨m, hm⟩ := printU_ok (buf := buf) (n := pid.toNat) (by omega)
  simp only [bind, Res.bind, hm]
  cases env with
  | none => rfl
  | some env => rfl

theorem closeFrom_eq (n : Nat) : ∀ (fds : List Nat) (fd : Nat),
    closeFrom fds fd n = fds.filter fun x => decide (x < fd ∨ fd + n ≤ x) := by
  induction n with
  | zero =>
    intro fds fd
    rw [closeFrom, List.filter_eq_self.mpr]
    intro x _
    simp only [decide_eq_true_eq]
    omega
  | succ n ih =>
    intro fds fd
    unfold closeFrom
    rw [ih, List.filter_filter]
    refine List.filter_congr fun x _ => ?_
    rw [Bool.eq_iff_iff]
    simp only [Bool.and_eq_true, decide_eq_true_eq]
    omega

/-- Only standard input and outputs are left. -/
theorem closeAll_eq {openMax : Int} {fds : List Nat} (hf : ∀ fd ∈ fds, (fd : Int) < openMax) :
    closeAll openMax fds = fds.filter (· ≤ 2) := by
  unfold closeAll
  rw [closeFrom_eq]
  refine List.filter_congr fun x hx => ?_
  have := hf x hx
  rw [Bool.eq_iff_iff]
  simp only [decide_eq_true_eq]
  omega

end Fastd.ShellEnv
