import Verif.Shell.EnvLemmas

/-!
# C80: what shell commands find when they are run

* `C80_partial`: commands about peers (including `on verify`) find exactly what is documented. Missing
  for the full statement: the commands of the main configuration run when fastd starts and ends.
* `C80_up_partial`, `C80_pre_up_partial`: what these do find; `C80_false`, `C80_up_false`: they don't
  find all of what is documented.
* `C80_child`: the process that runs the command.
* `C80_verify`: an unknown peer is accepted only if the command was run and ended with 0.
-/

namespace Fastd.ShellEnv

open Fastd.Log (Res writeAt str)
open Spec

/-- Value of a variable after `shell_command_setenv`. -/
theorem get_var (base : PEnv) (d : Bytes) (env : Env) (k : Bytes) :
    applyEnv (setenv (unsetenv base (str "NOTIFY_SOCKET")) (str "FASTD_PID") d) env k =
      match (env.reverse.find? fun x => x.1 = k) with
      | some x => x.2
      | none => if k = str "FASTD_PID" then some d else if k = str "NOTIFY_SOCKET" then none else base k := by
  rw [applyEnv_get]
  rfl

/-- The same for a list of entries with different names. -/
theorem find_rev (env : Env) (k : Bytes) :
    (env.reverse.find? fun x => decide (x.1 = k)) = none ↔ ∀ x ∈ env, x.1 ≠ k := by
  simp [List.find?_eq_none]

theorem number_decimal (n : Option Nat) : Number n (n.map decimal) := by
  cases n with
  | none => rfl
  | some n => exact ⟨_, rfl, decimal_spec n⟩

theorem number_mtu (mtu : Option UInt16) : Number ((mtu.map UInt16.toNat).filter (· ≠ 0)) (mtuText (mtu.getD 0)) := by
  cases mtu with
  | none => simp [Number, mtuText]
  | some m =>
    unfold mtuText
    by_cases h : m = 0
    · subst h
      exact (rfl : (none : Option Bytes) = none)
    · have h0 : m.toNat ≠ 0 := by
        intro e
        exact h (UInt16.toNat_inj.mp e)
      simp only [Option.getD_some, h, if_false, Option.map_some]
      rw [Option.filter_some, if_pos (by simpa using h0)]
      exact ⟨_, rfl, decimal_spec _⟩

theorem keyVar_hex {k : Option Bytes} (h : ∀ x, k = some x → x.length = 32) :
    KeyVar k (k.map Util.hexdump) := by
  cases k with
  | none => rfl
  | some x => exact ⟨_, rfl, Util.C51_print x (h x rfl)⟩

/-- The variables for a peer mean what is documented. -/
theorem documented_peer {sys : Sys} (hs : Sane sys) {st : Stack} (hz : Sizes st) {pub : Bytes} {pid : UInt32}
    (base : PEnv) {o : Occasion} (hk : Keys pub o) {peer : Option Peer} {loc rem : Option PAddr}
    (hp : peerOf o = peer) (hi : ifaceOf o = peerIface peer) (hl : localOf o = loc.getD .unspec)
    (hr : remoteOf o = rem.getD .unspec) :
    ∃ env e, peerEnv sys st pub peer loc rem = .ok env ∧ commandSetenv st.pid pid base (some env) = .ok e ∧
      Documented sys pid pub base o e := by
  refine ⟨_, _, peerEnv_ok hs hz pub peer loc rem, commandSetenv_ok hz.pid _ _ _, ?_⟩
  have hg := get_var base (decimal pid.toNat)
  refine ⟨?_, ⟨?_, ?_⟩, ?_, ⟨?_, ?_, ?_, ?_, ?_, ?_⟩, ?_, ?_⟩
  · rw [hg]; exact number_decimal (some _)
  · rw [hg, hi]; rfl
  · rw [hg, hi]
    have := number_mtu ((peerIface peer).map (·.mtu))
    rw [Option.map_map] at this
    exact this
  · rw [hg]; exact keyVar_hex (k := some pub) fun x hx => by cases hx; exact hk.1
  · rw [hg, hl]; rfl
  · rw [hg, hl]; exact number_decimal _
  · rw [hg, hr]; rfl
  · rw [hg, hr]; exact number_decimal _
  · rw [hg, hp]; rfl
  · rw [hg, hp]
    have := keyVar_hex (k := peer.map (·.key)) fun x hx => by
      cases peer with
      | none => cases hx
      | some p => cases hx; exact hk.2 p hp
    rw [Option.map_map] at this
    exact this
  · rw [hg]; rfl
  · intro k hn
    rw [hg]
    simp only [names, List.mem_cons, List.not_mem_nil, or_false, not_or] at hn
    obtain ⟨n1, n2, n3, n4, n5, n6, n7, n8, n9, n10, n11⟩ := hn
    have : ((some [(str "PEER_NAME", peer.bind (·.name)),
       (str "INTERFACE", (peerIface peer).map (·.name)),
       (str "INTERFACE_MTU", mtuText (((peerIface peer).map (·.mtu)).getD 0)),
       (str "LOCAL_ADDRESS", ipText sys (loc.getD .unspec)),
       (str "LOCAL_PORT", (portOf (loc.getD .unspec)).map decimal),
       (str "PEER_ADDRESS", ipText sys (rem.getD .unspec)),
       (str "PEER_PORT", (portOf (rem.getD .unspec)).map decimal),
       (str "LOCAL_KEY", some (Util.hexdump pub)),
       (str "PEER_KEY", peer.map fun p => Util.hexdump p.key)] : Option Env).getD []).reverse.find?
        (fun x => decide (x.1 = k)) = none := by
      rw [find_rev]
      intro x hx
      simp only [Option.getD_some, List.mem_cons, List.not_mem_nil, or_false] at hx
      rcases hx with rfl | rfl | rfl | rfl | rfl | rfl | rfl | rfl | rfl
      · exact Ne.symm n9
      · exact Ne.symm n2
      · exact Ne.symm n3
      · exact Ne.symm n5
      · exact Ne.symm n6
      · exact Ne.symm n7
      · exact Ne.symm n8
      · exact Ne.symm n4
      · exact Ne.symm n10
    rw [this]
    simp only []
    rw [if_neg n1, if_neg n11]

/-- **C80**, for commands about peers: all of the documented variables have the documented values, and
those that have none for this command are not set, whatever fastd's own environment contains;
`NOTIFY_SOCKET` is not set and all other variables are those of fastd. In particular building the
environment stays within all of its buffers. -/
theorem C80_partial {sys : Sys} (hs : Sane sys) {st : Stack} (hz : Sizes st) {pub : Bytes} (pid : UInt32)
    (base : PEnv) {o : Occasion} (hk : Keys pub o) (ha : AboutPeer o) :
    ∃ env e, envOf sys st pub o = .ok (some env) ∧ commandSetenv st.pid pid base (some env) = .ok e ∧
      Documented sys pid pub base o e := by
  have key : ∀ (peer : Option Peer) (loc rem : Option PAddr), peerOf o = peer → ifaceOf o = peerIface peer →
      localOf o = loc.getD .unspec → remoteOf o = rem.getD .unspec →
      envOf sys st pub o = (do return some (← peerEnv sys st pub peer loc rem)) →
      ∃ env e, envOf sys st pub o = .ok (some env) ∧ commandSetenv st.pid pid base (some env) = .ok e ∧
        Documented sys pid pub base o e := by
    intro peer loc rem h1 h2 h3 h4 h5
    obtain ⟨env, e, h6, h7, h8⟩ := documented_peer hs hz (pid := pid) base hk h1 h2 h3 h4
    refine ⟨env, e, ?_, h7, h8⟩
    rw [h5, h6]
    rfl
  have if1 : ∀ p : Peer, p.offload.or p.iface = peerIface (some p) := by
    intro p
    obtain ⟨_, _, off, _, _, _⟩ := p
    cases off <;> rfl
  cases o with
  | preUp => exact ha.elim
  | postDown => exact ha.elim
  | up i => exact ha.elim
  | down i => exact ha.elim
  | peerUp p s => exact key (some p) none none rfl (if1 p) rfl rfl rfl
  | peerDown p s => exact key (some p) none none rfl (if1 p) rfl rfl rfl
  | establish p => exact key (some p) (some p.loc) (some p.addr) rfl (if1 p) rfl rfl rfl
  | disestablish p => exact key (some p) (some p.loc) (some p.addr) rfl (if1 p) rfl rfl rfl
  | verify p l r => exact key (some p) (some l) (some r) rfl (if1 p) rfl rfl rfl
  | connect p l b r =>
    have hi : ifaceOf (.connect p l b r) = peerIface p := by
      cases p with
      | none => rfl
      | some p => exact if1 p
    cases l with
    | none => exact key p b (some r) rfl hi rfl rfl rfl
    | some a => cases a with
      | unspec => exact key p b (some r) rfl hi rfl rfl rfl
      | v4 a q => exact key p (some (.v4 a q)) (some r) rfl hi rfl rfl rfl
      | v6 a q s => exact key p (some (.v6 a q s)) (some r) rfl hi rfl rfl rfl

/-- **C80** for `on up` and `on down` of the main configuration: process ID and interface; everything else
is inherited. Missing for the full statement: `LOCAL_KEY`. -/
theorem C80_up_partial (sys : Sys) {st : Stack} (hz : Sizes st) (pub : Bytes) (pid : UInt32) (base : PEnv)
    {o : Occasion} {i : Iface} (ho : o = .up i ∨ o = .down i) :
    ∃ env e, envOf sys st pub o = .ok (some env) ∧ commandSetenv st.pid pid base (some env) = .ok e ∧
      Number (some pid.toNat) (e (str "FASTD_PID")) ∧ IfaceVars o e ∧ e (str "NOTIFY_SOCKET") = none ∧
      ∀ k, k ≠ str "FASTD_PID" → k ≠ str "INTERFACE" → k ≠ str "INTERFACE_MTU" → k ≠ str "NOTIFY_SOCKET" →
        e k = base k := by
  have h1 : envOf sys st pub o = .ok (some [(str "INTERFACE", some i.name), (str "INTERFACE_MTU", mtuText i.mtu)]) := by
    rcases ho with rfl | rfl <;> (simp only [envOf]; rw [setIface_ok hz.mtu]; rfl)
  have h2 : ifaceOf o = some i := by rcases ho with rfl | rfl <;> rfl
  refine ⟨_, _, h1, commandSetenv_ok hz.pid _ _ _, ?_⟩
  have hg := get_var base (decimal pid.toNat)
  refine ⟨?_, ⟨?_, ?_⟩, ?_, ?_⟩
  · rw [hg]; exact number_decimal (some _)
  · rw [hg, h2]; rfl
  · rw [hg, h2]; exact number_mtu (some i.mtu)
  · rw [hg]; rfl
  · intro k n1 n2 n3 n4
    rw [hg, Option.getD_some, (find_rev _ k).mpr]
    · simp only []
      rw [if_neg n1, if_neg n4]
    · intro x hx
      simp only [List.mem_cons, List.not_mem_nil, or_false] at hx
      rcases hx with rfl | rfl
      · exact Ne.symm n2
      · exact Ne.symm n3

/-- **C80** for `on pre-up` and `on post-down`: the process ID; everything else is inherited. Missing for the
full statement: `LOCAL_KEY`, and the removal of variables that have no value. -/
theorem C80_pre_up_partial (sys : Sys) {st : Stack} (hz : Sizes st) (pub : Bytes) (pid : UInt32) (base : PEnv)
    {o : Occasion} (ho : o = .preUp ∨ o = .postDown) :
    ∃ e, envOf sys st pub o = .ok none ∧ commandSetenv st.pid pid base none = .ok e ∧
      Number (some pid.toNat) (e (str "FASTD_PID")) ∧ e (str "NOTIFY_SOCKET") = none ∧
      ∀ k, k ≠ str "FASTD_PID" → k ≠ str "NOTIFY_SOCKET" → e k = base k := by
  refine ⟨_, by rcases ho with rfl | rfl <;> rfl, commandSetenv_ok hz.pid _ _ _, ?_, ?_, ?_⟩
  · exact number_decimal (some _)
  · rfl
  · intro k n1 n2
    simp [applyEnv, setenv, unsetenv, n1, n2]

/-- The process running a command with environment `e`. -/
def runner (parent : Proc) (pid : UInt32) (c : Cmd) (e : PEnv) : Proc :=
  { pid := pid, env := e, dir := c.dir, fds := parent.fds.filter (· ≤ 2), blocked := [] }

/-- The process running a command: in the command's directory, without any of fastd's file descriptors except
for standard input and outputs, and with no signal blocked. If it doesn't come to this, the process ends with
126 (directory) or 127 (no shell). -/
theorem C80_child {st : Stack} (hz : Sizes st) (k : Kernel) (parent : Proc) (pid : UInt32) (c : Cmd)
    (env : Option Env) (hf : ∀ fd ∈ parent.fds, (fd : Int) < k.openMax) :
    ∃ ch e, childMain k st.pid parent pid c env = .ok ch ∧
      commandSetenv st.pid parent.pid parent.env env = .ok e ∧
      ((k.chdir c.dir = false ∧ ch = .failed 126) ∨ (k.chdir c.dir = true ∧ k.exec = false ∧ ch = .failed 127) ∨
        (k.chdir c.dir = true ∧ k.exec = true ∧ ch = .runs c.command (runner parent pid c e))) := by
  unfold childMain
  cases hc : k.chdir c.dir with
  | false => exact ⟨_, _, rfl, commandSetenv_ok hz.pid _ _ _, .inl ⟨by simp, rfl⟩⟩
  | true =>
    simp only [bind, Res.bind, commandSetenv_ok hz.pid]
    cases he : k.exec with
    | false => exact ⟨_, _, rfl, rfl, .inr (.inl ⟨by simp, by simp, rfl⟩)⟩
    | true =>
      refine ⟨_, _, rfl, rfl, .inr (.inr ⟨by simp, by simp, ?_⟩)⟩
      unfold runner
      rw [closeAll_eq hf]

/-- An unknown peer is accepted if and only if the `on verify` command could be started, in its directory and
with the documented environment, and ended with exit status 0: errors of any kind mean rejection. -/
theorem C80_verify {sys : Sys} (hs : Sane sys) {st : Stack} (hz : Sizes st) {pub : Bytes} (k : Kernel)
    (parent : Proc) (c : Cmd) {p : Peer} {loc rem : PAddr} (hk : Keys pub (.verify p loc rem))
    (hf : ∀ fd ∈ parent.fds, (fd : Int) < k.openMax) :
    ∃ env b e, envOf sys st pub (.verify p loc rem) = .ok (some env) ∧ doVerify k st.pid parent c env = .ok b ∧
      Documented sys parent.pid pub parent.env (.verify p loc rem) e ∧
      (b = true ↔ k.chdir c.dir = true ∧ k.exec = true ∧ k.wait = true ∧
        ∃ pid, k.fork = some pid ∧ k.run c.command (runner parent pid c e) = .exited 0) := by
  obtain ⟨env, e, h1, h2, h3⟩ := C80_partial hs hz parent.pid parent.env hk trivial
  unfold doVerify execSync
  cases hfk : k.fork with
  | none => exact ⟨env, false, e, h1, rfl, h3, by simp⟩
  | some pid =>
    obtain ⟨ch, e', h4, h6, h5⟩ := C80_child hz k parent pid c (some env) hf
    rw [h2] at h6
    cases h6
    simp only [bind, Res.bind, pure]
    cases hw : k.wait with
    | false => exact ⟨env, false, e, h1, by simp [h4], h3, by simp⟩
    | true =>
      rcases h5 with ⟨h5, rfl⟩ | ⟨h5, h6, rfl⟩ | ⟨h5, h6, rfl⟩
      · exact ⟨env, false, e, h1, by rw [h4]; rfl, h3, by simp [h5]⟩
      · exact ⟨env, false, e, h1, by rw [h4]; rfl, h3, by simp [h6]⟩
      · cases hr : k.run c.command (runner parent pid c e) with
        | signaled n => exact ⟨env, false, e, h1, by rw [h4]; simp [Child.status, hr], h3, by simp [hr]⟩
        | exited n => exact ⟨env, n == 0, e, h1, by rw [h4]; simp [Child.status, hr], h3, by simp [hr, h5, h6]⟩

/-! ### What does not hold -/

namespace EnvDemo

def sys : Sys where
  ntop4 a := if a = [192, 0, 2, 1] then str "192.0.2.1" else str "198.51.100.7"
  ntop6 _ := str "fe80::1"
  ifname i := if i = 3 then some (str "enp0s31f6") else none

theorem sane : Sane sys := by
  refine ⟨?_, ?_, ?_⟩
  · intro a
    show (if a = [192, 0, 2, 1] then str "192.0.2.1" else str "198.51.100.7").length ≤ 45 ∧
      0 ∉ (if a = [192, 0, 2, 1] then str "192.0.2.1" else str "198.51.100.7")
    split <;> decide
  · intro a
    show (str "fe80::1").length ≤ 45 ∧ 0 ∉ str "fe80::1"
    decide
  · intro i nm h
    have h : (if i = 3 then some (str "enp0s31f6") else none) = some nm := h
    split at h
    · cases h; decide
    · cases h

def stack : Stack where
  mtu := List.replicate 6 0xaa
  loc := List.replicate 62 0xaa
  rem := List.replicate 62 0xaa
  pid := List.replicate 20 0xaa

theorem sizes : Sizes stack := ⟨by decide, by decide, by decide, by decide⟩

def pub : Bytes := List.replicate 31 0xab ++ [0x0f]

def peer : Peer where
  name := some (str "gate")
  key := List.replicate 31 0x12 ++ [0x34]
  offload := none
  iface := some ⟨str "tap-gate", 1406⟩
  loc := .v4 [192, 0, 2, 1] 10000
  addr := .v6 [0xfe, 0x80, 0, 0, 0, 0, 0, 0, 0, 0, 0, 0, 0, 0, 0, 1] 65535 3

/-- The environment of fastd: it was itself started by a script of another fastd. -/
def base : PEnv := fun k =>
  if k = str "PATH" then some (str "/bin") else if k = str "INTERFACE" then some (str "other")
  else if k = str "PEER_NAME" then some (str "stale") else if k = str "NOTIFY_SOCKET" then some (str "/run/n")
  else none

theorem keys : Keys pub (.establish peer) := ⟨by decide, fun p h => by cases h; decide⟩

/-- What a variable is in the end. -/
def value (o : Occasion) (k : Bytes) : Res (Option Bytes) := do
  let env ← envOf sys stack pub o
  let e ← commandSetenv stack.pid 4711 base env
  return e k

end EnvDemo

open EnvDemo in
/-- **C80 is false** for `on up` of the main configuration: it doesn't find the local key ... -/
theorem C80_up_false : ∃ (sys : Sys) (st : Stack) (pub : Bytes) (pid : UInt32) (base : PEnv) (o : Occasion)
    (env : Option Env) (e : PEnv), Sane sys ∧ Sizes st ∧ Keys pub o ∧ (∃ i, o = .up i) ∧
    envOf sys st pub o = .ok env ∧ commandSetenv st.pid pid base env = .ok e ∧
    ¬ KeyVar (some pub) (e (str "LOCAL_KEY")) := by
  obtain ⟨env, e, h1, h2, -, -, -, h3⟩ :=
    C80_up_partial sys sizes pub 4711 base (o := .up ⟨str "tap0", 1406⟩) (.inl rfl)
  refine ⟨sys, stack, pub, 4711, base, _, _, e, sane, sizes, ⟨by decide, fun p h => by cases h⟩, ⟨_, rfl⟩, h1, h2, ?_⟩
  rw [h3 (str "LOCAL_KEY") (by decide) (by decide) (by decide) (by decide)]
  rintro ⟨t, ht, _⟩
  have : base (str "LOCAL_KEY") = none := by decide
  rw [this] at ht
  cases ht

open EnvDemo in
/-- ... and `on pre-up` finds an interface that is not that of fastd if there is one in fastd's environment. -/
theorem C80_false : ∃ (sys : Sys) (st : Stack) (pub : Bytes) (pid : UInt32) (base : PEnv) (e : PEnv),
    Sane sys ∧ Sizes st ∧ Keys pub .preUp ∧ envOf sys st pub .preUp = .ok none ∧
    commandSetenv st.pid pid base none = .ok e ∧ ¬ IfaceVars .preUp e ∧ ¬ KeyVar (some pub) (e (str "LOCAL_KEY")) := by
  obtain ⟨e, h1, h2, -, -, h3⟩ := C80_pre_up_partial sys sizes pub 4711 base (o := .preUp) (.inl rfl)
  refine ⟨sys, stack, pub, 4711, base, e, sane, sizes, ⟨by decide, fun p h => by cases h⟩, h1, h2, ?_, ?_⟩
  · intro h
    have := h.iface
    rw [h3 (str "INTERFACE") (by decide) (by decide)] at this
    revert this
    decide
  · rw [h3 (str "LOCAL_KEY") (by decide) (by decide)]
    rintro ⟨t, ht, _⟩
    have : base (str "LOCAL_KEY") = none := by decide
    rw [this] at ht
    cases ht

/-! ### Examples -/

section
open EnvDemo

example : value (.establish peer) (str "PEER_ADDRESS") = .ok (some (str "fe80::1%enp0s31f6")) := by decide +kernel
example : value (.establish peer) (str "PEER_PORT") = .ok (some (str "65535")) := by decide +kernel
example : value (.establish peer) (str "LOCAL_ADDRESS") = .ok (some (str "192.0.2.1")) := by decide +kernel
example : value (.establish peer) (str "INTERFACE_MTU") = .ok (some (str "1406")) := by decide +kernel
example : value (.establish peer) (str "PEER_NAME") = .ok (some (str "gate")) := by decide +kernel
example : value (.establish peer) (str "PEER_KEY") =
    .ok (some (str "1212121212121212121212121212121212121212121212121212121212121234")) := by decide +kernel
example : value (.establish peer) (str "NOTIFY_SOCKET") = .ok none := by decide +kernel
example : value (.establish peer) (str "PATH") = .ok (some (str "/bin")) := by decide +kernel
example : value (.establish peer) (str "FASTD_PID") = .ok (some (str "4711")) := by decide +kernel

-- an unknown peer: no name, although there is one in fastd's environment
example : value (.verify { peer with name := none } (.v4 [192, 0, 2, 1] 1) .unspec) (str "PEER_NAME") = .ok none := by
  decide +kernel
example : value (.connect none (some .unspec) (some (.v4 [192, 0, 2, 1] 53)) peer.addr) (str "LOCAL_PORT") =
    .ok (some (str "53")) := by decide +kernel
example : value (.connect none (some .unspec) (some (.v4 [192, 0, 2, 1] 53)) peer.addr) (str "INTERFACE") = .ok none := by
  decide +kernel

example : ∃ env e, envOf sys stack pub (.establish peer) = .ok (some env) ∧
    commandSetenv stack.pid 4711 base (some env) = .ok e ∧ Documented sys 4711 pub base (.establish peer) e :=
  C80_partial sane sizes 4711 base keys trivial

/-- A kernel on which a command ends with 0 if and only if it may trust the peer's name. -/
def EnvDemo.kern : Kernel where
  fork := some 99
  chdir d := d = str "/etc/fastd"
  exec := true
  openMax := 1024
  run _ p := if p.env (str "PEER_KEY") = some (Util.hexdump peer.key) ∧ p.fds = [0, 1, 2] then .exited 0 else .exited 1
  wait := true

def EnvDemo.daemon : Proc := { pid := 4711, env := base, dir := str "/", fds := [0, 1, 2, 3, 7, 12], blocked := [1, 2, 17] }

def EnvDemo.check (k : Kernel) (c : Cmd) (p : Peer) : Res Bool := do
  match ← envOf sys stack pub (.verify p p.loc p.addr) with
  | some env => doVerify k stack.pid daemon c env
  | none => return false

example : check kern ⟨str "verify", str "/etc/fastd", true⟩ peer = .ok true := by decide +kernel
example : check kern ⟨str "verify", str "/etc/fastd", true⟩ { peer with key := pub } = .ok false := by decide +kernel
example : check kern ⟨str "verify", str "/nonexistent", true⟩ peer = .ok false := by decide +kernel
example : check { kern with run := fun _ _ => .signaled 9 } ⟨str "verify", str "/etc/fastd", true⟩ peer = .ok false := by
  decide +kernel

-- with a smaller buffer the name of the interface would be written beyond its end
example : setAddr { sys with ntop6 := fun _ => List.replicate 45 0x31 } (List.replicate 61 0) [] (some peer.addr) (str "A")
    (str "P") = .overrun := by decide +kernel

end

end Fastd.ShellEnv
