import Verif.Config.CheckLemmas
import Verif.Props.Options

/-!
# C77, C78: the start of fastd, and the peers of all peer directories
-/

namespace Fastd.Config.Spec

open Fastd.Config (Bytes lit)
open Fastd.Config.Gram
open Fastd.Config.Exec
open Fastd.Config.Opt
open Fastd.Config.Start (SEnv Provider Ready SRes lookup readTree readChildren singleIface persistentIfaces initConfig check protocolInit allowVerify hasPeerDirs)

variable {D : Type} {env : SEnv D}

/-! ## Lemmas -/

theorem accepted_of (hs : Sane env.toEnv) (hu : env.cmdUser = true → env.useUser = true) {args : List Bytes} (hf : FineArgs args) {d : D} {s}
    (h : configure env.toOEnv d args = .ok s) : ∃ as its next, Accepted env.toOEnv d args as its next := by
  obtain ⟨as, xs, hc, hx, hv, hk⟩ := (C76_accepted_partial (env := env.toOEnv) hs hu hf d).1 ⟨s, h⟩
  exact ⟨as, _, _, xs, hc, hx, rfl, rfl, hv, hk⟩

theorem of_accepted (hs : Sane env.toEnv) (hu : env.cmdUser = true → env.useUser = true) {args : List Bytes} (hf : FineArgs args) {d : D} {as its next}
    (h : Accepted env.toOEnv d args as its next) :
    ∃ s c, configure env.toOEnv d args = .ok s ∧ Flags as s ∧ DefaultLevel c s.st.conf ∧ Meets env.toEnv its next { s.st with conf := c } ∧ Whole its next ∧
      ∀ x ∈ its, Valid env.toEnv x.2 := by
  obtain ⟨xs, hc, hx, rfl, rfl, hv, hk⟩ := h
  obtain ⟨s, h⟩ := (C76_accepted_partial (env := env.toOEnv) hs hu hf d).2 ⟨as, xs, hc, hx, hv, hk⟩
  obtain ⟨_, hfl, c, hl, hm⟩ := C76_partial (env := env.toOEnv) hs hu hf h hc hx
  exact ⟨s, c, h, hfl, hl, hm, whole xs, hv⟩

theorem no_key {as : List Act} {s : OSt D} (h : Flags as s) : (s.generateKey = false ∧ s.showKey = false) ↔ ∀ a ∈ as, a ≠ .generateKey ∧ a ≠ .showKey := by
  have h1 := h.generateKey
  have h2 := h.showKey
  have key : (as.filterMap fun | .generateKey => some true | .showKey => some false | _ => none : List Bool) = [] ↔ ∀ a ∈ as, a ≠ .generateKey ∧ a ≠ .showKey := by
    rw [List.filterMap_eq_nil_iff]
    refine forall₂_congr fun a _ => ?_
    cases a <;> simp
  rw [← key]
  generalize (as.filterMap fun | .generateKey => some true | .showKey => some false | _ => none : List Bool) = l at *
  cases hl : l.getLast? with
  | none =>
    rw [List.getLast?_eq_none_iff] at hl
    subst hl
    simp at h1 h2
    simp [h1, h2]
  | some b =>
    have : l ≠ [] := by rintro rfl; cases hl
    rw [hl] at h1 h2
    cases b <;> simp_all

/-- What happens for a command line that is accepted -/
structure Fits (env : SEnv D) (as : List Act) (its : List (Nat × Item D)) (next : Nat) (res : SRes D) : Prop where
  run : (∃ r, res = .running r) ↔ (∀ a ∈ as, a ≠ .verifyConfig ∧ a ≠ .generateKey ∧ a ≠ .showKey) ∧ Startable env its
  set : ∀ r, res = .running r → Running env its r ∧ r.st.peers = its.filterMap (thePeer env.toEnv) ∧
      (∃ c, ConfSpec env.toEnv its c ∧ DefaultLevel c r.st.conf) ∧ GroupsOf env.toEnv its next (rootMethods env.toEnv its) r.st.groups
  verify : res = .verified ↔ .verifyConfig ∈ as ∧ Base env its ∧ ∀ x ∈ its, ∀ n, theMethod x.2 = some n → (env.create n).isSome
  safe : res ≠ .overrun ∧ res ≠ .stuck

theorem fits_not {as : List Act} {its : List (Nat × Item D)} {next} {res : SRes D} (h1 : ∀ r, res ≠ .running r) (h2 : res ≠ .verified) (h3 : res ≠ .overrun ∧ res ≠ .stuck)
    (hr : (∀ a ∈ as, a ≠ .verifyConfig ∧ a ≠ .generateKey ∧ a ≠ .showKey) → ¬ Startable env its)
    (hv : .verifyConfig ∈ as → ¬ (Base env its ∧ ∀ x ∈ its, ∀ n, theMethod x.2 = some n → (env.create n).isSome)) : Fits env as its next res :=
  ⟨⟨fun ⟨r, h⟩ => absurd h (h1 r), fun h => absurd h.2 (hr h.1)⟩, fun r h => absurd h (h1 r), ⟨fun h => absurd h h2, fun h => absurd h.2 (hv h.1)⟩, h3⟩

theorem start_spec (hs : Sane env.toEnv) (hu : env.cmdUser = true → env.useUser = true) {args : List Bytes} (hf : FineArgs args) {d : D} {as its next}
    (h : Accepted env.toOEnv d args as its next) : Fits env as its next (Start.start env d args) := by
  obtain ⟨s, c, hcf, hfl, hl, hm, hw, hv⟩ := of_accepted hs hu hf h
  unfold Start.start
  rw [hcf]
  simp only
  unfold initConfig
  have hvc := hfl.verifyConfig
  have hno := no_key hfl
  split
  · rename_i h1
    have h1' := hvc.1 h1
    rcases verify_spec hl hm hw hv with ⟨h2, h3⟩ | ⟨h2, h3⟩
    · rw [h2]
      exact fits_not (by simp) (by simp) (by simp) (fun hh => absurd rfl (hh _ h1').1) fun _ => h3
    · rw [h2]
      exact ⟨⟨fun ⟨r, h⟩ => by simp at h, fun hh => absurd rfl (hh.1 _ h1').1⟩, by simp, ⟨fun _ => ⟨h1', h3⟩, fun _ => rfl⟩, by simp⟩
  · rename_i h1
    have h1' : Act.verifyConfig ∉ as := fun hh => h1 (hvc.2 hh)
    split
    · rename_i h2
      refine fits_not (by simp) (by simp) (by simp) (fun hh => ?_) fun hh => absurd hh h1'
      have := (hno.2 fun a ha => (hh a ha).2).1
      rw [this] at h2
      cases h2
    · rename_i h2
      split
      · rename_i h3
        refine fits_not (by simp) (by simp) (by simp) (fun hh hst => ?_) fun hh => absurd hh h1'
        obtain ⟨k, hk, hk'⟩ := hst.secret
        have hsec : s.st.conf.secret = some k := by rw [(DefaultLevel.conf (env := env.toEnv) hl).2.2.1]; exact hm.conf.secret.trans hk
        simp [protocolInit, hsec, hk'] at h3
      · rename_i h3
        split
        · rename_i h4
          refine fits_not (by simp) (by simp) (by simp) (fun hh => ?_) fun hh => absurd hh h1'
          have := (hno.2 fun a ha => (hh a ha).2).2
          rw [this] at h4
          cases h4
        · rename_i h4
          have hflag : ∀ a ∈ as, a ≠ .verifyConfig ∧ a ≠ .generateKey ∧ a ≠ .showKey := by
            intro a ha
            refine ⟨?_, hno.1 ⟨by simpa using h2, by simpa using h4⟩ a ha⟩
            rintro rfl
            exact h1' ha
          have hsec : ∃ k, last theSecret its = some k ∧ env.secretOk k = true := by
            unfold protocolInit at h3
            have hsec : s.st.conf.secret = last theSecret its := by rw [(DefaultLevel.conf (env := env.toEnv) hl).2.2.1]; exact hm.conf.secret
            rw [hsec] at h3
            cases hk : last theSecret its with
            | none => simp [hk] at h3
            | some k => simp [hk] at h3; exact ⟨k, rfl, h3⟩
          have hch : ∀ st : St D, st.conf = s.st.conf → st.groups = s.st.groups → st.peers = s.st.peers → Fits env as its next (check env st) := by
            intro st e1 e2 e3
            have hm' : Meets env.toEnv its next { st with conf := c } := by
              refine ⟨by rw [e2]; exact hm.count, fun g hg => ?_, by rw [e3]; exact hm.peers, hm.conf⟩
              show st.groups[g]? = _
              rw [e2]; exact hm.group g hg
            rcases check_spec (c := c) (by rw [e1]; exact hl) hm' hw hv with ⟨h5, h6⟩ | ⟨r, h5, h6, h7, h8, h9, h10⟩
            · rw [h5]
              exact fits_not (by simp) (by simp) (by simp) (fun _ hst => h6 ⟨hst.base, hst.peers, hst.methods, hst.ids⟩) fun hh => absurd hh h1'
            · rw [h5]
              refine ⟨⟨fun _ => ⟨hflag, h6.base, hsec, h6.peers, h6.methods, h6.ids⟩, fun _ => ⟨r, rfl⟩⟩, fun r' hr => ?_, ⟨fun hh => by simp at hh, fun hh => absurd hh.1 h1'⟩, by simp⟩
              cases hr
              refine ⟨h7, h8, ⟨c, hm.conf, ?_⟩, h10⟩
              rw [h9, e1]; exact hl
          simp only
          split <;> exact hch _ rfl rfl rfl

/-! ## The properties -/

/-- **C77, start** for the command lines of `FineArgs`: fastd is started if and only if the command line is accepted, and the configuration has all that is needed:
a secret, a possibility for peers, methods that are available, an existing user and an existing group, and suitable settings for offloading. -/
theorem C77_partial (hs : Sane env.toEnv) (hu : env.cmdUser = true → env.useUser = true) {args : List Bytes} (hf : FineArgs args) (d : D) :
    (∃ r, Start.start env d args = .running r) ↔
    ∃ as its next, Accepted env.toOEnv d args as its next ∧ (∀ a ∈ as, a ≠ .verifyConfig ∧ a ≠ .generateKey ∧ a ≠ .showKey) ∧ Startable env its := by
  constructor
  · rintro ⟨r, h⟩
    have hc : ∃ s, configure env.toOEnv d args = .ok s := by
      unfold Start.start at h
      split at h <;> first | exact ⟨_, rfl⟩ | cases h | skip
      rename_i s hs
      exact ⟨s, hs⟩
    obtain ⟨s, hc⟩ := hc
    obtain ⟨as, its, next, ha⟩ := accepted_of hs hu hf hc
    exact ⟨as, its, next, ha, (start_spec hs hu hf ha).run.1 ⟨r, h⟩⟩
  · rintro ⟨as, its, next, ha, h⟩
    exact (start_spec hs hu hf ha).run.2 h

/-- **C77, settings**: the user and the groups of the process, its table of methods, the space in buffers that is needed for them, the peers and the settings are those
of the configuration. -/
theorem C77_running (hs : Sane env.toEnv) (hu : env.cmdUser = true → env.useUser = true) {args : List Bytes} (hf : FineArgs args) {d : D} {r : Ready D}
    (h : Start.start env d args = .running r) {as its next} (ha : Accepted env.toOEnv d args as its next) :
    Running env its r ∧ r.st.peers = its.filterMap (thePeer env.toEnv) ∧ ∃ c, ConfSpec env.toEnv its c ∧ DefaultLevel c r.st.conf := by
  obtain ⟨h1, h2, h3, _⟩ := (start_spec hs hu hf ha).set r h
  exact ⟨h1, h2, h3⟩

/-- **C77, methods and commands of groups**: a group uses the methods, and the commands, of the innermost group around it that has any. -/
theorem C77_lookup (hs : Sane env.toEnv) (hu : env.cmdUser = true → env.useUser = true) {args : List Bytes} (hf : FineArgs args) {d : D} {r : Ready D}
    (h : Start.start env d args = .running r) {as its next} (ha : Accepted env.toOEnv d args as its next) {g} (hg : g < next) :
    (∃ ms, MethodsOf its g ms ∧ lookup r.st.groups methodsAttr r.st.groups.length g = some (some ms)) ∧
    ∀ ev, ev ≠ .verify → ∃ c, CmdOf env.toEnv ev its g c ∧ lookup r.st.groups (cmdAttr ev) r.st.groups.length g = some c := by
  obtain ⟨_, _, _, h4⟩ := (start_spec hs hu hf ha).set r h
  obtain ⟨_, _, _, _, _, _, hw, _⟩ := of_accepted hs hu hf ha
  exact ⟨methods_lookup h4 hw rfl hg, fun ev hev => cmd_lookup h4 hw hev hg⟩

/-- **C77, memory**: the array of methods is not overrun. The functions on the tree of groups end. -/
theorem C77_safe (hs : Sane env.toEnv) (hu : env.cmdUser = true → env.useUser = true) {args : List Bytes} (hf : FineArgs args) (d : D) :
    Start.start env d args ≠ .overrun ∧ Start.start env d args ≠ .stuck := by
  cases hc : configure env.toOEnv d args with
  | ok s =>
    obtain ⟨as, its, next, ha⟩ := accepted_of hs hu hf hc
    exact (start_spec hs hu hf ha).safe
  | _ => simp [Start.start, hc]

/-- **C77, check**: what `--verify-config` reports to be correct -/
theorem C77_verify (hs : Sane env.toEnv) (hu : env.cmdUser = true → env.useUser = true) {args : List Bytes} (hf : FineArgs args) (d : D) :
    Start.start env d args = .verified ↔
    ∃ as its next, Accepted env.toOEnv d args as its next ∧ .verifyConfig ∈ as ∧ Base env its ∧ ∀ x ∈ its, ∀ n, theMethod x.2 = some n → (env.create n).isSome := by
  constructor
  · intro h
    have hc : ∃ s, configure env.toOEnv d args = .ok s := by
      unfold Start.start at h
      split at h <;> first | cases h | skip
      rename_i s hs
      exact ⟨s, hs⟩
    obtain ⟨s, hc⟩ := hc
    obtain ⟨as, its, next, ha⟩ := accepted_of hs hu hf hc
    exact ⟨as, its, next, ha, (start_spec hs hu hf ha).verify.1 h⟩
  · rintro ⟨as, its, next, ha, h⟩
    exact (start_spec hs hu hf ha).verify.2 h

theorem ifaces {its : List (Nat × Item D)} {next root} {st : St D} {c} (hg : GroupsOf env.toEnv its next root st.groups) (hw : Whole its next)
    (hc : ConfSpec env.toEnv its c) (hl : DefaultLevel c st.conf) (hv : ∀ x ∈ its, Valid env.toEnv x.2) (hp : st.peers = its.filterMap (thePeer env.toEnv)) :
    (∃ b, singleIface env.toEnv st = some b ∧ (b = true ↔ OneIface env.toEnv its)) ∧ ∃ b, persistentIfaces env.toEnv st = some b ∧ (b = true ↔ Permanent env.toEnv its) := by
  obtain ⟨_, _, _, _, l5, l6, l7⟩ := DefaultLevel.conf (env := env.toEnv) hl
  obtain ⟨b, h2, h3⟩ := hasPeerDirs_spec hg hw
  have e2 := allowVerify_iff hc hv
  have hd : (∀ x ∈ its, theDir env.toEnv x.2 = none) ↔ b = false := by
    rw [← Bool.not_eq_true, h3]; simp
  have he : (∀ x ∈ its, theVerify env.toEnv x = none) ↔ allowVerify env.toEnv c = false := by
    rw [← Bool.not_eq_true, e2]; simp
  constructor
  · unfold singleIface OneIface
    rw [l6, hc.mode, h2, l5, hp, hd, he]
    split
    · rename_i h; exact ⟨true, rfl, by simp [h]⟩
    · rename_i h
      simp only [h, false_or]
      cases b with
      | true => exact ⟨false, rfl, by simp⟩
      | false => exact ⟨_, rfl, by simp [List.length_eq_one_iff]⟩
  · unfold persistentIfaces Permanent
    rw [l6, l7, hc.mode, hc.persist, h2, l5, hd, he]
    have hper : last thePersist its ≠ some false ↔ (last thePersist its).getD true = true := by
      cases last thePersist its with
      | none => simp
      | some b => cases b <;> simp
    rw [hper]
    split
    · rename_i h; exact ⟨true, rfl, by simp [h]⟩
    · rename_i h
      simp only [h, false_or]
      cases (last thePersist its).getD true with
      | false => exact ⟨false, rfl, by simp⟩
      | true =>
        cases b with
        | true => exact ⟨false, rfl, by simp⟩
        | false => exact ⟨_, rfl, by simp⟩

/-- **C77, interfaces**: whether there is one interface for all peers, and whether interfaces exist all the time -/
theorem C77_ifaces (hs : Sane env.toEnv) (hu : env.cmdUser = true → env.useUser = true) {args : List Bytes} (hf : FineArgs args) {d : D} {r : Ready D}
    (h : Start.start env d args = .running r) {as its next} (ha : Accepted env.toOEnv d args as its next) :
    (∃ b, singleIface env.toEnv r.st = some b ∧ (b = true ↔ OneIface env.toEnv its)) ∧ ∃ b, persistentIfaces env.toEnv r.st = some b ∧ (b = true ↔ Permanent env.toEnv its) := by
  obtain ⟨_, h2, ⟨c, h3, h4⟩, h5⟩ := (start_spec hs hu hf ha).set r h
  obtain ⟨_, _, _, _, _, _, hw, hv⟩ := of_accepted hs hu hf ha
  exact ifaces h5 hw h3 h4 hv h2

/-! ## Peer directories -/

theorem AllPeers.append {env : Env D} {here : D} {l l' ps ps'} (h : AllPeers env here l ps) (h' : AllPeers env here l' ps') : AllPeers env here (l ++ l') (ps ++ ps') := by
  induction h with
  | nil => exact h'
  | cons hd _ ih => rw [List.append_assoc]; exact .cons hd ih

theorem DirsPeers.all {env : Env D} {here : D} {g dirs ps} (h : DirsPeers env g here dirs ps) : AllPeers env here (dirs.map fun dir => (g, dir)) ps := by
  induction h with
  | nil => exact .nil
  | dir h1 h2 h3 _ ih => exact .cons (by simpa using DirsPeers.dir h1 h2 h3 .nil) ih
  | skip h1 _ ih => exact .cons (ps := []) (.skip h1 .nil) ih

theorem by_key {α} (l : List (Nat × α)) : ∀ n, (∀ x ∈ l, x.1 < n) → ((List.range n).flatMap fun g => l.filter (·.1 = g)).Perm l := by
  intro n
  induction n generalizing l with
  | zero =>
    intro h
    cases l with
    | nil => exact .refl _
    | cons x l => exact absurd (h x (by simp)) (by omega)
  | succ n ih =>
    intro h
    have h1 := ih (l.filter (·.1 < n)) (by simp)
    have h2 : ((List.range n).flatMap fun g => (l.filter (·.1 < n)).filter (·.1 = g)) = (List.range n).flatMap fun g => l.filter (·.1 = g) := by
      refine List.flatMap_congr fun g hg => ?_
      rw [List.filter_filter]
      refine List.filter_congr fun x _ => ?_
      rw [List.mem_range] at hg
      by_cases hx : x.1 = g
      · simp [hx, hg]
      · simp [hx]
    rw [h2] at h1
    rw [List.range_succ, List.flatMap_append]
    have h3 : l.filter (·.1 = n) = l.filter fun x => !decide (x.1 < n) := by
      refine List.filter_congr fun x hx => ?_
      have := h x hx
      by_cases hx : x.1 = n
      · simp [hx]
      · have : x.1 < n := by omega
        simp [hx, this]
    simp only [List.flatMap_cons, List.flatMap_nil, List.append_nil]
    rw [h3]
    exact (h1.append (.refl _)).trans (List.filter_append_perm _ _)

/-- The directories of all groups are those of all statements. -/
theorem dirs_perm {env : Env D} {its : List (Nat × Item D)} {next} (hw : Whole its next) {l : List Nat} (hl : l.Perm (List.range next)) :
    (l.flatMap fun g => (groupSpec env its g).peerDirs.map fun dir => (g, dir)).Perm (its.filterMap (theGroupDir env)) := by
  refine (hl.flatMap_right _).trans ?_
  have h1 : ((List.range next).flatMap fun g => (groupSpec env its g).peerDirs.map fun dir => (g, dir)).Perm
      ((List.range next).flatMap fun g => (own g its).filterMap (theGroupDir env)) := by
    refine List.Perm.flatMap_left _ fun g _ => ?_
    have : (own g its).filterMap (theGroupDir env) = ((own g its).filterMap fun x => theDir env x.2).map fun dir => (g, dir) := by
      rw [List.map_filterMap]
      refine List.filterMap_congr fun x hx => ?_
      simp only [own, List.mem_filter, decide_eq_true_eq] at hx
      simp only [theGroupDir, hx.2]
    rw [this]
    exact (List.reverse_perm _).map _
  refine h1.trans ?_
  have h2 : ((List.range next).flatMap fun g => (own g its).filterMap (theGroupDir env)) = ((List.range next).flatMap fun g => own g its).filterMap (theGroupDir env) := by
    rw [List.filterMap_flatMap]
  rw [h2]
  exact (by_key its next hw.lt).filterMap _

theorem readChildren_order {env : Env D} {st : St D} {here : D} {dirs : Nat → List Bytes} {f : Nat → St D → Option (Res D (List Peer))} {f' : Nat → Option (List Nat)}
    (h : ∀ c l, f' c = some l → (∃ ps, f c st = some (.ok ps st) ∧ AllPeers env here (l.flatMap fun g => (dirs g).map fun dir => (g, dir)) ps) ∨ f c st = some .exit) :
    ∀ cs l, orderAll f' cs = some l → (∃ ps, readChildren f cs st = some (.ok ps st) ∧ AllPeers env here (l.flatMap fun g => (dirs g).map fun dir => (g, dir)) ps) ∨
      readChildren f cs st = some .exit := by
  intro cs
  induction cs with
  | nil => intro l hl; cases hl; exact .inl ⟨[], rfl, .nil⟩
  | cons c cs ih =>
    intro l hl
    simp only [orderAll] at hl
    split at hl
    · rename_i a b ha hb
      cases hl
      simp only [readChildren, List.flatMap_append]
      rcases h c a ha with ⟨ps, h1, h2⟩ | h1
      · rw [h1]
        simp only
        rcases ih b hb with ⟨qs, h3, h4⟩ | h3
        · rw [h3]
          exact .inl ⟨ps ++ qs, rfl, h2.append h4⟩
        · rw [h3]; exact .inr rfl
      · rw [h1]; exact .inr rfl
    · cases hl

theorem readTree_order {env : Env D} (hs : Sane env) {st : St D} (ha : ∀ (g : Nat) (gr : Exec.Group), st.groups[g]? = some gr → ∀ dir ∈ gr.peerDirs, ∀ d, env.chdir d dir = env.chdir st.cwd dir) :
    ∀ k g l, order st.groups k g = some l →
    (∃ ps, readTree env k g st = some (.ok ps st) ∧ AllPeers env st.cwd (l.flatMap fun g => ((st.groups[g]?.map fun gr => gr.peerDirs).getD []).map fun dir => (g, dir)) ps) ∨
      readTree env k g st = some .exit := by
  intro k
  induction k with
  | zero => intro g l h; cases h
  | succ k ih =>
    intro g l h
    simp only [order] at h
    simp only [readTree]
    cases hg : st.groups[g]? with
    | none => simp [hg] at h
    | some gr =>
      simp only [hg, Option.map_eq_some_iff] at h
      obtain ⟨l', h1, rfl⟩ := h
      simp only
      rcases C73_peers hs hg (ha g gr hg) with ⟨ps, h2, h3⟩ | h2
      · rw [h2]
        simp only
        rcases readChildren_order ih _ _ h1 with ⟨qs, h4, h5⟩ | h4
        · rw [h4]
          refine .inl ⟨ps ++ qs, rfl, ?_⟩
          rw [List.flatMap_cons, hg]
          exact h3.all.append h5
        · rw [h4]; exact .inr rfl
      · rw [h2]; exact .inr rfl

theorem readTree_groups {env : Env D} (hs : Sane env) {its : List (Nat × Item D)} {next root} {st : St D} (hg : GroupsOf env its next root st.groups) (hw : Whole its next) :
    (∃ ps l, readTree env st.groups.length 0 st = some (.ok ps st) ∧ l.Perm (its.filterMap (theGroupDir env)) ∧ AllPeers env st.cwd l ps) ∨
    readTree env st.groups.length 0 st = some .exit := by
  have hdirs : ∀ (g : Nat), g < next → (st.groups[g]?.map fun gr => gr.peerDirs).getD [] = (groupSpec env its g).peerDirs := by
    intro g hlt; rw [hg.group g hlt]; rfl
  have habs : ∀ (g : Nat) (gr : Exec.Group), st.groups[g]? = some gr → ∀ dir ∈ gr.peerDirs, ∀ d, env.chdir d dir = env.chdir st.cwd dir := by
    intro g gr hgr dir hdir d1
    obtain ⟨_, rfl⟩ := hg.get hgr
    simp only [groupSpec, List.mem_reverse, List.mem_filterMap] at hdir
    obtain ⟨⟨i, it⟩, _, he⟩ := hdir
    cases it with
    | leaf d s =>
      cases s with
      | inclPeers x =>
        simp only [theDir, Option.map_eq_some_iff] at he
        obtain ⟨a, _, rfl⟩ := he
        rw [hs, hs]
      | _ => simp [theDir] at he
    | _ => simp [theDir] at he
  obtain ⟨l, h1, h2⟩ := order_zero (hg.tree hw)
  rcases readTree_order hs habs _ _ _ h1 with ⟨ps, h3, h4⟩ | h3
  · refine .inl ⟨ps, _, h3, ?_, h4⟩
    rw [hg.count] at h2
    rw [List.flatMap_congr fun g hgm => by rw [hdirs g (by simpa using h2.mem_iff.1 hgm)]]
    exact dirs_perm hw h2
  · exact .inr h3

/-- **C78**: when the peer directories of a configuration file are read, at the start and while fastd is running, then either fastd exits (see C73), or the peers are those
of all peer directories of the configuration: every directory is read once for each statement, and its peers belong to the group of the statement. Nothing else is
changed. -/
theorem C78 {env : Env D} (hs : Sane env) {name : Bytes} {d : D} {st₀ : St D} (h : readConf env maxDepth 0 name (start d) = .ok () st₀)
    {ts d' body xs} (hf : File env d name ts d') (hd : DConf body ts) (hx : ExpC env 9 d' body xs) {st : St D} (hst : st.groups = st₀.groups) :
    (∃ ps l, readTree env st.groups.length 0 st = some (.ok ps st) ∧ l.Perm ((walk 1 0 xs).1.filterMap (theGroupDir env)) ∧ AllPeers env st.cwd l ps) ∨
    readTree env st.groups.length 0 st = some .exit := by
  have hm := (C72 hs h hf hd hx).2
  exact readTree_groups hs (by rw [hst]; exact groupsOf_meets hm) (whole xs)

/-- **C78** for a process that has been started with a command line of `FineArgs` -/
theorem C78_running (hs : Sane env.toEnv) (hu : env.cmdUser = true → env.useUser = true) {args : List Bytes} (hf : FineArgs args) {d : D} {r : Ready D}
    (h : Start.start env d args = .running r) {as its next} (ha : Accepted env.toOEnv d args as its next) {st : St D} (hst : st.groups = r.st.groups) :
    (∃ ps l, readTree env.toEnv st.groups.length 0 st = some (.ok ps st) ∧ l.Perm (its.filterMap (theGroupDir env.toEnv)) ∧ AllPeers env.toEnv st.cwd l ps) ∨
    readTree env.toEnv st.groups.length 0 st = some .exit := by
  obtain ⟨_, _, _, hg⟩ := (start_spec hs hu hf ha).set r h
  obtain ⟨_, _, _, _, _, _, hw, _⟩ := of_accepted hs hu hf ha
  exact readTree_groups hs (by rw [hst]; exact hg) hw

namespace Demo

open Kw

/-- The file `m`: `secret "xy"; user "u"; on up "c"; include peers from "d"; peer group "g" { method "aa"; peer group "h" { include peers from "d"; on up "e"; } }
peer group "i" { }`; the directory `d` is that of `dirs`. -/
def senv : SEnv Bytes :=
  { ofs (fun d name =>
      if d = [] ∧ name = lit "m" then
        some ([.kw kSecret, .str (lit "xy"), .semi, .kw kUser, .str (lit "u"), .semi, .kw kOn, .kw kUp, .str (lit "c"), .semi,
          .kw kInclude, .kw kPeers, .kw kFrom, .str (lit "d"), .semi,
          .kw kPeer, .kw kGroup, .str (lit "g"), .lbrace, .kw kMethod, .str (lit "aa"), .semi,
            .kw kPeer, .kw kGroup, .str (lit "h"), .lbrace, .kw kInclude, .kw kPeers, .kw kFrom, .str (lit "d"), .semi,
              .kw kOn, .kw kUp, .str (lit "e"), .semi, .rbrace, .rbrace,
          .kw kPeer, .kw kGroup, .str (lit "i"), .lbrace, .rbrace], false)
      else dirs.file d name) (fun _ => ([], false)) with
    entries := dirs.entries
    secretOk := fun k => k = lit "xy"
    uid := 0, gid := 0
    passwd := fun n => if n = lit "u" then some (5, 6) else none
    grp := fun n => if n = lit "v" then some 7 else none
    grouplist := fun _ g => some [g, 9]
    create := fun n => if n.length < 5 then some { overhead := n.length, encryptHeadroom := 10 * n.length, decryptHeadroom := 3 } else none }

def ready : SRes Bytes → Option (Ready Bytes)
  | .running r => some r
  | _ => none

def run (args : List Bytes) : Option (Ready Bytes) := ready (Start.start senv [] args)

example : (run [lit "-c", lit "m"]).map (fun r => (r.uid, r.gid, r.groups)) = some (5, 6, [6, 9]) := by decide +kernel
example : (run [lit "-c", lit "m", lit "--group", lit "v"]).map (fun r => (r.uid, r.gid, r.groups)) = some (5, 7, [7, 9]) := by decide +kernel

/-- `null` is used besides `aa`. -/
example : (run [lit "-c", lit "m"]).map (fun r => (r.methods.map (·.map (·.1)), r.overhead, r.encryptHeadroom, r.decryptHeadroom)) =
    some ([some (lit "aa"), some (lit "null"), none], 4, 48, 24) := by decide +kernel

/-- Methods and commands of the four groups -/
example : (run [lit "-c", lit "m"]).map (fun r => (List.range 4).map fun g => lookup r.st.groups methodsAttr r.st.groups.length g) =
    some [some (some [lit "null"]), some (some [lit "aa"]), some (some [lit "aa"]), some (some [lit "null"])] := by decide +kernel

example : (run [lit "-c", lit "m"]).map (fun r => (List.range 4).map fun g => (lookup r.st.groups (cmdAttr .up) r.st.groups.length g).map (·.map (·.command))) =
    some [some (some (lit "c")), some (some (lit "c")), some (some (lit "e")), some (some (lit "c"))] := by decide +kernel

/-- Not started: without peers, without secret, with a user, a group or a method that does not exist -/
example : (run []).isNone = true := by decide +kernel
example : (run [lit "--config-peer-dir", lit "d"]).isNone = true := by decide +kernel
example : (run [lit "-c", lit "m", lit "--user", lit "w"]).isNone = true := by decide +kernel
example : (run [lit "-c", lit "m", lit "--group", lit "w"]).isNone = true := by decide +kernel
example : (run [lit "-c", lit "m", lit "--method", lit "aaaaa"]).isNone = true := by decide +kernel

/-- The peers of the directory `d` for the groups 0 and 2 -/
example : (run [lit "-c", lit "m"]).bind (fun r => (readTree senv.toEnv 4 0 r.st).bind fun x => (found x).map (·.map fun p => (p.name, p.group))) =
    some [(some [112], some 0), (some [115], some 0), (some [112], some 2), (some [115], some 2)] := by decide +kernel

example : (run [lit "-c", lit "m"]).map (fun r => (singleIface senv.toEnv r.st, persistentIfaces senv.toEnv r.st)) = some (some true, some true) := by decide +kernel
example : (run [lit "-c", lit "m", lit "--mode", lit "tun"]).map (fun r => (singleIface senv.toEnv r.st, persistentIfaces senv.toEnv r.st)) =
    some (some false, some false) := by decide +kernel

end Demo

/-- **C77, check** is false for the whole of what is needed: `--verify-config` reports a configuration without a secret and without peers to be correct. -/
theorem C77_verify_false : Start.start Demo.senv [] [lit "--verify-config"] = .verified ∧ Start.start Demo.senv [] [] = .exit := ⟨rfl, rfl⟩

end Fastd.Config.Spec
