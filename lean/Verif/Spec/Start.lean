import Verif.Spec.Options
import Verif.Config.Check

/-!
# What is needed to start fastd

The specification used for the checks of the configuration. `its` are the items of `Spec/Conf`.
-/

namespace Fastd.Config.Spec

open Fastd.Config (Bytes lit)
open Fastd.Config.Gram
open Fastd.Config.Exec
open Fastd.Config.Opt (OEnv)
open Fastd.Config.Start (SEnv Provider Ready)

/-- The command line `args`, used in the directory `d`, has the options `as` and means the items `its` with `next` groups, all of which are accepted. -/
def Accepted {D} (env : OEnv D) (d : D) (args : List Bytes) (as : List Act) (its : List (Nat × Item D)) (next : Nat) : Prop :=
  ∃ xs, Cmdline env args as ∧ ExpO env d 0 as xs ∧ its = (walk 1 0 xs).1 ∧ next = (walk 1 0 xs).2 ∧ (∀ x ∈ its, Valid env.toEnv x.2) ∧ KeysValid env.toEnv its

/-- There is a `method` statement in the group `g`, not counting the groups in it. -/
def HasMethod {D} (its : List (Nat × Item D)) (g : Nat) : Prop := ∃ x ∈ its, x.1 = g ∧ (theMethod x.2).isSome

/-- The method `n` may be needed: it is used somewhere, or it is `null`, and the root group has no methods. -/
def Needed {D} (its : List (Nat × Item D)) (n : Bytes) : Prop := (∃ x ∈ its, theMethod x.2 = some n) ∨ n = lit "null" ∧ ¬ HasMethod its 0

/-- The methods for the peers of a group: those of the innermost group around them that has any. Without any, `null` is used. -/
inductive MethodsOf {D} (its : List (Nat × Item D)) : Nat → List Bytes → Prop
  | own {g} : HasMethod its g → MethodsOf its g ((own g its).filterMap fun x => theMethod x.2).eraseDups
  | outer {g p name ms} : ¬ HasMethod its g → (p, Item.sub g name) ∈ its → MethodsOf its p ms → MethodsOf its g ms
  | null : ¬ HasMethod its 0 → MethodsOf its 0 [lit "null"]

/-- The command for an event and the peers of a group: the one of the innermost group around them that has any -/
inductive CmdOf {D} (env : Env D) (ev : Ev) (its : List (Nat × Item D)) : Nat → Option Cmd → Prop
  | own {g c} : last (theCmd env ev) (own g its) = some c → CmdOf env ev its g (some c)
  | outer {g p name c} : last (theCmd env ev) (own g its) = none → (p, Item.sub g name) ∈ its → CmdOf env ev its p c → CmdOf env ev its g c
  | none : last (theCmd env ev) (own 0 its) = none → CmdOf env ev its 0 none

/-- The user, the group, and the other groups of the process -/
structure Ids {D} (env : SEnv D) (its : List (Nat × Item D)) (uid gid : UInt32) (groups : List UInt32) : Prop where
  user : ∀ u, last theUser its = some u → ∃ gid', env.passwd u = some (uid, gid') ∧ (last theGroup its = none → gid = gid') ∧ env.grouplist u gid = some groups
  same : last theUser its = none → uid = env.uid ∧ (last theGroup its = none → gid = env.gid) ∧ groups = []
  group : ∀ g, last theGroup its = some g → env.grp g = some gid

/-- What is checked for a configuration by all means -/
structure Base {D} (env : SEnv D) (its : List (Nat × Item D)) : Prop where
  offload : last theOffload its = some true → last theMode its = some .multitap ∧ last thePersist its = some false

/-- There may be peers: one is configured, there is a peer directory, or there is a command to check unknown peers. -/
def MayHavePeers {D} (env : Env D) (its : List (Nat × Item D)) : Prop :=
  (∃ x ∈ its, ∃ name ss, x.2 = .peer name ss) ∨ (∃ x ∈ its, (theDir env x.2).isSome) ∨ ∃ x ∈ its, (theVerify env x).isSome

/-- What is needed to start -/
structure Startable {D} (env : SEnv D) (its : List (Nat × Item D)) : Prop where
  base : Base env its
  secret : ∃ s, last theSecret its = some s ∧ env.secretOk s = true
  peers : MayHavePeers env.toEnv its
  methods : ∀ n, Needed its n → (env.create n).isSome
  ids : env.useUser = true → ∃ uid gid groups, Ids env its uid gid groups

/-- The largest value of a list, or 0 -/
def Largest (l : List Nat) (v : Nat) : Prop := (∀ x ∈ l, x ≤ v) ∧ (v ∈ l ∨ l = [] ∧ v = 0)

/-- The next multiple of 16 -/
def Rounded (v r : Nat) : Prop := 16 ∣ r ∧ v ≤ r ∧ r < v + 16

/-- The settings of the running process -/
structure Running {D} (env : SEnv D) (its : List (Nat × Item D)) (r : Ready D) : Prop where
  ids : env.useUser = true → Ids env its r.uid r.gid r.groups
  /-- The table of methods, ended by an entry without name -/
  methods : ∃ l : List (Bytes × Provider), r.methods = l.map some ++ [none] ∧ (l.map (·.1)).Nodup ∧ (∀ n, n ∈ l.map (·.1) ↔ Needed its n) ∧
    (∀ x ∈ l, env.create x.1 = some x.2) ∧ Largest (l.map (·.2.overhead)) r.overhead ∧
    (∃ v, Largest (l.map (·.2.encryptHeadroom)) v ∧ Rounded v r.encryptHeadroom) ∧
    ∃ v w, Largest (l.map (·.2.decryptHeadroom)) v ∧ Rounded v w ∧ r.decryptHeadroom = w + 8

/-- The list of methods of a group, if it is not empty -/
def methodsAttr (g : Exec.Group) : Option (List Bytes) := if g.methods = [] then none else some g.methods

/-- The commands of a group -/
def cmdAttr (ev : Ev) (g : Exec.Group) : Option Cmd :=
  match ev with
  | .up => g.onUp
  | .down => g.onDown
  | .connect => g.onConnect
  | .establish => g.onEstablish
  | .disestablish => g.onDisestablish
  | .verify => none

/-! ## Peer directories -/

/-- A peer directory, with the group whose peers are in it -/
def theGroupDir {D} (env : Env D) (x : Nat × Item D) : Option (Nat × Bytes) := (theDir env x.2).map fun dir => (x.1, dir)

/-- The peers of several directories, with the groups they are for -/
inductive AllPeers {D} (env : Env D) (here : D) : List (Nat × Bytes) → List Peer → Prop
  | nil : AllPeers env here [] []
  | cons {g dir l ps qs} : DirsPeers env g here [dir] ps → AllPeers env here l qs → AllPeers env here ((g, dir) :: l) (ps ++ qs)

/-- There is one interface for all peers: in the mode `tap`, or if there is only one peer. -/
def OneIface {D} (env : Env D) (its : List (Nat × Item D)) : Prop :=
  (last theMode its).getD .tap = .tap ∨
  (∀ x ∈ its, theDir env x.2 = none) ∧ (∀ x ∈ its, theVerify env x = none) ∧ ∃ p, its.filterMap (thePeer env) = [p]

/-- Interfaces exist all the time: in the mode `tap`, or if they are not removed, and all peers are known at the start. -/
def Permanent {D} (env : Env D) (its : List (Nat × Item D)) : Prop :=
  (last theMode its).getD .tap = .tap ∨
  last thePersist its ≠ some false ∧ (∀ x ∈ its, theDir env x.2 = none) ∧ ∀ x ∈ its, theVerify env x = none

end Fastd.Config.Spec
