import Verif.Config.Options
import Verif.Config.Methods

/-!
# Start of fastd: checks of the configuration (src/config.c, src/fastd.c, src/protocols/ec25519_fhmqvc/ec25519_fhmqvc.c)

Model only. The functions on the tree of groups have a number of steps as argument; the result is `none` if these are not enough, which is proved not to happen.

* Android is not modelled. The process is not `fork`ed for the option `--daemon`: this has no effect on what is modelled here.
* `exit` is the end of the process with an error.
-/

namespace Fastd.Config.Start

open Fastd.Config (Bytes lit MRes collectLoop fillMethods)
open Fastd.Config.Gram
open Fastd.Config.Exec
open Fastd.Config.Opt

/-- The sizes of `fastd_method_provider_t` (src/method.h:25-45) -/
structure Provider where
  overhead : Nat
  encryptHeadroom : Nat
  decryptHeadroom : Nat
deriving DecidableEq

/-- The outside world -/
structure SEnv (D : Type) extends OEnv D where
  /-- `read_key` for the secret, followed by `divide_key` (src/protocols/ec25519_fhmqvc/ec25519_fhmqvc.c:48-58) -/
  secretOk : Bytes → Bool
  /-- `getuid`, `getgid` -/
  uid : UInt32
  gid : UInt32
  /-- `getpwnam_r`: the user and its group; `none`: there is none, or an error -/
  passwd : Bytes → Option (UInt32 × UInt32)
  /-- `getgrnam_r` -/
  grp : Bytes → Option UInt32
  /-- `getgrouplist` -/
  grouplist : Bytes → UInt32 → Option (List UInt32)
  /-- `fastd_method_create_by_name` -/
  create : Bytes → Option Provider

/-! ## Groups -/

/-- A loop over children, ended by the first one for which the result is true -/
def anyChild (f : Nat → Option Bool) : List Nat → Option Bool
  | [] => some false
  | c :: cs => match f c with
    | none => none
    | some true => some true
    | some false => anyChild f cs

/-- `has_peer_group_peer_dirs` (src/config.c:199-211) -/
def hasPeerDirs (gs : List Exec.Group) : Nat → Nat → Option Bool
  | 0, _ => none
  | k + 1, g => match gs[g]? with
    | none => none
    | some gr => if gr.peerDirs.isEmpty then anyChild (hasPeerDirs gs k) gr.children else some true

/-- A loop over children -/
def overChildren {α} (f : Nat → α → Option α) : List Nat → α → Option α
  | [], a => some a
  | c :: cs, a => match f c a with
    | none => none
    | some a => overChildren f cs a

/-- `collect_methods` (src/config.c:491-504) -/
def collect (gs : List Exec.Group) : Nat → Nat → List Bytes × Nat → Option (List Bytes × Nat)
  | 0, _, _ => none
  | k + 1, g, acc => match gs[g]? with
    | none => none
    | some gr => overChildren (collect gs k) gr.children (collectLoop gr.methods acc)

/-- `fastd_peer_group_lookup` (src/peer_group.h:55-63); `attr` is `none` for a null pointer. -/
def lookup {α} (gs : List Exec.Group) (attr : Exec.Group → Option α) : Nat → Nat → Option (Option α)
  | 0, _ => none
  | k + 1, g => match gs[g]? with
    | none => none
    | some gr => match gr.parent with
      | none => some (attr gr)
      | some p => match attr gr with
        | some a => some (some a)
        | none => lookup gs attr k p

/-- `peer_dirs_read_peer_group` (src/config.c:621-627), the loop over the children. The peers are those given to `fastd_peer_add`. -/
def readChildren {D} (f : Nat → St D → Option (Res D (List Peer))) : List Nat → St D → Option (Res D (List Peer))
  | [], st => some (.ok [] st)
  | c :: cs, st => match f c st with
    | none => none
    | some (.ok ps st) => match readChildren f cs st with
      | none => none
      | some r => some (r.bind fun qs st => .ok (ps ++ qs) st)
    | some r => some r

/-- `peer_dirs_read_peer_group` (src/config.c:621-627) -/
def readTree {D} (env : Env D) : Nat → Nat → St D → Option (Res D (List Peer))
  | 0, _, _ => none
  | k + 1, g, st => match st.groups[g]? with
    | none => none
    | some gr => match readPeerDirs env g st with
      | .ok ps st => match readChildren (readTree env k) gr.children st with
        | none => none
        | some r => some (r.bind fun qs st => .ok (ps ++ qs) st)
      | r => some r

/-! ## Checks -/

/-- `fastd_use_offload_l2tp` (src/fastd.h:613-619), `fastd_allow_verify` (src/fastd.h:604-610) -/
def useOffload {D} (env : Env D) (c : Conf) : Bool := env.offloadL2tp && c.offloadL2tp

def allowVerify {D} (env : Env D) (c : Conf) : Bool := env.dynamicPeers && c.onVerify.isSome

/-- `config_check_base` (src/config.c:546-562); false: `exit_error` -/
def checkBase {D} (env : Env D) (c : Conf) : Bool :=
  if useOffload env c then c.mode = .multitap && !c.persist else true

/-- `configure_user` (src/config.c:401-466): `conf.uid`, `conf.gid` and `conf.groups`; `none`: `exit_error` -/
def configureUser {D} (env : SEnv D) (c : Conf) : Option (UInt32 × UInt32 × List UInt32) :=
  if env.useUser then
    let fromUser : Option (UInt32 × UInt32) := match c.user with
      | none => some (env.uid, env.gid)
      | some u => env.passwd u
    match fromUser with
    | none => none
    | some (uid, gid) =>
      let fromGroup : Option UInt32 := match c.group with
        | none => some gid
        | some g => env.grp g
      match fromGroup with
      | none => none
      | some gid => match c.user with
        | none => some (uid, gid, [])
        | some u => match env.grouplist u gid with
          | none => none
          | some l => some (uid, gid, l)
  else some (0, 0, [])

/-- `alignto` -/
def alignto (l a : Nat) : Nat := (l + a - 1) / a * a

/-- `configure_method_parameters` (src/config.c:469-488): `conf.overhead`, `conf.encrypt_headroom`, `conf.decrypt_headroom`. The loop ends at the first entry without a name. -/
def parameters (arr : List (Option (Bytes × Provider))) : Nat × Nat × Nat :=
  let ms := arr.takeWhile (·.isSome) |>.filterMap id
  let m := ms.foldl (fun (o, e, d) x => (max o x.2.overhead, max e x.2.encryptHeadroom, max d x.2.decryptHeadroom)) (0, 0, 0)
  (m.1, alignto m.2.1 16, alignto m.2.2 16 + 8)

/-- The configuration that is used by the running process -/
structure Ready (D : Type) where
  st : St D
  uid : UInt32
  gid : UInt32
  groups : List UInt32
  methods : List (Option (Bytes × Provider))
  overhead : Nat
  encryptHeadroom : Nat
  decryptHeadroom : Nat

inductive SRes (D : Type)
  | running (r : Ready D)
  /-- `exit(0)` for `--verify-config`, `--generate-key`, `--show-key`, or for `--help` and `--version` -/
  | verified | generated | shown | done
  | exit
  | freed
  /-- Write outside of an array -/
  | overrun
  /-- Not enough steps for the tree of groups -/
  | stuck

/-- `configure_methods` (src/config.c:508-523); `conf.method_list` is empty before. -/
def configureMethods {D} (env : SEnv D) (gs : List Exec.Group) : Option (MRes (List (Option (Bytes × Provider)))) :=
  match collect gs gs.length 0 ([], 0) with
  | none => none
  | some (list, count) => some (fillMethods env.create list 0 (List.replicate (count + 1) none))

/-- `fastd_config_check` (src/config.c:565-578) -/
def check {D} (env : SEnv D) (st : St D) : SRes D :=
  if !checkBase env.toEnv st.conf then .exit
  else match hasPeerDirs st.groups st.groups.length 0 with
    | none => .stuck
    | some dirs =>
      if st.peers.isEmpty && !dirs && !allowVerify env.toEnv st.conf then .exit
      else
        let st := match st.groups[0]? with
          | some gr => if gr.methods.isEmpty then setGroup st 0 fun gr => addMethod gr (lit "null") else st
          | none => st
        match configureUser env st.conf with
        | none => .exit
        | some (uid, gid, groups) => match configureMethods env st.groups with
          | none => .stuck
          | some .exit => .exit
          | some .overrun => .overrun
          | some (.ok methods) =>
            let (overhead, encryptHeadroom, decryptHeadroom) := parameters methods
            .running { st, uid, gid, groups, methods, overhead, encryptHeadroom, decryptHeadroom }

/-- `fastd_config_verify` (src/config.c:615-618), followed by `exit(0)` -/
def verify {D} (env : SEnv D) (st : St D) : SRes D :=
  if !checkBase env.toEnv st.conf then .exit
  else match configureMethods env st.groups with
    | none => .stuck
    | some .exit => .exit
    | some .overrun => .overrun
    | some (.ok _) => .verified

/-- `protocol_init` (src/protocols/ec25519_fhmqvc/ec25519_fhmqvc.c:42-61) succeeds -/
def protocolInit {D} (env : SEnv D) (c : Conf) : Bool :=
  match c.secret with
  | none => false
  | some s => env.secretOk s

/-- `init_config` (src/fastd.c:419-459) -/
def initConfig {D} (env : SEnv D) (s : OSt D) : SRes D :=
  if s.verifyConfig then verify env s.st
  else if s.generateKey then .generated
  else if !protocolInit env s.st.conf then .exit
  else if s.showKey then .shown
  else
    let st := match env.chdir s.st.cwd (lit "/") with
      | some d => { s.st with cwd := d }
      | none => s.st
    check env st

/-- The beginning of `init` (src/fastd.c:462-467) -/
def start {D} (env : SEnv D) (d : D) (args : List Bytes) : SRes D :=
  match configure env.toOEnv d args with
  | .ok s => initConfig env s
  | .exit => .exit
  | .done => .done
  | .freed => .freed

/-! ## Interfaces -/

/-- `fastd_config_single_iface` (src/config.c:581-592) -/
def singleIface {D} (env : Env D) (st : St D) : Option Bool :=
  if st.conf.mode = .tap then some true
  else match hasPeerDirs st.groups st.groups.length 0 with
    | none => none
    | some true => some false
    | some false => some (!allowVerify env st.conf && st.peers.length = 1)

/-- `fastd_config_persistent_ifaces` (src/config.c:595-612) -/
def persistentIfaces {D} (env : Env D) (st : St D) : Option Bool :=
  if st.conf.mode = .tap then some true
  else if !st.conf.persist then some false
  else match hasPeerDirs st.groups st.groups.length 0 with
    | none => none
    | some true => some false
    | some false => some (!allowVerify env st.conf)

end Fastd.Config.Start
