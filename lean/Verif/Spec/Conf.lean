import Verif.Config.Exec

/-!
# What a configuration means

The specification used for the configuration properties, without pointers, a current directory or a current group:

* `ExpP`, `ExpG`, `ExpC`: included files are replaced by their statements. The names of files are relative to the directory of the file they are
  used in.
* `walk`: every statement belongs to the innermost group around it. Groups are numbered in the order in which their blocks begin; 0 is the
  root group.
* `groupSpec`, `peerSpec`, `ConfSpec`: what follows for a group, a peer, and the global settings from the statements belonging to them. For a setting that has one
  value, the last statement counts.
-/

namespace Fastd.Config.Spec

open Fastd.Config (Bytes)
open Fastd.Config.Gram
open Fastd.Config.Exec
open Fastd.Daemon (Addr simplify v4Mapped)

/-! ## Included files -/

/-- Statements of files, without `include` -/
inductive X (D : Type)
  /-- A global statement, used in a file of the directory `d` -/
  | simple (d : D) (s : Stmt)
  /-- A setting of a group -/
  | leaf (d : D) (s : GStmt)
  | peer (name : Option Bytes) (ss : List PStmt)
  | group (name : Bytes) (body : List (X D))
  /-- The option `--syslog-ident`, for which there is no statement -/
  | ident (i : Bytes)

/-- The settings of groups -/
def Leaf : GStmt → Prop
  | .limit _ | .method _ | .on .. | .inclPeers _ => True
  | _ => False

/-- `name` is a file with the tokens `ts`; `d'` is its directory. -/
def File {D} (env : Env D) (d : D) (name : Bytes) (ts : List T) (d' : D) : Prop :=
  env.file d name = some (ts, false) ∧ env.chdir d (env.dirname name) = some d'

/-- The statements of a peer, with the statements of included files; `k` is the number of levels of inclusion that are allowed -/
inductive ExpP {D} (env : Env D) : Nat → D → List PStmt → List PStmt → Prop
  | nil {k d} : ExpP env k d [] []
  | cons {k d s ss xs} : (∀ f, s ≠ .incl f) → ExpP env k d ss xs → ExpP env k d (s :: ss) (s :: xs)
  | incl {k d d' f ts body ss xs ys} : File env d f ts d' → DPConf body ts → ExpP env k d' body xs → ExpP env (k + 1) d ss ys →
      ExpP env (k + 1) d (.incl f :: ss) (xs ++ ys)

/-- The statements of a group that is not the root group -/
inductive ExpG {D} (env : Env D) : Nat → D → List GStmt → List (X D) → Prop
  | nil {k d} : ExpG env k d [] []
  | leaf {k d s ss xs} : Leaf s → ExpG env k d ss xs → ExpG env k d (s :: ss) (.leaf d s :: xs)
  | peer {k d name body ss ps xs} : ExpP env k d body ps → ExpG env k d ss xs → ExpG env k d (.peer name body :: ss) (.peer (some name) ps :: xs)
  | group {k d name body ss ys xs} : ExpG env k d body ys → ExpG env k d ss xs → ExpG env k d (.group name body :: ss) (.group name ys :: xs)
  | inclPeer {k d d' f as? ts body ss ps xs} : File env d f ts d' → DPConf body ts → ExpP env k d' body ps → ExpG env (k + 1) d ss xs →
      ExpG env (k + 1) d (.inclPeer f as? :: ss) (.peer as? ps :: xs)
  | incl {k d d' f ts body ss ys xs} : File env d f ts d' → DGConf body ts → ExpG env k d' body ys → ExpG env (k + 1) d ss xs →
      ExpG env (k + 1) d (.incl f :: ss) (ys ++ xs)

/-- The statements of the root group -/
inductive ExpC {D} (env : Env D) : Nat → D → List Stmt → List (X D) → Prop
  | nil {k d} : ExpC env k d [] []
  | simple {k d s ss xs} : (∀ g, s ≠ .g g) → ExpC env k d ss xs → ExpC env k d (s :: ss) (.simple d s :: xs)
  | leaf {k d s ss xs} : Leaf s → ExpC env k d ss xs → ExpC env k d (.g s :: ss) (.leaf d s :: xs)
  | peer {k d name body ss ps xs} : ExpP env k d body ps → ExpC env k d ss xs → ExpC env k d (.g (.peer name body) :: ss) (.peer (some name) ps :: xs)
  | group {k d name body ss ys xs} : ExpG env k d body ys → ExpC env k d ss xs → ExpC env k d (.g (.group name body) :: ss) (.group name ys :: xs)
  | inclPeer {k d d' f as? ts body ss ps xs} : File env d f ts d' → DPConf body ts → ExpP env k d' body ps → ExpC env (k + 1) d ss xs →
      ExpC env (k + 1) d (.g (.inclPeer f as?) :: ss) (.peer as? ps :: xs)
  | incl {k d d' f ts body ss ys xs} : File env d f ts d' → DConf body ts → ExpC env k d' body ys → ExpC env (k + 1) d ss xs →
      ExpC env (k + 1) d (.g (.incl f) :: ss) (ys ++ xs)

/-! ## Groups -/

/-- Statements together with the number of the group they belong to -/
inductive Item (D : Type)
  | simple (d : D) (s : Stmt)
  | leaf (d : D) (s : GStmt)
  | peer (name : Option Bytes) (ss : List PStmt)
  /-- The group `n` -/
  | sub (n : Nat) (name : Bytes)
  | ident (i : Bytes)

mutual
/-- The items of a statement in group `g`, if `next` is the number of the next group, and the number of the next group behind the statement -/
def walk1 {D} (next g : Nat) : X D → List (Nat × Item D) × Nat
  | .simple d s => ([(g, .simple d s)], next)
  | .leaf d s => ([(g, .leaf d s)], next)
  | .peer name ss => ([(g, .peer name ss)], next)
  | .ident i => ([(g, .ident i)], next)
  | .group name body => ((g, .sub next name) :: (walk (next + 1) next body).1, (walk (next + 1) next body).2)

def walk {D} (next g : Nat) : List (X D) → List (Nat × Item D) × Nat
  | [] => ([], next)
  | x :: xs => ((walk1 next g x).1 ++ (walk (walk1 next g x).2 g xs).1, (walk (walk1 next g x).2 g xs).2)
end

/-- The value given by the last statement for a setting -/
def last {D α} (f : Item D → Option α) (its : List (Nat × Item D)) : Option α := (its.filterMap fun x => f x.2).getLast?

/-- The items belonging to a group -/
def own {D} (g : Nat) (its : List (Nat × Item D)) : List (Nat × Item D) := its.filter (·.1 = g)

def theLimit {D} : Item D → Option Int
  | .leaf _ (.limit n) => some n.toNat
  | _ => none

def theMethod {D} : Item D → Option Bytes
  | .leaf _ (.method m) => some m
  | _ => none

/-- The command is executed in the directory of the file -/
def theCmd {D} (env : Env D) (ev : Ev) : Item D → Option Cmd
  | .leaf d (.on ev' sync cmd) => if ev' = ev then some { command := cmd, dir := env.pwd d, sync } else none
  | _ => none

def theDir {D} (env : Env D) : Item D → Option Bytes
  | .leaf d (.inclPeers dir) => (env.chdir d dir).map env.pwd
  | _ => none

def theSub {D} : Item D → Option Nat
  | .sub n _ => some n
  | _ => none

/-- The group around the group `n`, and the name of `n` -/
def origin {D} (n : Nat) (its : List (Nat × Item D)) : Option (Nat × Bytes) :=
  its.findSome? fun x => match x.2 with
    | .sub m name => if m = n then some (x.1, name) else none
    | _ => none

def rootName : Bytes := [0x64, 0x65, 0x66, 0x61, 0x75, 0x6c, 0x74]

/-- A group. Methods are tried in the order of their first mention. -/
def groupSpec {D} (env : Env D) (its : List (Nat × Item D)) (g : Nat) : Group :=
  let o := own g its
  { name := match origin g its with | some (_, name) => name | none => rootName
    parent := (origin g its).map (·.1)
    children := (o.filterMap fun x => theSub x.2).reverse
    peerDirs := (o.filterMap fun x => theDir env x.2).reverse
    maxConnections := (last theLimit o).getD (-1)
    methods := (o.filterMap fun x => theMethod x.2).eraseDups
    onUp := last (theCmd env .up) o
    onDown := last (theCmd env .down) o
    onConnect := last (theCmd env .connect) o
    onEstablish := last (theCmd env .establish) o
    onDisestablish := last (theCmd env .disestablish) o }

/-! ## Peers -/

/-- An address with its port; addresses of the form `::ffff:a.b.c.d` are IPv4 addresses. -/
def v4 (a : Bytes) (port : UInt64) : Addr := .v4 (vec4 a) port.toUInt16

def v6 (a : Bytes) (port : UInt64) : Addr :=
  if v4Mapped (vec16 a) then .v4 (vec4 (a.drop 12)) port.toUInt16 else .v6 (vec16 a) port.toUInt16 0 0

def theRemote {D} (env : Env D) : PStmt → Option Remote
  | .remote4 a n => some { hostname := none, address := v4 a n }
  | .remote6 a n => some { hostname := none, address := v6 a n }
  | .remote6s a i n => some { hostname := some (env.ntop6 a ++ 0x25 :: i), address := .v6 (vec16 []) n.toUInt16 0 0 }
  | .remoteHost .unspec h n => some { hostname := some h, address := .unspec n.toUInt16 }
  | .remoteHost .inet h n => some { hostname := some h, address := .v4 (vec4 []) n.toUInt16 }
  | .remoteHost .inet6 h n => some { hostname := some h, address := .v6 (vec16 []) n.toUInt16 0 0 }
  | _ => none

def theFloat : PStmt → Option Bool
  | .float b => some b
  | _ => none

/-- A key that cannot be read replaces an earlier one. -/
def theKey {D} (env : Env D) : PStmt → Option (Option Bytes)
  | .key s => some (env.readKey s)
  | _ => none

def theIfname : PStmt → Option Bytes
  | .interface n => some n
  | _ => none

def theMtu : PStmt → Option UInt16
  | .mtu n => some n.toUInt16
  | _ => none

def lastP {α} (f : PStmt → Option α) (ss : List PStmt) : Option α := (ss.filterMap f).getLast?

/-- A peer of the group `g` -/
def peerSpec {D} (env : Env D) (g : Nat) (name : Option Bytes) (ss : List PStmt) : Peer :=
  { name
    group := some g
    remotes := ss.filterMap (theRemote env)
    floating := (lastP theFloat ss).getD false
    key := (lastP (theKey env) ss).getD none
    ifname := lastP theIfname ss
    mtu := (lastP theMtu ss).getD 0
    disabled := false
    sourceDir := none }

def thePeer {D} (env : Env D) : Nat × Item D → Option Peer
  | (g, .peer name ss) => some (peerSpec env g name ss)
  | _ => none

/-- The statements about peers that are accepted -/
def ValidP : PStmt → Prop
  | .remote4 _ n | .remote6 _ n | .remote6s _ _ n | .remoteHost _ _ n => 1 ≤ n.toNat ∧ n.toNat ≤ 65535
  | .mtu n => 576 ≤ n.toNat ∧ n.toNat ≤ 65535
  | .interface n => acceptIfname n = true
  | _ => True

/-! ## Global settings -/

/-- The statement sets a port that may be used, or none -/
def PortValid : Option UInt64 → Prop
  | some p => p.toNat ≤ 65535
  | none => True

/-- The bind addresses configured by a statement. Without support for sockets of both families, `any` stands for two addresses. -/
def theBinds {D} (env : Env D) : Item D → List Bind
  | .simple _ (.bind a p i d) =>
    let mk (addr : Addr) : Bind :=
      { addr, default4 := d = some .both ∨ d = some .ipv4, default6 := d = some .both ∨ d = some .ipv6, dynamic := p.isNone, bindtodev := i }
    match a with
    | .v4 a => [mk (v4 a (p.getD 0))]
    | .v6 a => [mk (v6 a (p.getD 0))]
    | .any => if env.multiafBind then [mk (.unspec (p.getD 0).toUInt16)]
        else [mk (.v4 (vec4 []) (p.getD 0).toUInt16), mk (.v6 (vec16 []) (p.getD 0).toUInt16 0 0)]
  | .simple _ (.bindScoped a i p d) =>
    [{ addr := v6 a (p.getD 0), default4 := d = some .both ∨ d = some .ipv4, default6 := d = some .both ∨ d = some .ipv6, dynamic := p.isNone, bindtodev := some i }]
  | _ => []

/-- The position of the address used for outgoing connections: of the addresses that can be used, the last one marked as default, or the first one if there is
no mark -/
def IsDefault (usable marked : Bind → Bool) (bs : List Bind) : Option Nat → Prop
  | none => ∀ b ∈ bs, usable b = false
  | some i => ∃ b, bs[i]? = some b ∧ usable b = true ∧
      ((marked b = true ∧ ∀ j c, bs[j]? = some c → i < j → usable c = true → marked c = false) ∨
       (∀ j c, bs[j]? = some c → usable c = true → marked c = false ∧ i ≤ j))

def theUser {D} : Item D → Option Bytes | .simple _ (.user s) => some s | _ => none
def theGroup {D} : Item D → Option Bytes | .simple _ (.group s) => some s | _ => none
def theDropCaps {D} : Item D → Option DropCaps | .simple _ (.dropCaps s) => some s | _ => none
def theHideIp {D} : Item D → Option Bool | .simple _ (.hideIp s) => some s | _ => none
def theHideMac {D} : Item D → Option Bool | .simple _ (.hideMac s) => some s | _ => none
def theIface {D} : Item D → Option Bytes | .simple _ (.interface s) => some s | _ => none
def theGMtu {D} : Item D → Option UInt16 | .simple _ (.mtu s) => some s.toUInt16 | _ => none
def theMode {D} : Item D → Option Mode | .simple _ (.mode s) => some s | _ => none
def thePersist {D} : Item D → Option Bool | .simple _ (.persist s) => some s | _ => none
def theSecret {D} : Item D → Option Bytes | .simple _ (.secret s) => some s | _ => none
def theForward {D} : Item D → Option Bool | .simple _ (.forward s) => some s | _ => none
def theOffload {D} : Item D → Option Bool | .simple _ (.offload s) => some s | _ => none
def theStatus {D} : Item D → Option Bytes | .simple _ (.statusSocket s) => some s | _ => none
def theMark {D} : Item D → Option UInt64 | .simple _ (.packetMark s) => some s | _ => none
def thePreUp {D} (env : Env D) : Item D → Option Cmd | .simple d (.preUp s) => some { command := s, dir := env.pwd d, sync := true } | _ => none
def thePostDown {D} (env : Env D) : Item D → Option Cmd | .simple d (.postDown s) => some { command := s, dir := env.pwd d, sync := true } | _ => none
def theIdent {D} : Item D → Option Bytes | .simple _ (.logSyslog i _) => i | .ident i => some i | _ => none
def theCipher {D} : Item D → Option (Bytes × Bytes) | .simple _ (.cipher a b) => some (a, b) | _ => none
def theMac {D} : Item D → Option (Bytes × Bytes) | .simple _ (.mac a b) => some (a, b) | _ => none
def theVerify {D} (env : Env D) : Nat × Item D → Option (Nat × Cmd)
  | (g, .leaf d (.on .verify sync cmd)) => some (g, { command := cmd, dir := env.pwd d, sync })
  | _ => none

/-- The levels for stderr and syslog after a statement. `log level` changes the level of all destinations in use, and of stderr if there is none. -/
def stepLevel {D} (l : Option Level × Option Level) : Item D → Option Level × Option Level
  | .simple _ (.logStderr v) => (some (v.getD .verbose), l.2)
  | .simple _ (.logSyslog _ v) => (l.1, some (v.getD .verbose))
  | .simple _ (.logLevel v) => if l = (none, none) then (some v, none) else (l.1.map fun _ => v, l.2.map fun _ => v)
  | _ => l

/-- The global settings -/
structure ConfSpec {D} (env : Env D) (its : List (Nat × Item D)) (c : Conf) : Prop where
  levels : (c.logStderr, c.logSyslog) = its.foldl (fun l x => stepLevel l x.2) (none, none)
  ident : c.logIdent = (last theIdent its).getD [0x66, 0x61, 0x73, 0x74, 0x64]
  ifname : c.ifname = last theIface its
  persist : c.persist = (last thePersist its).getD true
  binds : c.bindAddrs.reverse = its.flatMap fun x => theBinds env x.2
  default4 : IsDefault (fun b => notV6 b.addr) (·.default4) c.bindAddrs.reverse c.default4
  default6 : IsDefault (fun b => notV4 b.addr) (·.default6) c.bindAddrs.reverse c.default6
  mtu : c.mtu = (last theGMtu its).getD 1500
  mode : c.mode = (last theMode its).getD .tap
  mark : c.packetMark = ((last theMark its).getD 0).toUInt32
  forward : c.forward = (last theForward its).getD false
  dropCaps : c.dropCaps = (last theDropCaps its).getD .on
  user : c.user = last theUser its
  group : c.group = last theGroup its
  secret : c.secret = last theSecret its
  preUp : c.onPreUp = last (thePreUp env) its
  postDown : c.onPostDown = last (thePostDown env) its
  verify : c.onVerify = (its.filterMap (theVerify env)).getLast?.map (·.2)
  verifyGroup : c.onVerifyGroup = (its.filterMap (theVerify env)).getLast?.map (·.1)
  status : c.statusSocket = last theStatus its
  offload : c.offloadL2tp = (last theOffload its).getD false
  hideIp : c.hideIp = (last theHideIp its).getD false
  hideMac : c.hideMac = (last theHideMac its).getD false
  ciphers : c.ciphers.reverse = its.filterMap fun x => theCipher x.2
  macs : c.macs.reverse = its.filterMap fun x => theMac x.2

/-- The statements that are accepted -/
def Valid {D} (env : Env D) : Item D → Prop
  | .simple _ (.user _) | .simple _ (.group _) => env.useUser = true
  | .simple _ (.cipher a b) => env.cipherOk a b = true
  | .simple _ (.mac a b) => env.macOk a b = true
  | .simple _ (.interface n) => acceptIfname n = true
  | .simple _ (.bind a p i _) =>
    PortValid p ∧ (i.isSome → env.bindToDevice = true ∨ ∃ ip, a = .v6 ip ∧ Fastd.Daemon.linkLocal (vec16 ip) = true)
  | .simple _ (.bindScoped a _ p _) => PortValid p ∧ (env.bindToDevice = true ∨ Fastd.Daemon.linkLocal (vec16 a) = true)
  | .simple _ (.packetMark _) => env.usePacketMark = true
  | .simple _ (.mtu n) => 576 ≤ n.toNat ∧ n.toNat ≤ 65535
  | .simple _ (.offload b) => env.offloadL2tp = true ∨ b = false
  | .simple _ (.protocol n) => n = env.protocolName
  | .simple _ (.statusSocket _) => env.statusSocket = true
  | .leaf _ (.limit n) => n.toNat ≤ 2147483647
  | .leaf _ (.on .verify _ _) => env.dynamicPeers = true
  | .peer _ ss => ∀ s ∈ ss, ValidP s
  | _ => True

/-! ## The whole configuration -/

/-- It is possible to go back to a directory. -/
def Sane {D} (env : Env D) : Prop := ∀ d old, env.chdir d (env.pwd old) = some old

/-- The state is what the items mean; `next` is the number of groups. -/
structure Meets {D} (env : Env D) (its : List (Nat × Item D)) (next : Nat) (st : St D) : Prop where
  count : st.groups.length = next
  group : ∀ g, g < next → st.groups[g]? = some (groupSpec env its g)
  peers : st.peers = its.filterMap (thePeer env)
  conf : ConfSpec env its st.conf

/-- The keys of the peers can be read and are distinct. -/
def KeysValid {D} (env : Env D) (its : List (Nat × Item D)) : Prop :=
  (∀ p ∈ its.filterMap (thePeer env), p.key ≠ none) ∧ ((its.filterMap (thePeer env)).map (·.key)).Nodup

/-! ## Peer directories -/

/-- The entries of a peer directory that are read: regular files whose names neither begin with `.` nor end with `~` -/
def Wanted (e : Bytes × Option Bool) : Prop := e.1.head? ≠ some 0x2e ∧ e.1.getLast? ≠ some 0x7e ∧ e.2 = some true

/-- The file `name` in the directory `d` describes the peer `p`. -/
def PeerFile {D} (env : Env D) (g : Nat) (dir : Bytes) (d : D) (name : Bytes) (p : Peer) : Prop :=
  ∃ ts d' body xs, File env d name ts d' ∧ DPConf body ts ∧ ExpP env 9 d' body xs ∧ (∀ s ∈ xs, ValidP s) ∧
    p = { peerSpec env g (some name) xs with sourceDir := some dir }

/-- The peers of the entries of a directory: one for each file that describes a peer, and none for the others -/
inductive DirPeers {D} (env : Env D) (g : Nat) (dir : Bytes) (d : D) : List (Bytes × Option Bool) → List Peer → Prop
  | nil : DirPeers env g dir d [] []
  | take {e es p ps} : Wanted e → PeerFile env g dir d e.1 p → DirPeers env g dir d es ps → DirPeers env g dir d (e :: es) (p :: ps)
  | skip {e es ps} : (Wanted e → ∀ p, ¬ PeerFile env g dir d e.1 p) → DirPeers env g dir d es ps → DirPeers env g dir d (e :: es) ps

/-- The peers of several directories; those that cannot be read are left out. -/
inductive DirsPeers {D} (env : Env D) (g : Nat) (here : D) : List Bytes → List Peer → Prop
  | nil : DirsPeers env g here [] []
  | dir {dir d es dirs ps qs} : env.chdir here dir = some d → env.entries d = some es → DirPeers env g dir d es ps → DirsPeers env g here dirs qs →
      DirsPeers env g here (dir :: dirs) (ps ++ qs)
  | skip {dir dirs qs} : (∀ d, env.chdir here dir = some d → env.entries d = none) → DirsPeers env g here dirs qs → DirsPeers env g here (dir :: dirs) qs

/-- Including files, starting with `f`, ends after less than `k` steps. -/
def Shallow {D} (env : Env D) : Nat → D → Bytes → Prop
  | 0, _, _ => False
  | k + 1, d, f => ∀ ts bad d', env.file d f = some (ts, bad) → env.chdir d (env.dirname f) = some d' →
      ∀ f', [.kw .kInclude, .str f'] <:+: ts → Shallow env k d' f'

end Fastd.Config.Spec
