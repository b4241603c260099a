import Verif.Config.Parse
import Verif.Config.Iface
import Verif.Daemon.Addr

/-!
# Reading the configuration (the actions of src/config.y, src/config.c)

Model only. The file system, the key parser and the tables of cipher and MAC implementations are parameters. A file is given by its tokens
(`Verif/Config/Lex.lean` has the scanner), with a flag that is set when the scanner reports an error behind them.

* `fail` is a return value `false` of `fastd_config_read` (or of the parser), `exit` the end of the process by `exit_error`.
* Files with global or peer group statements are only read when fastd starts, and every failure ends fastd then (src/options.c:104-124). The model
  parses such a file completely before executing its statements. Peer files are also read while fastd is running; their statements are executed
  as they are parsed, so that it is known what a file with an error does.
* `get_current_dir_name` does not fail. `fastd_shell_command_set` and the other functions copy their strings; pointers to strings are not modelled.
* Log messages, and the location of errors, are not modelled.
-/

namespace Fastd.Config.Exec

open Fastd.Config (Bytes)
open Fastd.Config.Gram
open Fastd.Daemon (Addr simplify)

/-- The outside world -/
structure Env (D : Type) where
  /-- `fopen` with all of the contents, relative to a directory -/
  file : D → Bytes → Option (List T × Bool)
  /-- `chdir` -/
  chdir : D → Bytes → Option D
  /-- `get_current_dir_name` -/
  pwd : D → Bytes
  /-- `dirname` of the C library -/
  dirname : Bytes → Bytes
  /-- `opendir`, `readdir` and `stat`: the entries of a directory, and whether they are regular files (`none`: `stat` fails) -/
  entries : D → Option (List (Bytes × Option Bool))
  /-- `conf.protocol->read_key` -/
  readKey : Bytes → Option Bytes
  /-- `inet_ntop` for IPv6 addresses -/
  ntop6 : Bytes → Bytes
  /-- `fastd_cipher_config` and `fastd_mac_config` succeed -/
  cipherOk : Bytes → Bytes → Bool
  macOk : Bytes → Bytes → Bool
  /-- `conf.protocol->name` -/
  protocolName : Bytes
  /-- `USE_USER`, `USE_PACKET_MARK`, `WITH_STATUS_SOCKET`, `WITH_DYNAMIC_PEERS`, `WITH_OFFLOAD_L2TP`, `USE_MULTIAF_BIND`, `USE_BINDTODEVICE` -/
  useUser : Bool
  usePacketMark : Bool
  statusSocket : Bool
  dynamicPeers : Bool
  offloadL2tp : Bool
  multiafBind : Bool
  bindToDevice : Bool

/-- The loop that gives the tokens of a file to the parser (src/config.c:372-381): an error of the scanner ends it. -/
def contents : List Lex.Tok → List T × Bool
  | [] => ([], false)
  | .eof :: _ => ([], false)
  | t :: r => match ofTok t with
    | some x => (x :: (contents r).1, (contents r).2)
    | none => ([], true)

/-! ## State -/

/-- `fastd_shell_command_t` (src/shell.h:22-26) -/
structure Cmd where
  command : Bytes
  dir : Bytes
  sync : Bool
deriving DecidableEq

/-- `fastd_peer_group_t` (src/peer_group.h:20-44); groups are referred to by their number. `maxConnections` is -1 without limit. -/
structure Group where
  name : Bytes
  parent : Option Nat
  /-- The list linked by `next` -/
  children : List Nat
  peerDirs : List Bytes
  maxConnections : Int
  methods : List Bytes
  onUp : Option Cmd
  onDown : Option Cmd
  onConnect : Option Cmd
  onEstablish : Option Cmd
  onDisestablish : Option Cmd

/-- `fastd_remote_t` (src/peer.h) as far as it is configured -/
structure Remote where
  hostname : Option Bytes
  address : Addr
deriving DecidableEq

/-- `fastd_peer_t` (src/peer.h) as far as it is configured; `disabled` is `CONFIG_DISABLED` -/
structure Peer where
  name : Option Bytes
  group : Option Nat
  remotes : List Remote
  floating : Bool
  key : Option Bytes
  ifname : Option Bytes
  mtu : UInt16
  disabled : Bool
  sourceDir : Option Bytes
deriving DecidableEq

/-- `fastd_new0(fastd_peer_t)` with the name set -/
def newPeer (name : Option Bytes) : Peer :=
  { name, group := none, remotes := [], floating := false, key := none, ifname := none, mtu := 0, disabled := false, sourceDir := none }

/-- `fastd_bind_address_t` (src/fastd.h:143-149), with the `FASTD_BIND_*` flags -/
structure Bind where
  addr : Addr
  default4 : Bool
  default6 : Bool
  dynamic : Bool
  bindtodev : Option Bytes
deriving DecidableEq

/-- `fastd_config_t` (src/fastd.h:200-291) as far as it is configured by statements. `bindAddrs` is the linked list; the pointers to its elements
`default4` and `default6` are positions counted from the end of the list, i.e. in the order of creation. -/
structure Conf where
  logStderr : Option Level
  logSyslog : Option Level
  logIdent : Bytes
  ifname : Option Bytes
  persist : Bool
  bindAddrs : List Bind
  default4 : Option Nat
  default6 : Option Nat
  mtu : UInt16
  mode : Mode
  packetMark : UInt32
  forward : Bool
  dropCaps : DropCaps
  user : Option Bytes
  group : Option Bytes
  secret : Option Bytes
  onPreUp : Option Cmd
  onPostDown : Option Cmd
  onVerify : Option Cmd
  onVerifyGroup : Option Nat
  statusSocket : Option Bytes
  offloadL2tp : Bool
  hideIp : Bool
  hideMac : Bool
  /-- The implementations chosen, the last one in front -/
  ciphers : List (Bytes × Bytes)
  macs : List (Bytes × Bytes)
deriving DecidableEq

/-- The state of the process; `groups` is indexed by the numbers of the groups, the root group is 0 -/
structure St (D : Type) where
  cwd : D
  conf : Conf
  groups : List Group
  peers : List Peer

inductive Res (D α : Type)
  | ok (a : α) (st : St D)
  | fail (st : St D)
  | exit

def Res.bind {D α β} : Res D α → (α → St D → Res D β) → Res D β
  | .ok a st, f => f a st
  | .fail st, _ => .fail st
  | .exit, _ => .exit

/-- `default_config` (src/config.c:48-63) -/
def defaultGroup (name : Bytes) (parent : Option Nat) : Group :=
  { name, parent, children := [], peerDirs := [], maxConnections := -1, methods := [], onUp := none, onDown := none, onConnect := none,
    onEstablish := none, onDisestablish := none }

def defaultConf : Conf :=
  { logStderr := none, logSyslog := none, logIdent := [0x66, 0x61, 0x73, 0x74, 0x64], ifname := none, persist := true, bindAddrs := [],
    default4 := none, default6 := none, mtu := 1500, mode := .tap, packetMark := 0, forward := false, dropCaps := .on, user := none,
    group := none, secret := none, onPreUp := none, onPostDown := none, onVerify := none, onVerifyGroup := none, statusSocket := none,
    offloadL2tp := false, hideIp := false, hideMac := false, ciphers := [], macs := [] }

/-- The state after `default_config` (src/config.c:48-63); `default` is the name of the root group -/
def start {D} (cwd : D) : St D :=
  { cwd, conf := defaultConf, groups := [defaultGroup [0x64, 0x65, 0x66, 0x61, 0x75, 0x6c, 0x74] none], peers := [] }

/-! ## Bind addresses -/

def vec4 (a : Bytes) : Vector UInt8 4 := Vector.ofFn fun i => a.getD i 0
def vec16 (a : Bytes) : Vector UInt8 16 := Vector.ofFn fun i => a.getD i 0

/-- `addr.sa.sa_family` is not `AF_INET6` / not `AF_INET` -/
def notV6 : Addr → Bool
  | .v6 .. => false
  | _ => true

def notV4 : Addr → Bool
  | .v4 .. => false
  | _ => true

/-- `fastd_peer_address_is_v6_ll` (src/peer.h) -/
def isV6LinkLocal : Addr → Bool
  | .v6 ip .. => Fastd.Daemon.linkLocal ip
  | _ => false

/-- `fastd_config_bind_address` from the allocation on (src/config.c:138-156) -/
def addBind (b : Bind) (c : Conf) : Conf :=
  let b := { b with addr := simplify b.addr }
  let n := c.bindAddrs.length
  let c := { c with bindAddrs := b :: c.bindAddrs }
  let c := if notV6 b.addr && (b.default4 || c.default4.isNone) then { c with default4 := some n } else c
  if notV4 b.addr && (b.default6 || c.default6.isNone) then { c with default6 := some n } else c

/-- `fastd_config_bind_address` (src/config.c:121-157); `none`: `exit_error` -/
def bindAddress {D} (env : Env D) (b : Bind) (c : Conf) : Option Conf :=
  if !env.bindToDevice && b.bindtodev.isSome && !isV6LinkLocal b.addr then none
  else match b.addr with
    | .unspec port =>
      if env.multiafBind then some (addBind b c)
      else some (addBind { b with addr := .v6 (vec16 []) port 0 0 } (addBind { b with addr := .v4 (vec4 []) port } c))
    | _ => some (addBind b c)

/-- `fastd_config_handle_bind_address` (src/config.y:692-709); `addr` has port 0 -/
def handleBind {D} (env : Env D) (addr : UInt16 → Addr) (port : Option UInt64) (dev : Option Bytes) (dflt : Option BindDefault) (c : Conf) : Option Conf :=
  bindAddress env
    { addr := addr (port.getD 0).toUInt16
      default4 := dflt = some .both ∨ dflt = some .ipv4
      default6 := dflt = some .both ∨ dflt = some .ipv6
      dynamic := port.isNone
      bindtodev := dev } c

/-! ## Actions -/

/-- `fastd_shell_command_set` (src/shell.h:38-45) -/
def cmdSet {D} (env : Env D) (st : St D) (cmd : Bytes) (sync : Bool) : Option Cmd := some { command := cmd, dir := env.pwd st.cwd, sync }

/-- `bind_address` (src/config.y:336-346), with the port set later -/
def bindAddrOf (a : BindAddr) (port : UInt16) : Addr :=
  match a with
  | .v4 a => .v4 (vec4 a) port
  | .v6 a => .v6 (vec16 a) port 0 0
  | .any => .unspec port

/-- The range of `bind_port` (src/config.y:681-688) -/
def bindPortOk : Option UInt64 → Bool
  | some p => !(p > 65535)
  | none => true

/-- The actions of the global statements (src/config.y:206-431, 606-607). Without `WITH_OFFLOAD_L2TP` there is no field `offload_l2tp`; it is `false` in the
model. -/
def execS {D} (env : Env D) (s : Stmt) (st : St D) : Res D Unit :=
  let c := st.conf
  let set (c : Conf) : Res D Unit := .ok () { st with conf := c }
  match s with
  | .g _ => .ok () st
  | .user s => if env.useUser then set { c with user := some s } else .fail st
  | .group s => if env.useUser then set { c with group := some s } else .fail st
  | .dropCaps v => set { c with dropCaps := v }
  | .secureHandshakes _ => .ok () st
  | .cipher n i => if env.cipherOk n i then set { c with ciphers := (n, i) :: c.ciphers } else .exit
  | .mac n i => if env.macOk n i then set { c with macs := (n, i) :: c.macs } else .exit
  | .logLevel l =>
    let c := if c.logSyslog.isSome then { c with logSyslog := some l } else c
    set (if c.logStderr.isSome || c.logSyslog.isNone then { c with logStderr := some l } else c)
  | .logStderr l => set { c with logStderr := some (l.getD .verbose) }
  | .logSyslog none l => set { c with logSyslog := some (l.getD .verbose) }
  | .logSyslog (some i) l => set { c with logIdent := i, logSyslog := some (l.getD .verbose) }
  | .hideIp b => set { c with hideIp := b }
  | .hideMac b => set { c with hideMac := b }
  | .interface n => if acceptIfname n then set { c with ifname := some n } else .fail st
  | .bind a p i d =>
    if bindPortOk p then
      match handleBind env (bindAddrOf a) p i d c with
      | some c => set c
      | none => .exit
    else .fail st
  | .bindScoped a i p d =>
    if bindPortOk p then
      match handleBind env (fun p => .v6 (vec16 a) p 0 0) p (some i) d c with
      | some c => set c
      | none => .exit
    else .fail st
  | .packetMark n => if env.usePacketMark then set { c with packetMark := n.toUInt32 } else .fail st
  | .mtu n => if n < 576 || n > 65535 then .fail st else set { c with mtu := n.toUInt16 }
  | .pmtu _ => .ok () st
  | .mode m => set { c with mode := m }
  | .persist b => set { c with persist := b }
  | .offload b => if env.offloadL2tp || !b then set { c with offloadL2tp := b } else .fail st
  | .protocol n => if n ≠ env.protocolName then .exit else .ok () st
  | .secret s => set { c with secret := some s }
  | .preUp s => set { c with onPreUp := cmdSet env st s true }
  | .postDown s => set { c with onPostDown := cmdSet env st s true }
  | .statusSocket s => if env.statusSocket then set { c with statusSocket := some s } else .fail st
  | .forward b => set { c with forward := b }

/-- The range of `port` (src/config.y:672-679) -/
def portOk (p : UInt64) : Bool := !(p < 1 || p > 65535)

/-- The actions of the statements about peers, except `include` (src/config.y:459-535); `none`: `YYERROR` -/
def execP {D} (env : Env D) (s : PStmt) (p : Peer) : Option Peer :=
  let add (r : Remote) : Option Peer := some { p with remotes := p.remotes ++ [r] }
  match s with
  | .remote4 a n => if portOk n then add { hostname := none, address := simplify (.v4 (vec4 a) n.toUInt16) } else none
  | .remote6 a n => if portOk n then add { hostname := none, address := simplify (.v6 (vec16 a) n.toUInt16 0 0) } else none
  | .remote6s a i n =>
    if portOk n then add { hostname := some (env.ntop6 a ++ 0x25 /- % -/ :: i), address := .v6 (vec16 []) n.toUInt16 0 0 } else none
  | .remoteHost af h n =>
    if portOk n then
      add { hostname := some h
            address := match af with
              | .unspec => .unspec n.toUInt16
              | .inet => .v4 (vec4 []) n.toUInt16
              | .inet6 => .v6 (vec16 []) n.toUInt16 0 0 }
    else none
  | .float b => some { p with floating := b }
  | .key s => some { p with key := env.readKey s }
  | .interface n => if acceptIfname n then some { p with ifname := some n } else none
  | .mtu n => if n < 576 || n > 65535 then none else some { p with mtu := n.toUInt16 }
  | .incl _ => some p

/-- `fastd_config_method` (src/config.c:72-83) -/
def addMethod (g : Group) (name : Bytes) : Group :=
  if g.methods.contains name then g else { g with methods := g.methods ++ [name] }

def setGroup {D} (st : St D) (g : Nat) (f : Group → Group) : St D := { st with groups := st.groups.modify g f }

/-- `fastd_config_add_peer_dir` (src/config.c:284-299) -/
def addPeerDir {D} (env : Env D) (g : Nat) (dir : Bytes) (st : St D) : St D :=
  match env.chdir st.cwd dir with
  | none => st
  | some d =>
    let st' := setGroup { st with cwd := d } g fun gr => { gr with peerDirs := env.pwd d :: gr.peerDirs }
    match env.chdir d (env.pwd st.cwd) with
    | some d => { st' with cwd := d }
    | none => st'

/-- The actions of the statements of peer groups that neither define peers or groups nor include files (src/config.y:559-604, 624-626).
`g` is `state->peer_group`. -/
def execG {D} (env : Env D) (g : Nat) (s : GStmt) (st : St D) : Res D Unit :=
  match s with
  | .limit n => if n > 2147483647 then .fail st else .ok () (setGroup st g fun gr => { gr with maxConnections := n.toNat })
  | .method m => .ok () (setGroup st g fun gr => addMethod gr m)
  | .on .up sync cmd => .ok () (setGroup st g fun gr => { gr with onUp := cmdSet env st cmd sync })
  | .on .down sync cmd => .ok () (setGroup st g fun gr => { gr with onDown := cmdSet env st cmd sync })
  | .on .connect sync cmd => .ok () (setGroup st g fun gr => { gr with onConnect := cmdSet env st cmd sync })
  | .on .establish sync cmd => .ok () (setGroup st g fun gr => { gr with onEstablish := cmdSet env st cmd sync })
  | .on .disestablish sync cmd => .ok () (setGroup st g fun gr => { gr with onDisestablish := cmdSet env st cmd sync })
  | .on .verify sync cmd =>
    if env.dynamicPeers then .ok () { st with conf := { st.conf with onVerify := cmdSet env st cmd sync, onVerifyGroup := some g } } else .fail st
  | .inclPeers d => .ok () (addPeerDir env g d st)
  | .peer .. | .group .. | .inclPeer .. | .incl _ => .ok () st

/-- `fastd_peer_add` (src/peer.c:727-790) when fastd starts: there are no peers in state `CONFIG_STATIC` or `CONFIG_DYNAMIC`. For the other cases
see `Verif/Daemon/`. -/
def addPeer {D} (p : Peer) (st : St D) : Res D Unit :=
  match p.key with
  | none => .fail st
  | some k =>
    if st.peers.any fun q => q.key = some k then
      .fail { st with peers := st.peers.map fun q => if q.key = some k then { q with disabled := true } else q }
    else .ok () { st with peers := st.peers ++ [p] }

/-- `fastd_config_peer_group_push` (src/config.c:160-171) -/
def push {D} (g : Nat) (name : Bytes) (st : St D) : Nat × St D :=
  let n := st.groups.length
  (n, setGroup { st with groups := st.groups ++ [defaultGroup name (some g)] } g fun gr => { gr with children := n :: gr.children })

/-- `fastd_config_peer_group_pop` (src/config.c:174-176) -/
def pop {D} (g : Nat) (st : St D) : Option Nat :=
  match st.groups[g]? with
  | some gr => gr.parent
  | none => none

/-! ## Files -/

/-- `if (chdir(oldcwd)) pr_error(...)` (src/config.c:389-390) -/
def back {D} (env : Env D) (old : D) (st : St D) : St D :=
  match env.chdir st.cwd (env.pwd old) with
  | some d => { st with cwd := d }
  | none => st

/-- `MAX_CONFIG_DEPTH` (src/build.h.in:99) -/
def maxDepth : Nat := 10

/-- `fastd_config_read` (src/config.c:302-399) without the check of the depth; `run` parses and executes the contents -/
def readFile {D α} (env : Env D) (name : Bytes) (run : List T × Bool → St D → Res D α) (st : St D) : Res D α :=
  match env.file st.cwd name with
  | none => .fail (back env st.cwd st)
  | some f => match env.chdir st.cwd (env.dirname name) with
    | none => .fail (back env st.cwd st)
    | some d => match run f { st with cwd := d } with
      | .ok a st' => .ok a (back env st.cwd st')
      | .fail st' => .fail (back env st.cwd st')
      | .exit => .exit

/-- The parser for peer files, executing each statement as soon as it is recognised. The action of `include` is executed before the semicolon is
read. `inc` reads another file. -/
def runPeer {D} (env : Env D) (inc : Bytes → Peer → St D → Res D Peer) (bad : Bool) : Nat → List T → Peer → St D → Res D Peer
  | 0, _, _, st => .fail st
  | n + 1, ts, p, st =>
    if ts = [] then (if bad then .fail st else .ok p st)
    else match pPBody ts with
      | none => .fail st
      | some (.incl f, r) => (inc f p st).bind fun p st =>
        match eat .semi r with
        | some r => runPeer env inc bad n r p st
        | none => .fail st
      | some (s, r) => match execP env s p with
        | none => .fail st
        | some p => match eat .semi r with
          | some r => runPeer env inc bad n r p st
          | none => .fail st

/-- `fastd_config_read` with a peer. The first argument is what is left of the depth: `MAX_CONFIG_DEPTH - depth`. `peer->group` is set when the file has
been opened (src/config.c:351-354). -/
def readPeer {D} (env : Env D) (g : Nat) : Nat → Bytes → Peer → St D → Res D Peer
  | 0, _, _, _ => .exit
  | k + 1, name, p, st =>
    readFile env name (fun (ts, bad) st => runPeer env (readPeer env g k) bad (ts.length + 1) ts { p with group := some g } st) st

/-- Statements in the block of a peer -/
def execPs {D} (env : Env D) (inc : Bytes → Peer → St D → Res D Peer) : List PStmt → Peer → St D → Res D Peer
  | [], p, st => .ok p st
  | .incl f :: ss, p, st => (inc f p st).bind fun p st => execPs env inc ss p st
  | s :: ss, p, st => match execP env s p with
    | none => .fail st
    | some p => execPs env inc ss p st

mutual
/-- A statement of a peer group (src/config.y:192-204, 433-445, 544-604, 610-629). `k` is `MAX_CONFIG_DEPTH - state->depth`; `inc` reads a file included
in the group. The result is `state->peer_group`. -/
def execGStmt {D} (env : Env D) (k : Nat) (inc : Nat → Bytes → St D → Res D Unit) (g : Nat) : GStmt → St D → Res D Nat
  | .peer name body, st =>
    (execPs env (readPeer env g k) body { newPeer (some name) with group := some g } st).bind fun p st =>
      (addPeer p st).bind fun _ st => .ok g st
  | .group name body, st =>
    let (n, st) := push g name st
    (execGStmts env k inc n body st).bind fun n st =>
      match pop n st with
      | some g => .ok g st
      | none => .exit
  | .inclPeer f as?, st =>
    (readPeer env g k f (newPeer as?) st).bind fun p st => (addPeer p st).bind fun _ st => .ok g st
  | .incl f, st => (inc g f st).bind fun _ st => .ok g st
  | s, st => (execG env g s st).bind fun _ st => .ok g st

/-- The statements of a peer group -/
def execGStmts {D} (env : Env D) (k : Nat) (inc : Nat → Bytes → St D → Res D Unit) (g : Nat) : List GStmt → St D → Res D Nat
  | [], st => .ok g st
  | s :: ss, st => (execGStmt env k inc g s st).bind fun g st => execGStmts env k inc g ss st
end

/-- The statements of a configuration file -/
def execStmts {D} (env : Env D) (k : Nat) (inc : Nat → Bytes → St D → Res D Unit) (g : Nat) : List Stmt → St D → Res D Nat
  | [], st => .ok g st
  | .g s :: ss, st => (execGStmt env k inc g s st).bind fun g st => execStmts env k inc g ss st
  | s :: ss, st => (execS env s st).bind fun _ st => execStmts env k inc g ss st

/-- `fastd_config_read` without a peer (src/config.c:302-399): the grammar depends on whether the group is the root group
(src/config.c:355-357). -/
def readConf {D} (env : Env D) : Nat → Nat → Bytes → St D → Res D Unit
  | 0, _, _, _ => .exit
  | k + 1, g, name, st =>
    readFile env name (fun (ts, bad) st =>
      if bad then .fail st
      else match st.groups[g]? with
        | none => .exit
        | some gr =>
          if gr.parent.isSome then
            match parseGroup ts with
            | some ss => (execGStmts env k (readConf env k) g ss st).bind fun _ st => .ok () st
            | none => .fail st
          else
            match parseConf ts with
            | some ss => (execStmts env k (readConf env k) g ss st).bind fun _ st => .ok () st
            | none => .fail st) st

/-! ## Peer directories -/

/-- `read_peer_dir` (src/config.c:213-263): the files that are read -/
def eligible (e : Bytes × Option Bool) : Bool :=
  if e.1.head? = some 0x2e /- . -/ then false
  else if e.1.getLast? = some 0x7e /- ~ -/ then false
  else e.2 = some true

/-- The loop of `read_peer_dir` (src/config.c:217-255). The result is the list of the peers given to `fastd_peer_add`, which does not use the file system. -/
def readEntries {D} (env : Env D) (g : Nat) (dir : Bytes) : List (Bytes × Option Bool) → St D → Res D (List Peer)
  | [], st => .ok [] st
  | e :: es, st =>
    if eligible e then
      match readPeer env g maxDepth e.1 { newPeer (some e.1) with sourceDir := some dir } st with
      | .ok p st => (readEntries env g dir es st).bind fun ps st => .ok (p :: ps) st
      | .fail st => readEntries env g dir es st
      | .exit => .exit
    else readEntries env g dir es st

/-- `read_peer_dirs` (src/config.c:266-281), the loop -/
def readDirs {D} (env : Env D) (g : Nat) : List Bytes → St D → Res D (List Peer)
  | [], st => .ok [] st
  | dir :: dirs, st => match env.chdir st.cwd dir with
    | none => readDirs env g dirs st
    | some d => match env.entries d with
      | none => readDirs env g dirs { st with cwd := d }
      | some es => (readEntries env g dir es { st with cwd := d }).bind fun ps st => (readDirs env g dirs st).bind fun qs st => .ok (ps ++ qs) st

/-- `read_peer_dirs` (src/config.c:266-281) -/
def readPeerDirs {D} (env : Env D) (g : Nat) (st : St D) : Res D (List Peer) :=
  match st.groups[g]? with
  | none => .exit
  | some gr => (readDirs env g gr.peerDirs st).bind fun ps st' => .ok ps (back env st.cwd st')

end Fastd.Config.Exec
