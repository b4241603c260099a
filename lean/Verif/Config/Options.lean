import Verif.Config.Exec

/-!
# Command line options (src/options.c, src/options.def.h)

Model only. The arguments are C strings, i.e. byte lists without NUL.

* `exit` is the end of the process with an error, `done` its end after `--help` or `--version`, `freed` a read of memory that has been freed.
* `inet_pton` is a parameter. `strtol` is modelled for the locale "C", which fastd does not change.
* The option `--android-integration` is not modelled.
* Everything that ends the process is only modelled as that: the state is not used any more.
-/

namespace Fastd.Config.Opt

open Fastd.Config (Bytes lit strchr strrchr)
open Fastd.Config.Gram
open Fastd.Config.Exec
open Fastd.Daemon (Addr)

/-- The outside world and the build options -/
structure OEnv (D : Type) extends Env D where
  /-- `inet_pton` -/
  pton4 : Bytes → Option Bytes
  pton6 : Bytes → Option Bytes
  /-- What is read from the standard input until its end, for the first, second, ... time -/
  stdin : Nat → List T × Bool
  /-- `WITH_CMDLINE_USER`, `WITH_CMDLINE_LOGGING`, `WITH_CMDLINE_OPERATION`, `WITH_CMDLINE_COMMANDS` -/
  cmdUser : Bool
  cmdLogging : Bool
  cmdOperation : Bool
  cmdCommands : Bool

/-- The state of the process: the configuration, and the fields of `fastd_config_t` that are only set by options (src/fastd.h:200-291). `reads` counts how often
the standard input has been read. -/
structure OSt (D : Type) where
  st : St D
  reads : Nat
  daemon : Bool
  pidFile : Option Bytes
  verifyConfig : Bool
  generateKey : Bool
  showKey : Bool
  machineReadable : Bool

inductive ORes (D : Type)
  | ok (s : OSt D)
  | exit
  | done
  | freed

/-! ## Numbers -/

/-- `isspace` -/
def isSpace (c : UInt8) : Bool := c = 0x20 || (0x09 ≤ c && c ≤ 0x0d)

def isDigit (c : UInt8) : Bool := 0x30 ≤ c && c ≤ 0x39

/-- `LONG_MIN` and `LONG_MAX` -/
def clamp (v : Int) : Int :=
  if v < -9223372036854775808 then -9223372036854775808 else if v > 9223372036854775807 then 9223372036854775807 else v

/-- The value of a string of digits -/
def digits (ds : Bytes) : Nat := ds.foldl (fun n c => 10 * n + (c.toNat - 0x30)) 0

/-- `strtol(s, &endptr, 10)`: the value, and the string at `endptr` -/
def strtol (s : Bytes) : Int × Bytes :=
  let r := s.dropWhile isSpace
  let neg := r.head? = some 0x2d /- - -/
  let r := if neg || r.head? = some 0x2b /- + -/ then r.drop 1 else r
  let ds := r.takeWhile isDigit
  if ds = [] then (0, s)
  else (clamp (if neg then -(digits ds : Int) else digits ds), r.dropWhile isDigit)

/-! ## Options -/

/-- `option_bind`, the splitting of the argument (src/options.c:235-253): the address, and the port (`charptr + 1`); `none`: `exit_error` -/
def splitBind (arg : Bytes) : Option (Bytes × Option Bytes) :=
  if arg.head? = some 0x5b /- [ -/ then
    match strrchr arg 0x5d /- ] -/ with
    | none => none
    | some i =>
      if arg.getD (i + 1) 0 ≠ 0x3a /- : -/ ∧ arg.getD (i + 1) 0 ≠ 0 then none
      else
        some ((arg.drop 1).take (i - 1), if arg.getD (i + 1) 0 = 0x3a then some (arg.drop (i + 2)) else none)
  else
    match strrchr arg 0x3a with
    | some i => some (arg.take i, some (arg.drop (i + 1)))
    | none => some (arg, none)

/-- The port (src/options.c:255-261); `some none`: the flag `FASTD_BIND_DYNAMIC` -/
def bindPort : Option Bytes → Option (Option UInt16)
  | none => some none
  | some p =>
    let (l, e) := strtol p
    if e ≠ [] ∨ l < 0 ∨ l > 65535 then none else some (some (UInt16.ofNat l.toNat))

/-- `option_bind` (src/options.c:227-291). `addrstr` is freed before `fastd_config_bind_address` is called with `ifname`, which points into it if the address
contains `%`; there it is copied unless the process ends before. -/
def optionBind {D} (env : OEnv D) (arg : Bytes) (s : OSt D) : ORes D :=
  match splitBind arg with
  | none => .exit
  | some (addrstr, p) =>
    match bindPort p with
    | none => .exit
    | some port =>
      let l := port.getD 0
      let go (addr : Addr) : ORes D :=
        match bindAddress env.toEnv { addr, default4 := false, default6 := false, dynamic := port.isNone, bindtodev := none } s.st.conf with
        | none => .exit
        | some c => .ok { s with st := { s.st with conf := c } }
      if arg.head? = some 0x5b then
        match strchr addrstr 0x25 /- % -/ with
        | some i =>
          match env.pton6 (addrstr.take i) with
          | none => .exit
          | some a => if !env.bindToDevice && !isV6LinkLocal (.v6 (vec16 a) l 0 0) then .exit else .freed
        | none =>
          match env.pton6 addrstr with
          | none => .exit
          | some a => go (.v6 (vec16 a) l 0 0)
      else if addrstr = lit "any" then go (.unspec l)
      else match env.pton4 addrstr with
        | none => .exit
        | some a => go (.v4 (vec4 a) l)

/-- `parse_log_level` (src/options.c:149-166); `none`: `exit_error` -/
def parseLogLevel (arg : Bytes) : Option Level :=
  if arg = lit "fatal" then some .fatal
  else if arg = lit "error" then some .error
  else if arg = lit "warn" then some .warn
  else if arg = lit "info" then some .info
  else if arg = lit "verbose" then some .verbose
  else if arg = lit "debug" then some .debug
  else if arg = lit "debug2" then some .debug2
  else none

/-- The functions called for options -/
inductive Fn
  | usage | version | daemon | pidFile | statusSocket | config | configPeer | configPeerDir | user | group | logLevel | syslogLevel | syslogIdent
  | hideIp | hideMac | mode | interface | mtu | bind | protocol | method | forward | onPreUp | onUp | onDown | onPostDown | onConnect | onEstablish
  | onDisestablish | onVerify | verifyConfig | generateKey | showKey | machineReadable
deriving DecidableEq

/-- An entry of src/options.def.h: the names, whether there is an argument, and the function -/
structure Entry where
  names : List Bytes
  arg : Bool
  fn : Fn

/-- src/options.def.h -/
def table {D} (env : OEnv D) : List Entry :=
  [⟨[lit "--help", lit "-h"], false, .usage⟩,
   ⟨[lit "--version", lit "-v"], false, .version⟩,
   ⟨[lit "--daemon", lit "-d"], false, .daemon⟩,
   ⟨[lit "--pid-file"], true, .pidFile⟩]
  ++ (if env.statusSocket then [⟨[lit "--status-socket"], true, .statusSocket⟩] else [])
  ++ [⟨[lit "--config", lit "-c"], true, .config⟩,
   ⟨[lit "--config-peer"], true, .configPeer⟩,
   ⟨[lit "--config-peer-dir"], true, .configPeerDir⟩]
  ++ (if env.cmdUser then [⟨[lit "--user"], true, .user⟩, ⟨[lit "--group"], true, .group⟩] else [])
  ++ (if env.cmdLogging then
       [⟨[lit "--log-level"], true, .logLevel⟩,
        ⟨[lit "--syslog-level"], true, .syslogLevel⟩,
        ⟨[lit "--syslog-ident"], true, .syslogIdent⟩,
        ⟨[lit "--hide-ip-addresses"], false, .hideIp⟩,
        ⟨[lit "--hide-mac-addresses"], false, .hideMac⟩] else [])
  ++ (if env.cmdOperation then
       [⟨[lit "--mode", lit "-m"], true, .mode⟩,
        ⟨[lit "--interface", lit "-i"], true, .interface⟩,
        ⟨[lit "--mtu", lit "-M"], true, .mtu⟩,
        ⟨[lit "--bind", lit "-b"], true, .bind⟩,
        ⟨[lit "--protocol", lit "-p"], true, .protocol⟩,
        ⟨[lit "--method"], true, .method⟩,
        ⟨[lit "--forward"], false, .forward⟩] else [])
  ++ (if env.cmdCommands then
       [⟨[lit "--on-pre-up"], true, .onPreUp⟩,
        ⟨[lit "--on-up"], true, .onUp⟩,
        ⟨[lit "--on-down"], true, .onDown⟩,
        ⟨[lit "--on-post-down"], true, .onPostDown⟩,
        ⟨[lit "--on-connect"], true, .onConnect⟩,
        ⟨[lit "--on-establish"], true, .onEstablish⟩,
        ⟨[lit "--on-disestablish"], true, .onDisestablish⟩]
       ++ (if env.dynamicPeers then [⟨[lit "--on-verify"], true, .onVerify⟩] else []) else [])
  ++ [⟨[lit "--verify-config"], false, .verifyConfig⟩,
      ⟨[lit "--generate-key"], false, .generateKey⟩,
      ⟨[lit "--show-key"], false, .showKey⟩,
      ⟨[lit "--machine-readable"], false, .machineReadable⟩]

/-- `fastd_config_read(NULL, conf.peer_group, NULL, 0)`: the standard input (src/config.c:302-399) -/
def readStdin {D} (env : OEnv D) (n : Nat) (st : St D) : Res D Unit :=
  let (ts, bad) := env.stdin n
  let r : Res D Unit :=
    if bad then .fail st
    else match parseConf ts with
      | some ss => (execStmts env.toEnv 9 (readConf env.toEnv 9) 0 ss st).bind fun _ st => .ok () st
      | none => .fail st
  match r with
  | .ok a st' => .ok a (back env.toEnv st.cwd st')
  | .fail st' => .fail (back env.toEnv st.cwd st')
  | .exit => .exit

/-- An option whose failure ends the process -/
def must {D α} (s : OSt D) : Res D α → ORes D
  | .ok _ st => .ok { s with st }
  | _ => .exit

/-- The functions (src/options.c:58-386); `arg` is not used by those without argument. The result of `fastd_config_ifname` is not used by
`option_interface`. -/
def call {D} (env : OEnv D) (f : Fn) (arg : Bytes) (s : OSt D) : ORes D :=
  let c := s.st.conf
  let set (c : Conf) : ORes D := .ok { s with st := { s.st with conf := c } }
  let group (f : Group → Group) : ORes D := .ok { s with st := setGroup s.st 0 f }
  let cmd (sync : Bool) := cmdSet env.toEnv s.st arg sync
  match f with
  | .usage | .version => .done
  | .daemon => .ok { s with daemon := true }
  | .pidFile => .ok { s with pidFile := some arg }
  | .statusSocket => set { c with statusSocket := some arg }
  | .config =>
    if arg = lit "-" then must { s with reads := s.reads + 1 } (readStdin env s.reads s.st)
    else must s (readConf env.toEnv maxDepth 0 arg s.st)
  | .configPeer =>
    must s ((readPeer env.toEnv 0 maxDepth arg (newPeer none) s.st).bind fun p st => addPeer p st)
  | .configPeerDir => .ok { s with st := addPeerDir env.toEnv 0 arg s.st }
  | .user => set { c with user := some arg }
  | .group => set { c with group := some arg }
  | .logLevel => match parseLogLevel arg with
    | some l => set { c with logStderr := some l }
    | none => .exit
  | .syslogLevel => match parseLogLevel arg with
    | some l => set { c with logSyslog := some l }
    | none => .exit
  | .syslogIdent => set { c with logIdent := arg }
  | .hideIp => set { c with hideIp := true }
  | .hideMac => set { c with hideMac := true }
  | .mode =>
    if arg = lit "tap" then set { c with mode := .tap }
    else if arg = lit "multitap" then set { c with mode := .multitap }
    else if arg = lit "tun" then set { c with mode := .tun }
    else .exit
  | .interface => if acceptIfname arg then set { c with ifname := some arg } else .ok s
  | .mtu =>
    let (l, e) := strtol arg
    if e ≠ [] ∨ l < 576 ∨ l > 65535 then .exit else set { c with mtu := UInt16.ofNat l.toNat }
  | .bind => optionBind env arg s
  | .protocol => if arg ≠ env.protocolName then .exit else .ok s
  | .method => group fun g => addMethod g arg
  | .forward => set { c with forward := true }
  | .onPreUp => set { c with onPreUp := cmd true }
  | .onUp => group fun g => { g with onUp := cmd true }
  | .onDown => group fun g => { g with onDown := cmd true }
  | .onPostDown => set { c with onPostDown := cmd true }
  | .onConnect => group fun g => { g with onConnect := cmd false }
  | .onEstablish => group fun g => { g with onEstablish := cmd false }
  | .onDisestablish => group fun g => { g with onDisestablish := cmd false }
  | .onVerify => set { c with onVerify := cmd false, onVerifyGroup := some 0 }
  | .verifyConfig => .ok { s with verifyConfig := true }
  | .generateKey => .ok { s with generateKey := true, showKey := false }
  | .showKey => .ok { s with generateKey := false, showKey := true }
  | .machineReadable => .ok { s with machineReadable := true }

/-- `config_match` for the entries in their order (src/options.c:390-407) -/
def lookup {D} (env : OEnv D) (o : Bytes) : Option Entry := (table env).find? fun e => e.names.contains o

/-- `fastd_config_handle_options` (src/options.c:410-446); the list consists of `argv[i]`, `argv[i + 1]`, ... -/
def handle {D} (env : OEnv D) : List Bytes → OSt D → ORes D
  | [], s => .ok s
  | o :: r, s => match lookup env o with
    | none => .exit
    | some e =>
      if e.arg then
        match r with
        | [] => .exit
        | a :: r => match call env e.fn a s with
          | .ok s => handle env r s
          | x => x
      else match call env e.fn [] s with
        | .ok s => handle env r s
        | x => x

/-- `fastd_configure` (src/config.c:536-543), with the arguments behind `argv[0]`; `LL_DEFAULT` is `LL_VERBOSE` (src/log.h:33). -/
def configure {D} (env : OEnv D) (d : D) (args : List Bytes) : ORes D :=
  match handle env args { st := start d, reads := 0, daemon := false, pidFile := none, verifyConfig := false, generateKey := false, showKey := false,
                          machineReadable := false } with
  | .ok s =>
    if s.st.conf.logStderr.isNone && s.st.conf.logSyslog.isNone then .ok { s with st := { s.st with conf := { s.st.conf with logStderr := some .verbose } } }
    else .ok s
  | r => r

end Fastd.Config.Opt
