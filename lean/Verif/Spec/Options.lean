import Verif.Spec.Conf
import Verif.Config.Options

/-!
# What a command line means

The specification used for the command line options. Options stand for statements of the configuration, `Does`; the few that do not are settings of their
own, `Act`. The statements are those of a file in the current directory.
-/

namespace Fastd.Config.Spec

open Fastd.Config (Bytes lit)
open Fastd.Config.Gram
open Fastd.Config.Exec
open Fastd.Config.Opt (OEnv OSt)

/-- What an option does -/
inductive Act
  /-- The same as a statement -/
  | stmt (s : Stmt)
  /-- The statements are read from the standard input. -/
  | stdin
  | ident (i : Bytes)
  | daemon
  | pidFile (f : Bytes)
  | verifyConfig
  | generateKey
  | showKey
  | machineReadable

/-- A digit -/
def Digit (c : UInt8) : Prop := 0x30 ≤ c.toNat ∧ c.toNat ≤ 0x39

/-- White space -/
def Blank (c : UInt8) : Prop := c.toNat = 0x20 ∨ 0x09 ≤ c.toNat ∧ c.toNat ≤ 0x0d

/-- The number written with the decimal digits `ds` -/
inductive Decimal : Bytes → Nat → Prop
  | one {c} : Digit c → Decimal [c] (c.toNat - 0x30)
  | snoc {ds n c} : Decimal ds n → Digit c → Decimal (ds ++ [c]) (10 * n + (c.toNat - 0x30))

/-- The text `t` is the number `n`: digits, with white space and a sign in front of them -/
def Number (t : Bytes) (n : Nat) : Prop :=
  ∃ sp sign ds, t = sp ++ sign ++ ds ∧ (∀ c ∈ sp, Blank c) ∧ (sign = [] ∨ sign = [0x2b] ∨ (sign = [0x2d] ∧ n = 0)) ∧ Decimal ds n

/-- The port given by the text behind an address. Without any text behind the colon it is 0. -/
def PortText (t : Bytes) (n : UInt64) : Prop := n.toNat ≤ 65535 ∧ (Number t n.toNat ∨ t = [] ∧ n = 0)

/-- `addr` or `addr:port` -/
inductive WithPort : Bytes → Bytes → Option UInt64 → Prop
  | none {a} : WithPort a a none
  | some {a p n} : PortText p n → WithPort (a ++ 0x3a :: p) a (some n)

/-- The text of a bind address: an IPv4 address or `any`, which do not contain colons, or an IPv6 address in brackets -/
inductive BindText {D} (env : OEnv D) : Bytes → BindAddr → Option UInt64 → Prop
  | v4 {t s a p} : WithPort t s p → 0x3a ∉ s ∨ p ≠ none → s.head? ≠ some 0x5b → s ≠ lit "any" → env.pton4 s = some a → BindText env t (.v4 a) p
  | any {t p} : WithPort t (lit "any") p → BindText env t .any p
  | v6 {t s a p} : WithPort t (0x5b :: s ++ [0x5d]) p → env.pton6 s = some a → BindText env t (.v6 a) p

/-- The levels -/
inductive LevelText : Bytes → Level → Prop
  | fatal : LevelText (lit "fatal") .fatal
  | error : LevelText (lit "error") .error
  | warn : LevelText (lit "warn") .warn
  | info : LevelText (lit "info") .info
  | verbose : LevelText (lit "verbose") .verbose
  | debug : LevelText (lit "debug") .debug
  | debug2 : LevelText (lit "debug2") .debug2

/-- The modes -/
inductive ModeText : Bytes → Mode → Prop
  | tap : ModeText (lit "tap") .tap
  | multitap : ModeText (lit "multitap") .multitap
  | tun : ModeText (lit "tun") .tun

/-- What an option does, given its name and its argument. Commands for which fastd does not wait are those about connections. -/
inductive Does {D} (env : OEnv D) : Bytes → Option Bytes → Act → Prop
  | daemon {o} : o ∈ [lit "--daemon", lit "-d"] → Does env o none .daemon
  | pidFile {f} : Does env (lit "--pid-file") (some f) (.pidFile f)
  | statusSocket {f} : env.statusSocket = true → Does env (lit "--status-socket") (some f) (.stmt (.statusSocket f))
  | config {o f} : o ∈ [lit "--config", lit "-c"] → f ≠ lit "-" → Does env o (some f) (.stmt (.g (.incl f)))
  | stdin {o} : o ∈ [lit "--config", lit "-c"] → Does env o (some (lit "-")) .stdin
  | configPeer {f} : Does env (lit "--config-peer") (some f) (.stmt (.g (.inclPeer f none)))
  | configPeerDir {f} : Does env (lit "--config-peer-dir") (some f) (.stmt (.g (.inclPeers f)))
  | user {n} : env.cmdUser = true → Does env (lit "--user") (some n) (.stmt (.user n))
  | group {n} : env.cmdUser = true → Does env (lit "--group") (some n) (.stmt (.group n))
  | logLevel {t l} : env.cmdLogging = true → LevelText t l → Does env (lit "--log-level") (some t) (.stmt (.logStderr (some l)))
  | syslogLevel {t l} : env.cmdLogging = true → LevelText t l → Does env (lit "--syslog-level") (some t) (.stmt (.logSyslog none (some l)))
  | syslogIdent {i} : env.cmdLogging = true → Does env (lit "--syslog-ident") (some i) (.ident i)
  | hideIp : env.cmdLogging = true → Does env (lit "--hide-ip-addresses") none (.stmt (.hideIp true))
  | hideMac : env.cmdLogging = true → Does env (lit "--hide-mac-addresses") none (.stmt (.hideMac true))
  | mode {o t m} : env.cmdOperation = true → o ∈ [lit "--mode", lit "-m"] → ModeText t m → Does env o (some t) (.stmt (.mode m))
  | interface {o n} : env.cmdOperation = true → o ∈ [lit "--interface", lit "-i"] → Does env o (some n) (.stmt (.interface n))
  | mtu {o t n} : env.cmdOperation = true → o ∈ [lit "--mtu", lit "-M"] → Number t n.toNat → Does env o (some t) (.stmt (.mtu n))
  | bind {o t a p} : env.cmdOperation = true → o ∈ [lit "--bind", lit "-b"] → BindText env t a p → Does env o (some t) (.stmt (.bind a p none none))
  | protocol {o n} : env.cmdOperation = true → o ∈ [lit "--protocol", lit "-p"] → Does env o (some n) (.stmt (.protocol n))
  | method {n} : env.cmdOperation = true → Does env (lit "--method") (some n) (.stmt (.g (.method n)))
  | forward : env.cmdOperation = true → Does env (lit "--forward") none (.stmt (.forward true))
  | onPreUp {c} : env.cmdCommands = true → Does env (lit "--on-pre-up") (some c) (.stmt (.preUp c))
  | onUp {c} : env.cmdCommands = true → Does env (lit "--on-up") (some c) (.stmt (.g (.on .up true c)))
  | onDown {c} : env.cmdCommands = true → Does env (lit "--on-down") (some c) (.stmt (.g (.on .down true c)))
  | onPostDown {c} : env.cmdCommands = true → Does env (lit "--on-post-down") (some c) (.stmt (.postDown c))
  | onConnect {c} : env.cmdCommands = true → Does env (lit "--on-connect") (some c) (.stmt (.g (.on .connect false c)))
  | onEstablish {c} : env.cmdCommands = true → Does env (lit "--on-establish") (some c) (.stmt (.g (.on .establish false c)))
  | onDisestablish {c} : env.cmdCommands = true → Does env (lit "--on-disestablish") (some c) (.stmt (.g (.on .disestablish false c)))
  | onVerify {c} : env.cmdCommands = true → env.dynamicPeers = true → Does env (lit "--on-verify") (some c) (.stmt (.g (.on .verify false c)))
  | verifyConfig : Does env (lit "--verify-config") none .verifyConfig
  | generateKey : Does env (lit "--generate-key") none .generateKey
  | showKey : Does env (lit "--show-key") none .showKey
  | machineReadable : Does env (lit "--machine-readable") none .machineReadable

/-- A command line consists of options with and without argument. -/
inductive Cmdline {D} (env : OEnv D) : List Bytes → List Act → Prop
  | nil : Cmdline env [] []
  | flag {o a r as} : Does env o none a → Cmdline env r as → Cmdline env (o :: r) (a :: as)
  | arg {o t a r as} : Does env o (some t) a → Cmdline env r as → Cmdline env (o :: t :: r) (a :: as)

/-- The statements of a command line used in the directory `d`, with the statements of files; `n` is how often the standard input has been read before. -/
inductive ExpO {D} (env : OEnv D) (d : D) : Nat → List Act → List (X D) → Prop
  | nil {n} : ExpO env d n [] []
  | stmt {n s as xs ys} : ExpC env.toEnv 10 d [s] xs → ExpO env d n as ys → ExpO env d n (.stmt s :: as) (xs ++ ys)
  | stdin {n ts body as xs ys} : env.stdin n = (ts, false) → DConf body ts → ExpC env.toEnv 9 d body xs → ExpO env d (n + 1) as ys →
      ExpO env d n (.stdin :: as) (xs ++ ys)
  | ident {n i as ys} : ExpO env d n as ys → ExpO env d n (.ident i :: as) (.ident i :: ys)
  | other {n a as ys} : (∀ s, a ≠ .stmt s) → a ≠ .stdin → (∀ i, a ≠ .ident i) → ExpO env d n as ys → ExpO env d n (a :: as) ys

/-- The settings that are not part of the configuration. Of the options to generate and to show a key, the last one counts. -/
structure Flags {D} (as : List Act) (s : OSt D) : Prop where
  daemon : s.daemon = true ↔ .daemon ∈ as
  pidFile : s.pidFile = (as.filterMap fun | .pidFile f => some f | _ => none).getLast?
  verifyConfig : s.verifyConfig = true ↔ .verifyConfig ∈ as
  machineReadable : s.machineReadable = true ↔ .machineReadable ∈ as
  generateKey : s.generateKey = true ↔ (as.filterMap fun | .generateKey => some true | .showKey => some false | _ => none).getLast? = some true
  showKey : s.showKey = true ↔ (as.filterMap fun | .generateKey => some true | .showKey => some false | _ => none).getLast? = some false

/-- What is assumed about the argument `t` of an option `o`. Arguments are C strings. Besides: no IPv6 bind addresses with an interface, and no names
of interfaces that are not accepted -/
structure Fine (o t : Bytes) : Prop where
  nul : 0 ∉ t
  bind : o ∈ [lit "--bind", lit "-b"] → t.head? = some 0x5b → 0x25 ∉ t
  iface : o ∈ [lit "--interface", lit "-i"] → acceptIfname t = true

/-- What is assumed about a command line -/
def FineArgs (args : List Bytes) : Prop := ∀ o t, [o, t] <:+: args → Fine o t

/-- Without a log level anywhere, messages up to the level `verbose` are logged to stderr. -/
def DefaultLevel (c c' : Conf) : Prop :=
  c' = if c.logStderr = none ∧ c.logSyslog = none then { c with logStderr := some .verbose } else c

end Fastd.Config.Spec
