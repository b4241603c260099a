import Verif.Config.Lex

/-!
# The grammar of the configuration (src/config.y)

Abstract statements and the relation between statements and token sequences, one constructor for each alternative of the grammar. Lists are
written with the first element in front (the grammar uses left recursion, which makes no difference for the sequences derived).
-/

namespace Fastd.Config.Gram

open Fastd.Config (Bytes)

/-! ## Tokens -/

/-- Keyword tokens (src/config.y:47-119) -/
inductive Kw
  | kAddresses | kAny | kAs | kAsync | kAuto | kBind | kCapabilities | kCipher | kConnect | kDebug | kDebug2 | kDefault | kDisestablish | kDown
  | kDrop | kEarly | kError | kEstablish | kFatal | kFloat | kForce | kForward | kFrom | kGroup | kHandshakes | kHide | kInclude | kInfo | kInterface
  | kIp | kIpv4 | kIpv6 | kKey | kL2tp | kLevel | kLimit | kLog | kMac | kMark | kMethod | kMode | kMtu | kMultitap | kNo | kOffload | kOn | kPacket
  | kPeer | kPeers | kPersist | kPmtu | kPort | kPostDown | kPreUp | kProtocol | kRemote | kSecret | kSecure | kSocket | kStatus | kStderr | kSync
  | kSyslog | kTap | kTo | kTun | kUp | kUse | kUser | kVerbose | kVerify | kWarn | kYes
deriving DecidableEq

/-- The names of the tokens -/
def kwTable : List (String × Kw) := [
  ("TOK_ADDRESSES", .kAddresses), ("TOK_ANY", .kAny), ("TOK_AS", .kAs), ("TOK_ASYNC", .kAsync), ("TOK_AUTO", .kAuto), ("TOK_BIND", .kBind),
  ("TOK_CAPABILITIES", .kCapabilities), ("TOK_CIPHER", .kCipher), ("TOK_CONNECT", .kConnect), ("TOK_DEBUG", .kDebug), ("TOK_DEBUG2", .kDebug2),
  ("TOK_DEFAULT", .kDefault), ("TOK_DISESTABLISH", .kDisestablish), ("TOK_DOWN", .kDown), ("TOK_DROP", .kDrop), ("TOK_EARLY", .kEarly),
  ("TOK_ERROR", .kError), ("TOK_ESTABLISH", .kEstablish), ("TOK_FATAL", .kFatal), ("TOK_FLOAT", .kFloat), ("TOK_FORCE", .kForce),
  ("TOK_FORWARD", .kForward), ("TOK_FROM", .kFrom), ("TOK_GROUP", .kGroup), ("TOK_HANDSHAKES", .kHandshakes), ("TOK_HIDE", .kHide),
  ("TOK_INCLUDE", .kInclude), ("TOK_INFO", .kInfo), ("TOK_INTERFACE", .kInterface), ("TOK_IP", .kIp), ("TOK_IPV4", .kIpv4), ("TOK_IPV6", .kIpv6),
  ("TOK_KEY", .kKey), ("TOK_L2TP", .kL2tp), ("TOK_LEVEL", .kLevel), ("TOK_LIMIT", .kLimit), ("TOK_LOG", .kLog), ("TOK_MAC", .kMac),
  ("TOK_MARK", .kMark), ("TOK_METHOD", .kMethod), ("TOK_MODE", .kMode), ("TOK_MTU", .kMtu), ("TOK_MULTITAP", .kMultitap), ("TOK_NO", .kNo),
  ("TOK_OFFLOAD", .kOffload), ("TOK_ON", .kOn), ("TOK_PACKET", .kPacket), ("TOK_PEER", .kPeer), ("TOK_PEERS", .kPeers), ("TOK_PERSIST", .kPersist),
  ("TOK_PMTU", .kPmtu), ("TOK_PORT", .kPort), ("TOK_POST_DOWN", .kPostDown), ("TOK_PRE_UP", .kPreUp), ("TOK_PROTOCOL", .kProtocol),
  ("TOK_REMOTE", .kRemote), ("TOK_SECRET", .kSecret), ("TOK_SECURE", .kSecure), ("TOK_SOCKET", .kSocket), ("TOK_STATUS", .kStatus),
  ("TOK_STDERR", .kStderr), ("TOK_SYNC", .kSync), ("TOK_SYSLOG", .kSyslog), ("TOK_TAP", .kTap), ("TOK_TO", .kTo), ("TOK_TUN", .kTun),
  ("TOK_UP", .kUp), ("TOK_USE", .kUse), ("TOK_USER", .kUser), ("TOK_VERBOSE", .kVerbose), ("TOK_VERIFY", .kVerify), ("TOK_WARN", .kWarn),
  ("TOK_YES", .kYes)]

/-- Tokens -/
inductive T
  | kw (k : Kw)
  | str (s : Bytes)
  | uint (n : UInt64)
  | addr4 (a : Bytes)
  | addr6 (a : Bytes)
  | addr6s (a ifname : Bytes)
  | semi | colon | lbrace | rbrace
deriving DecidableEq

/-- The token of the grammar for one of the scanner; `none` for the end of the file and errors -/
def ofTok : Lex.Tok → Option T
  | .keyword name => (kwTable.lookup name).map .kw
  | .string s => some (.str s)
  | .uint n => some (.uint n)
  | .addr4 a => some (.addr4 a)
  | .addr6 a => some (.addr6 a)
  | .addr6Scoped a i => some (.addr6s a i)
  | .char c => if c = 59 then some .semi else if c = 58 then some .colon else if c = 123 then some .lbrace else if c = 125 then some .rbrace else none
  | .eof => none
  | .error _ => none

/-! ## Statements -/

inductive Level
  | fatal | error | warn | info | verbose | debug | debug2
deriving DecidableEq

inductive Af
  | unspec | inet | inet6
deriving DecidableEq

inductive DropCaps
  | off | on | early | force
deriving DecidableEq

inductive Mode
  | tap | multitap | tun
deriving DecidableEq

/-- The shell commands of a peer group -/
inductive Ev
  | up | down | connect | establish | disestablish | verify
deriving DecidableEq

/-- The address of a `bind` statement -/
inductive BindAddr
  | v4 (a : Bytes)
  | v6 (a : Bytes)
  | any
deriving DecidableEq

/-- `default`, `default ipv4`, `default ipv6` -/
inductive BindDefault
  | both | ipv4 | ipv6
deriving DecidableEq

/-- Statements about a peer -/
inductive PStmt
  | remote4 (a : Bytes) (port : UInt64)
  | remote6 (a : Bytes) (port : UInt64)
  | remote6s (a ifname : Bytes) (port : UInt64)
  | remoteHost (af : Af) (host : Bytes) (port : UInt64)
  | float (b : Bool)
  | key (s : Bytes)
  | interface (s : Bytes)
  | mtu (n : UInt64)
  | incl (file : Bytes)
deriving DecidableEq

/-- Statements that may be used in a peer group -/
inductive GStmt
  | peer (name : Bytes) (body : List PStmt)
  | group (name : Bytes) (body : List GStmt)
  | limit (n : UInt64)
  | method (name : Bytes)
  | on (ev : Ev) (sync : Bool) (cmd : Bytes)
  | inclPeer (file : Bytes) (as? : Option Bytes)
  | inclPeers (dir : Bytes)
  | incl (file : Bytes)

/-- Global statements -/
inductive Stmt
  | g (s : GStmt)
  | user (s : Bytes)
  | group (s : Bytes)
  | dropCaps (v : DropCaps)
  | secureHandshakes (b : Bool)
  | cipher (name impl : Bytes)
  | mac (name impl : Bytes)
  | logLevel (l : Level)
  | logStderr (l : Option Level)
  | logSyslog (ident : Option Bytes) (l : Option Level)
  | hideIp (b : Bool)
  | hideMac (b : Bool)
  | interface (s : Bytes)
  | bind (a : BindAddr) (port : Option UInt64) (iface : Option Bytes) (dflt : Option BindDefault)
  | bindScoped (a ifname : Bytes) (port : Option UInt64) (dflt : Option BindDefault)
  | packetMark (n : UInt64)
  | mtu (n : UInt64)
  | pmtu (b : Option Bool)
  | mode (m : Mode)
  | persist (b : Bool)
  | offload (b : Bool)
  | protocol (s : Bytes)
  | secret (s : Bytes)
  | preUp (s : Bytes)
  | postDown (s : Bytes)
  | statusSocket (s : Bytes)
  | forward (b : Bool)

/-! ## Derivations -/

open Kw

/-- `boolean` (src/config.y:660-662) -/
inductive DBool : Bool → List T → Prop
  | yes : DBool true [.kw kYes]
  | no : DBool false [.kw kNo]

/-- `autobool` (src/config.y:664-666) -/
inductive DAuto : Option Bool → List T → Prop
  | auto : DAuto none [.kw kAuto]
  | bool {b t} : DBool b t → DAuto (some b) t

/-- `sync` (src/config.y:656-658) -/
inductive DSync : Bool → List T → Prop
  | sync : DSync true [.kw kSync]
  | async : DSync false [.kw kAsync]
  | none : DSync false []

/-- `colon_or_port`, `port` and `bind_port` (src/config.y:668-688); the ranges are checked by the actions. -/
inductive DPort : UInt64 → List T → Prop
  | colon (n) : DPort n [.colon, .uint n]
  | word (n) : DPort n [.kw kPort, .uint n]

/-- `maybe_bind_port` (src/config.y:632-635) -/
inductive DMaybePort : Option UInt64 → List T → Prop
  | some {n t} : DPort n t → DMaybePort (some n) t
  | none : DMaybePort none []

/-- `log_level` (src/config.y:310-317) -/
inductive DLevel : Level → List T → Prop
  | fatal : DLevel .fatal [.kw kFatal]
  | error : DLevel .error [.kw kError]
  | warn : DLevel .warn [.kw kWarn]
  | info : DLevel .info [.kw kInfo]
  | verbose : DLevel .verbose [.kw kVerbose]
  | debug : DLevel .debug [.kw kDebug]
  | debug2 : DLevel .debug2 [.kw kDebug2]

/-- `maybe_log_level` (src/config.y:305-308) -/
inductive DMaybeLevel : Option Level → List T → Prop
  | some {l t} : DLevel l t → DMaybeLevel (some l) (.kw kLevel :: t)
  | none : DMaybeLevel none []

/-- `maybe_bind_interface` (src/config.y:348-355) -/
inductive DMaybeIface : Option Bytes → List T → Prop
  | some (s) : DMaybeIface (some s) [.kw kInterface, .str s]
  | none : DMaybeIface none []

/-- `maybe_bind_default`, `bind_default` (src/config.y:357-376) -/
inductive DMaybeDefault : Option BindDefault → List T → Prop
  | both : DMaybeDefault (some .both) [.kw kDefault]
  | ipv4 : DMaybeDefault (some .ipv4) [.kw kDefault, .kw kIpv4]
  | ipv6 : DMaybeDefault (some .ipv6) [.kw kDefault, .kw kIpv6]
  | none : DMaybeDefault none []

/-- `bind_address` (src/config.y:336-346) -/
inductive DBindAddr : BindAddr → List T → Prop
  | v4 (a) : DBindAddr (.v4 a) [.addr4 a]
  | v6 (a) : DBindAddr (.v6 a) [.addr6 a]
  | any : DBindAddr .any [.kw kAny]

/-- `maybe_as` (src/config.y:637-641) -/
inductive DMaybeAs : Option Bytes → List T → Prop
  | some (s) : DMaybeAs (some s) [.kw kAs, .str s]
  | none : DMaybeAs none []

/-- `maybe_af` (src/config.y:643-646) -/
inductive DMaybeAf : Af → List T → Prop
  | v4 : DMaybeAf .inet [.kw kIpv4]
  | v6 : DMaybeAf .inet6 [.kw kIpv6]
  | none : DMaybeAf .unspec []

/-- `drop_capabilities_enabled` (src/config.y:231-240) -/
inductive DDropCaps : DropCaps → List T → Prop
  | early : DDropCaps .early [.kw kEarly]
  | force : DDropCaps .force [.kw kForce]
  | on : DDropCaps .on [.kw kYes]
  | off : DDropCaps .off [.kw kNo]

/-- `mode` (src/config.y:400-403) -/
inductive DMode : Mode → List T → Prop
  | tap : DMode .tap [.kw kTap]
  | multitap : DMode .multitap [.kw kMultitap]
  | tun : DMode .tun [.kw kTun]

/-- The events after `on` in peer groups (src/config.y:196-201) -/
inductive DEv : Ev → List T → Prop
  | up : DEv .up [.kw kUp]
  | down : DEv .down [.kw kDown]
  | connect : DEv .connect [.kw kConnect]
  | establish : DEv .establish [.kw kEstablish]
  | disestablish : DEv .disestablish [.kw kDisestablish]
  | verify : DEv .verify [.kw kVerify]

/-- `peer_statement`, `peer_remote` and the rules for the other statements (src/config.y:451-541, 648-654) -/
inductive DPStmt : PStmt → List T → Prop
  | remote4 {a n t f} : f = [] ∨ f = [.kw kIpv4] → DPort n t → DPStmt (.remote4 a n) (.kw kRemote :: (f ++ .addr4 a :: (t ++ [.semi])))
  | remote6 {a n t f} : f = [] ∨ f = [.kw kIpv6] → DPort n t → DPStmt (.remote6 a n) (.kw kRemote :: (f ++ .addr6 a :: (t ++ [.semi])))
  | remote6s {a i n t f} : f = [] ∨ f = [.kw kIpv6] → DPort n t → DPStmt (.remote6s a i n) (.kw kRemote :: (f ++ .addr6s a i :: (t ++ [.semi])))
  | remoteHost {af h n t f} : DMaybeAf af f → DPort n t → DPStmt (.remoteHost af h n) (.kw kRemote :: (f ++ .str h :: (t ++ [.semi])))
  | float {b t} : DBool b t → DPStmt (.float b) (.kw kFloat :: (t ++ [.semi]))
  | key (s) : DPStmt (.key s) [.kw kKey, .str s, .semi]
  | interface (s) : DPStmt (.interface s) [.kw kInterface, .str s, .semi]
  | mtu (n) : DPStmt (.mtu n) [.kw kMtu, .uint n, .semi]
  | incl (s) : DPStmt (.incl s) [.kw kInclude, .str s, .semi]

/-- `peer_conf` (src/config.y:447-449) -/
inductive DPConf : List PStmt → List T → Prop
  | nil : DPConf [] []
  | cons {s ss t ts} : DPStmt s t → DPConf ss ts → DPConf (s :: ss) (t ++ ts)

/-- `peer_group_statement` without nested groups, and the rules for the statements (src/config.y:192-204, 433-445, 544-604, 610-629) -/
inductive DGLeaf : GStmt → List T → Prop
  | peer {name body t} : DPConf body t → DGLeaf (.peer name body) (.kw kPeer :: .str name :: .lbrace :: (t ++ [.rbrace]))
  | limit (n) : DGLeaf (.limit n) [.kw kPeer, .kw kLimit, .uint n, .semi]
  | method (s) : DGLeaf (.method s) [.kw kMethod, .str s, .semi]
  | on {ev sync cmd te ts} : DEv ev te → DSync sync ts → DGLeaf (.on ev sync cmd) (.kw kOn :: (te ++ (ts ++ [.str cmd, .semi])))
  | inclPeer {f a t} : DMaybeAs a t → DGLeaf (.inclPeer f a) (.kw kInclude :: .kw kPeer :: .str f :: (t ++ [.semi]))
  | inclPeers (d) : DGLeaf (.inclPeers d) [.kw kInclude, .kw kPeers, .kw kFrom, .str d, .semi]
  | incl (f) : DGLeaf (.incl f) [.kw kInclude, .str f, .semi]

/-- `peer_group_config` (src/config.y:162-165), with the nested groups (src/config.y:193) -/
inductive DGConf : List GStmt → List T → Prop
  | nil : DGConf [] []
  | leaf {s ss t ts} : DGLeaf s t → DGConf ss ts → DGConf (s :: ss) (t ++ ts)
  | group {name body ss t ts} : DGConf body t → DGConf ss ts →
      DGConf (.group name body :: ss) (.kw kPeer :: .kw kGroup :: .str name :: .lbrace :: (t ++ .rbrace :: ts))

/-- One `peer_group_statement` -/
inductive DGStmt : GStmt → List T → Prop
  | leaf {s t} : DGLeaf s t → DGStmt s t
  | group {name body t} : DGConf body t → DGStmt (.group name body) (.kw kPeer :: .kw kGroup :: .str name :: .lbrace :: (t ++ [.rbrace]))

/-- `statement` other than `peer_group_statement`, and the rules for the statements (src/config.y:167-190, 206-431, 606-607) -/
inductive DSimple : Stmt → List T → Prop
  | user (s) : DSimple (.user s) [.kw kUser, .str s, .semi]
  | group (s) : DSimple (.group s) [.kw kGroup, .str s, .semi]
  | dropCaps {v t} : DDropCaps v t → DSimple (.dropCaps v) (.kw kDrop :: .kw kCapabilities :: (t ++ [.semi]))
  | secureHandshakes {b t} : DBool b t → DSimple (.secureHandshakes b) (.kw kSecure :: .kw kHandshakes :: (t ++ [.semi]))
  | cipher (a b) : DSimple (.cipher a b) [.kw kCipher, .str a, .kw kUse, .str b, .semi]
  | mac (a b) : DSimple (.mac a b) [.kw kMac, .str a, .kw kUse, .str b, .semi]
  | logLevel {l t} : DLevel l t → DSimple (.logLevel l) (.kw kLog :: .kw kLevel :: (t ++ [.semi]))
  | logStderr {l t} : DMaybeLevel l t → DSimple (.logStderr l) (.kw kLog :: .kw kTo :: .kw kStderr :: (t ++ [.semi]))
  | logSyslog {l t} : DMaybeLevel l t → DSimple (.logSyslog none l) (.kw kLog :: .kw kTo :: .kw kSyslog :: (t ++ [.semi]))
  | logSyslogAs {l t} (s) : DMaybeLevel l t → DSimple (.logSyslog (some s) l) (.kw kLog :: .kw kTo :: .kw kSyslog :: .kw kAs :: .str s :: (t ++ [.semi]))
  | hideIp {b t} : DBool b t → DSimple (.hideIp b) (.kw kHide :: .kw kIp :: .kw kAddresses :: (t ++ [.semi]))
  | hideMac {b t} : DBool b t → DSimple (.hideMac b) (.kw kHide :: .kw kMac :: .kw kAddresses :: (t ++ [.semi]))
  | interface (s) : DSimple (.interface s) [.kw kInterface, .str s, .semi]
  | bind {a p i d ta tp ti td} : DBindAddr a ta → DMaybePort p tp → DMaybeIface i ti → DMaybeDefault d td →
      DSimple (.bind a p i d) (.kw kBind :: (ta ++ (tp ++ (ti ++ (td ++ [.semi])))))
  | bindScoped {a i p d tp td} : DMaybePort p tp → DMaybeDefault d td →
      DSimple (.bindScoped a i p d) (.kw kBind :: .addr6s a i :: (tp ++ (td ++ [.semi])))
  | packetMark (n) : DSimple (.packetMark n) [.kw kPacket, .kw kMark, .uint n, .semi]
  | mtu (n) : DSimple (.mtu n) [.kw kMtu, .uint n, .semi]
  | pmtu {b t} : DAuto b t → DSimple (.pmtu b) (.kw kPmtu :: (t ++ [.semi]))
  | mode {m t} : DMode m t → DSimple (.mode m) (.kw kMode :: (t ++ [.semi]))
  | persist {b t} : DBool b t → DSimple (.persist b) (.kw kPersist :: .kw kInterface :: (t ++ [.semi]))
  | offload {b t} : DBool b t → DSimple (.offload b) (.kw kOffload :: .kw kL2tp :: (t ++ [.semi]))
  | protocol (s) : DSimple (.protocol s) [.kw kProtocol, .str s, .semi]
  | secret (s) : DSimple (.secret s) [.kw kSecret, .str s, .semi]
  | preUp (s) : DSimple (.preUp s) [.kw kOn, .kw kPreUp, .str s, .semi]
  | postDown (s) : DSimple (.postDown s) [.kw kOn, .kw kPostDown, .str s, .semi]
  | statusSocket (s) : DSimple (.statusSocket s) [.kw kStatus, .kw kSocket, .str s, .semi]
  | forward {b t} : DBool b t → DSimple (.forward b) (.kw kForward :: (t ++ [.semi]))

/-- `config` (src/config.y:158-160) -/
inductive DConf : List Stmt → List T → Prop
  | nil : DConf [] []
  | simple {s ss t ts} : DSimple s t → DConf ss ts → DConf (s :: ss) (t ++ ts)
  | g {s ss t ts} : DGStmt s t → DConf ss ts → DConf (.g s :: ss) (t ++ ts)

end Fastd.Config.Gram
