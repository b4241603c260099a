import Verif.Log.Format

/-!
# Log messages: what is shown of addresses, and where messages go (src/log.c:35-74, 150-192, 207-280)

Model only. `Log/Format` begins with arguments as text; here, addresses are turned into text, and the text is sent to stderr or syslog. `inet_ntop`,
`if_indextoname`, and the time are parameters.
-/

namespace Fastd.Log

/-- What is taken from the C library -/
structure Lib where
  /-- `inet_ntop` for IPv4 -/
  ntop4 : Bytes → Option Bytes
  /-- `inet_ntop` for IPv6 -/
  ntop6 : Bytes → Option Bytes
  /-- `if_indextoname` -/
  ifname : Nat → Option Bytes
  /-- decimal number -/
  dec : Nat → Bytes
  /-- the result of `strftime`, empty on failure -/
  time : Bytes

/-- `fastd_peer_address_t` -/
inductive PeerAddr
  | unspec (port : Nat)
  | v4 (addr : Bytes) (port : Nat)
  | v6 (addr : Bytes) (port scope : Nat)
deriving DecidableEq, Repr

/-- `IN6_IS_ADDR_LINKLOCAL` -/
def isLinkLocal (a : Bytes) : Bool := a.getD 0 0 == 0xfe && (a.getD 1 0 &&& 0xc0) == 0x80

/-- The text made by `fastd_snprint_peer_address` (src/log.c:35-74) -/
def addrText (lib : Lib) (iface : Option Bytes) (bind hide : Bool) : PeerAddr → AddrText
  | .unspec port => if bind then .text (some (str "any:" ++ lib.dec port)) else .any
  | .v4 a port =>
    if !bind && hide then .text (some (str "[hidden]:" ++ lib.dec port))
    else match lib.ntop4 a with
      | some t => .text (some (t ++ str ":" ++ lib.dec port))
      | none => .text none
  | .v6 a port scope =>
    if !bind && hide then .text (some (str "[hidden]:" ++ lib.dec port))
    else match lib.ntop6 a with
      | some t =>
        let iface := if iface.isNone && isLinkLocal a then lib.ifname scope else iface
        match iface with
        | some i => .text (some (str "[" ++ t ++ str "%" ++ i ++ str "]:" ++ lib.dec port))
        | none => .text (some (str "[" ++ t ++ str "]:" ++ lib.dec port))
      | none => .text none

/-- An argument of `fastd_logf` -/
inductive Raw
  | text (t : Option Bytes)
  /-- `%E` -/
  | eth (a : Option Bytes)
  | hex (d : Bytes)
  /-- `%I`, `%B`, and, with the interface, `%L` -/
  | addr (a : Option PeerAddr) (iface : Option Bytes)
deriving DecidableEq, Repr

/-- `"%02x:%02x:%02x:%02x:%02x:%02x"` (src/log.c:160-163) -/
def macText (a : Bytes) : Bytes :=
  fmt02x (a.getD 0 0) ++ str ":" ++ fmt02x (a.getD 1 0) ++ str ":" ++ fmt02x (a.getD 2 0) ++ str ":" ++ fmt02x (a.getD 3 0) ++ str ":"
    ++ fmt02x (a.getD 4 0) ++ str ":" ++ fmt02x (a.getD 5 0)

/-- The parts of `conf` and `ctx` -/
structure LogConf where
  hideIp : Bool
  hideMac : Bool
  /-- `ctx.log_initialized` -/
  initialized : Bool
  /-- `conf.log_stderr_level`; 0 is `LL_UNSPEC` -/
  stderrLevel : Nat
  /-- `conf.log_syslog_level` -/
  syslogLevel : Nat

/-- How an argument is turned into text for the conversion `c` (src/log.c:150-192) -/
def convArg (lib : Lib) (conf : LogConf) (c : UInt8) : Raw → Arg
  | .text t => .text t
  | .eth none => .eth none
  | .eth (some a) => .eth (some (if conf.hideMac then str "[hidden]" else macText a))
  | .hex d => .hex d
  | .addr none _ => .addr none
  | .addr (some a) iface =>
    .addr (some (addrText lib (if c = 76 /- L -/ then iface else none) (c != 73 /- I -/) conf.hideIp a))

/-- The arguments in the order in which the conversions of the format take them -/
def convArgs (lib : Lib) (conf : LogConf) : Bytes → List Raw → List Arg
  | 37 :: 37 :: fmt, args => convArgs lib conf fmt args
  | 37 :: c :: fmt, a :: args => convArg lib conf c a :: convArgs lib conf fmt args
  | _ :: fmt, args => convArgs lib conf fmt args
  | [], _ => []

/-- `get_log_prefix` (src/log.c:208-227) -/
def logPrefix : Nat → Bytes
  | 1 => str "Fatal: "
  | 2 => str "Error: "
  | 3 => str "Warning: "
  | 4 => str "Info: "
  | 5 => str "Verbose: "
  | 6 => str "DEBUG: "
  | 7 => str "DEBUG2: "
  | _ => []

/-- `get_syslog_level` (src/log.c:230-245); `LOG_CRIT` is 2, `LOG_DEBUG` 7. -/
def syslogLevel : Nat → Nat
  | 1 => 2
  | 2 => 3
  | 3 => 4
  | 4 => 5
  | 5 => 6
  | _ => 7

/-- What is written, and where -/
inductive Out
  | stderr (t : Bytes)
  | syslog (priority : Nat) (t : Bytes)
deriving DecidableEq, Repr

/-- `fastd_logf` (src/log.c:248-280), apart from the warning for unknown conversions. `garbage` is the initial content of the buffer. -/
def logOut (lib : Lib) (conf : LogConf) (garbage : Bytes) (level : Nat) (fmt : Bytes) (args : List Raw) : Res (List Out) :=
  let logStderr := !conf.initialized || level ≤ conf.stderrLevel
  let logSyslog := conf.initialized && level ≤ conf.syslogLevel
  if !logStderr && !logSyslog then .ok []
  else do
    let t ← logText garbage fmt (convArgs lib conf fmt args)
    return (if logStderr then [.stderr (lib.time ++ logPrefix level ++ t ++ [10])] else [])
      ++ (if logSyslog then [.syslog (syslogLevel level) t] else [])

end Fastd.Log
