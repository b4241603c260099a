import Verif.Data.BSearch

/-!
# Configuration keywords (src/lex.c)

Model only. C strings are byte lists without the terminating NUL; they do not contain NUL.
-/

namespace Fastd.Config

abbrev Bytes := List UInt8

/-- A string literal. -/
def lit (s : String) : Bytes := s.toList.map fun c => UInt8.ofNat c.toNat

/-- The sign of `strcmp` for strings without NUL: the first difference decides, comparing as
`unsigned char`; the end of a string is the smallest character. -/
def strcmp : Bytes → Bytes → Ordering
  | [], [] => .eq
  | [], _ :: _ => .lt
  | _ :: _, [] => .gt
  | a :: s, b :: t => if a < b then .lt else if b < a then .gt else strcmp s t

/-- `keywords` (src/lex.c:44-118). The tokens are represented by their names. -/
def keywords : List (Bytes × String) := [
  (lit "addresses", "TOK_ADDRESSES"), (lit "any", "TOK_ANY"), (lit "as", "TOK_AS"),
  (lit "async", "TOK_ASYNC"), (lit "auto", "TOK_AUTO"), (lit "bind", "TOK_BIND"),
  (lit "capabilities", "TOK_CAPABILITIES"), (lit "cipher", "TOK_CIPHER"),
  (lit "connect", "TOK_CONNECT"), (lit "debug", "TOK_DEBUG"), (lit "debug2", "TOK_DEBUG2"),
  (lit "default", "TOK_DEFAULT"), (lit "disestablish", "TOK_DISESTABLISH"),
  (lit "down", "TOK_DOWN"), (lit "drop", "TOK_DROP"), (lit "early", "TOK_EARLY"),
  (lit "error", "TOK_ERROR"), (lit "establish", "TOK_ESTABLISH"), (lit "fatal", "TOK_FATAL"),
  (lit "float", "TOK_FLOAT"), (lit "force", "TOK_FORCE"), (lit "forward", "TOK_FORWARD"),
  (lit "from", "TOK_FROM"), (lit "group", "TOK_GROUP"), (lit "handshakes", "TOK_HANDSHAKES"),
  (lit "hide", "TOK_HIDE"), (lit "include", "TOK_INCLUDE"), (lit "info", "TOK_INFO"),
  (lit "interface", "TOK_INTERFACE"), (lit "ip", "TOK_IP"), (lit "ipv4", "TOK_IPV4"),
  (lit "ipv6", "TOK_IPV6"), (lit "key", "TOK_KEY"), (lit "l2tp", "TOK_L2TP"),
  (lit "level", "TOK_LEVEL"), (lit "limit", "TOK_LIMIT"), (lit "log", "TOK_LOG"),
  (lit "mac", "TOK_MAC"), (lit "mark", "TOK_MARK"), (lit "method", "TOK_METHOD"),
  (lit "mode", "TOK_MODE"), (lit "mtu", "TOK_MTU"), (lit "multitap", "TOK_MULTITAP"),
  (lit "no", "TOK_NO"), (lit "offload", "TOK_OFFLOAD"), (lit "on", "TOK_ON"),
  (lit "packet", "TOK_PACKET"), (lit "peer", "TOK_PEER"), (lit "peers", "TOK_PEERS"),
  (lit "persist", "TOK_PERSIST"), (lit "pmtu", "TOK_PMTU"), (lit "port", "TOK_PORT"),
  (lit "post-down", "TOK_POST_DOWN"), (lit "pre-up", "TOK_PRE_UP"),
  (lit "protocol", "TOK_PROTOCOL"), (lit "remote", "TOK_REMOTE"), (lit "secret", "TOK_SECRET"),
  (lit "secure", "TOK_SECURE"), (lit "socket", "TOK_SOCKET"), (lit "status", "TOK_STATUS"),
  (lit "stderr", "TOK_STDERR"), (lit "sync", "TOK_SYNC"), (lit "syslog", "TOK_SYSLOG"),
  (lit "tap", "TOK_TAP"), (lit "to", "TOK_TO"), (lit "tun", "TOK_TUN"), (lit "up", "TOK_UP"),
  (lit "use", "TOK_USE"), (lit "user", "TOK_USER"), (lit "verbose", "TOK_VERBOSE"),
  (lit "verify", "TOK_VERIFY"), (lit "warn", "TOK_WARN"), (lit "yes", "TOK_YES")]

/-- The token lookup of `parse_keyword` (src/lex.c:421-431): `bsearch` with `compare_keywords`
(src/lex.c:121-124). `none` is a syntax error. -/
def findKeyword (token : Bytes) : Option String := do
  let i ← Data.bsearch (fun k => strcmp token k.1) keywords
  let k ← keywords[i]?
  return k.2

end Fastd.Config
