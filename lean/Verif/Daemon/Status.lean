import Verif.Daemon.Send
import Verif.Shell.Env

/-!
# The status socket (src/status.c)

Model only. The JSON objects of json-c are represented by `Json`; how json-c turns one into text (src/status.c:38) is not
modelled. Strings are lists of bytes without the terminating NUL, buffers on the stack memory of the size declared in C with
arbitrary previous contents. Statistics and names of interfaces, which are not part of the state of the daemon
modelled in this directory, are parameters. Not modelled: creating, locking and removing the socket, `accept`.
-/

namespace Fastd.Daemon

open Fastd.Log (Res str)
open Fastd.ShellEnv (Sys decimal cstr)

/-- `struct json_object`; NULL is `null`. -/
inductive Json
  | null
  | int (n : Int)
  | str (s : Bytes)
  | arr (l : List Json)
  | obj (l : List (Bytes × Json))

/-- `json_object_object_add` of json-c: a key that is already there gets a new value. -/
def objAdd : List (Bytes × Json) → Bytes → Json → List (Bytes × Json)
  | [], k, v => [(k, v)]
  | (k', v') :: l, k, v => if k' = k then (k', v) :: l else (k', v') :: objAdd l k v

/-- What the status contains besides the state of the daemon, and the contents of the buffers before they are used. -/
structure StatusEnv where
  sys : Sys
  /-- `dump_stats` (src/status.c:75-87) of `ctx.stats`, or of the statistics of a peer -/
  stats : Option Nat → Json
  /-- the name of `ctx.iface`, or of the interface of a peer, if it has one -/
  ifname : Option Nat → Option Bytes
  /-- `ctx.started` -/
  started : Time
  /-- `addr_buf` (src/status.c:95) -/
  addrBuf : Bytes
  /-- `buf` (src/status.c:171) -/
  keyBuf : Bytes
  /-- `eth_addr_buf` (src/status.c:135) -/
  ethBuf : Bytes

/-- How `fastd_snprint_peer_address` (src/log.c:35-74) prints an address, with `iface` NULL, `bind_address` and `hide` false.
`inet_ntop` fails if the text doesn't fit into its buffer of `INET6_ADDRSTRLEN` bytes. -/
def addrText (sys : Sys) : Addr → Log.AddrText
  | .unspec _ => .any
  | .v4 ip port =>
    if (sys.ntop4 ip.toList).length < 46 then .text (some (sys.ntop4 ip.toList ++ str ":" ++ decimal port.toNat))
    else .text none
  | .v6 ip port _ scope =>
    if (sys.ntop6 ip.toList).length < 46 then
      match (if linkLocal ip then sys.ifname scope else none) with
      | some ifn => .text (some (str "[" ++ sys.ntop6 ip.toList ++ str "%" ++ ifn ++ str "]:" ++ decimal port.toNat))
      | none => .text (some (str "[" ++ sys.ntop6 ip.toList ++ str "]:" ++ decimal port.toNat))
    else .text none

/-- `addr_buf` as a string after src/status.c:96 -/
def dumpAddr (st : StatusEnv) (a : Addr) : Res Bytes := do
  let (mem, _) ← Log.snprintAddr st.addrBuf 0 st.addrBuf.length (addrText st.sys a)
  cstr mem

/-- `describe_peer` with `buf` (src/status.c:171-172, src/protocols/ec25519_fhmqvc/util.c:78-88) -/
def dumpKey (st : StatusEnv) (key : Key) : Res Bytes := do
  let (mem, _) ← Log.snprintf st.keyBuf 0 st.keyBuf.length (Util.hexdump key)
  cstr mem

/-- The text of a MAC address (src/status.c:133-138); a `fastd_eth_addr_t` has 6 bytes. -/
def dumpMac (st : StatusEnv) (mac : Bytes) : Res Bytes := do
  let b := fun i => Log.fmt02x (mac.getD i 0)
  let (mem, _) ← Log.snprintf st.ethBuf 0 st.ethBuf.length
    (b 0 ++ str ":" ++ b 1 ++ str ":" ++ b 2 ++ str ":" ++ b 3 ++ str ":" ++ b 4 ++ str ":" ++ b 5)
  cstr mem

variable [Env]

/-- Writing outside of a buffer or reading beyond its end is a memory error. -/
def ofRes {α : Type} : Res α → M α
  | .ok a => pure a
  | _ => fail .mem

/-- A string that may be NULL. -/
def strOrNull : Option Bytes → Json
  | none => .null
  | some s => .str s

/-- `protocol_get_current_method` (src/protocols/ec25519_fhmqvc/ec25519_fhmqvc.c:206-214) -/
def currentMethod (p : Peer) : M (Option Nat) := do
  if !p.isEstablished then pure none
  else
    let old ← useOldSession p
    pure (if old then p.old.method else p.sess.method)

/-- The loop over the MAC addresses (src/status.c:126-141) -/
def dumpMacs (st : StatusEnv) (i : Nat) : List Eth → List Json → M (List Json)
  | [], l => pure l
  | e :: es, l =>
    if e.peer ≠ some i then dumpMacs st i es l
    else do
      let s ← ofRes (dumpMac st e.addr)
      dumpMacs st i es (l ++ [.str s])

/-- The object `connection` (src/status.c:107-142) -/
def dumpConnection (st : StatusEnv) (p : Peer) : M Json := do
  let c ← get
  let o := objAdd [] (str "established") (.int (c.now - p.established))
  let m ← currentMethod p
  let o := objAdd o (str "method") (strOrNull (m.map Env.methodName))
  let o := objAdd o (str "statistics") (st.stats (some p.id))
  if Env.mode = .tap then
    let l ← dumpMacs st p.id c.eth []
    pure (.obj (objAdd o (str "mac_addresses") (.arr l)))
  else pure (.obj o)

/-- `dump_peer` (src/status.c:91-148) -/
def dumpPeer (st : StatusEnv) (p : Peer) : M Json := do
  let a ← ofRes (dumpAddr st p.addr)
  let o := objAdd [] (str "name") (strOrNull p.name)
  let o := objAdd o (str "address") (.str a)
  let o := if Env.sharedIface then o else objAdd o (str "interface") (match p.iface with
    | none => .null
    | some _ => strOrNull (st.ifname (some p.id)))
  if p.isEstablished then
    let conn ← dumpConnection st p
    pure (.obj (objAdd o (str "connection") conn))
  else pure (.obj (objAdd o (str "connection") .null))

/-- The loop over the peers (src/status.c:164-174) -/
def dumpPeers (st : StatusEnv) : List Peer → List (Bytes × Json) → M (List (Bytes × Json))
  | [], l => pure l
  | p :: ps, l =>
    if !p.isEnabled then dumpPeers st ps l
    else do
      let k ← ofRes (dumpKey st p.key)
      let j ← dumpPeer st p
      dumpPeers st ps (objAdd l k j)

/-- The JSON object made by `dump_status` (src/status.c:151-174) -/
def dumpStatus (st : StatusEnv) : M Json := do
  let c ← get
  let o := objAdd [] (str "uptime") (.int (c.now - st.started))
  let o := if Env.sharedIface then objAdd o (str "interface") (strOrNull (st.ifname none)) else o
  let o := objAdd o (str "statistics") (st.stats none)
  let l ← dumpPeers st c.peers []
  pure (.obj (objAdd o (str "peers") (.obj l)))

/-- `dump_thread` (src/status.c:35-57): the loop over `write`, with the text still to be written. `w` tells for each
call how much is written, `none` is an error. The result is what the client gets; `none` if the loop hasn't ended after these calls,
or if `write` claims to have written more than it was given. -/
def dumpThread : List (Option Nat) → Bytes → Bytes → Option Bytes
  | _, [], out => some out
  | [], _ :: _, _ => none
  | none :: _, _ :: _, out => some out
  | some n :: w, left, out =>
    if left.length < n then none else dumpThread w (left.drop n) (out ++ left.take n)

end Fastd.Daemon
