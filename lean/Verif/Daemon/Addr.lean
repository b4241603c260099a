import Verif.Basic

/-!
# Peer addresses (src/types.h, src/peer.c, src/peer_hashtable.h, src/hash.h)

Model only.
-/

namespace Fastd.Daemon

/-- `fastd_peer_address_t` (src/fastd.h:118-122), a union of `sockaddr`, `sockaddr_in` and
`sockaddr_in6`. IP addresses are byte strings in network order. `unspec` is `AF_UNSPEC`; the port is
kept there because host name remotes store the port in `in.sin_port` while the family may be
`AF_UNSPEC` (src/config.y:500-504); `in.sin_port` and `in6.sin6_port` are the same bytes. Other
families do not occur (src/resolve.c:70-75 filters them, sockets are IPv4 or IPv6). -/
inductive Addr
  | unspec (port : UInt16)
  | v4 (ip : Vector UInt8 4) (port : UInt16)
  | v6 (ip : Vector UInt8 16) (port : UInt16) (flow : UInt32) (scope : UInt32)
deriving DecidableEq, Repr

/-- `addr->sa.sa_family != AF_UNSPEC` -/
def Addr.isSet : Addr → Bool
  | .unspec _ => false
  | _ => true

/-- `IN6_IS_ADDR_LINKLOCAL` (netinet/in.h): fe80::/10. -/
def linkLocal (ip : Vector UInt8 16) : Bool := ip[0] = 0xfe && (ip[1] &&& 0xc0) = 0x80

/-- `IN6_IS_ADDR_V4MAPPED` (netinet/in.h): ::ffff:0:0/96. -/
def v4Mapped (ip : Vector UInt8 16) : Bool :=
  (ip.toList.take 10).all (· = 0) && ip[10] = 0xff && ip[11] = 0xff

/-- `fastd_peer_address_equal` (src/peer.c:487-518) -/
def addrEq : Addr → Addr → Bool
  | .unspec _, .unspec _ => true
  | .v4 i p, .v4 i' p' => if i ≠ i' then false else if p ≠ p' then false else true
  | .v6 i p _ s, .v6 i' p' _ s' =>
    if i ≠ i' then false
    else if p ≠ p' then false
    else if linkLocal i then (if s ≠ s' then false else true)
    else true
  | _, _ => false

/-- `fastd_peer_address_simplify` (src/peer.c:521-530) -/
def simplify : Addr → Addr
  | .v6 ip port flow scope =>
    if v4Mapped ip then .v4 #v[ip[12], ip[13], ip[14], ip[15]] port else .v6 ip port flow scope
  | a => a

/-- The v4-mapped form of an IPv4 address. -/
def mapV4 (ip : Vector UInt8 4) : Vector UInt8 16 :=
  #v[0, 0, 0, 0, 0, 0, 0, 0, 0, 0, 0xff, 0xff, ip[0], ip[1], ip[2], ip[3]]

/-- `fastd_peer_address_widen` (src/peer.c:533-544) -/
def widen : Addr → Addr
  | .v4 ip port => .v6 (mapV4 ip) port 0 0
  | a => a

/-! ### Hashing -/

/-- The loop body of `fastd_hash` (src/hash.h:25-32). -/
def hashByte (h : UInt32) (b : UInt8) : UInt32 :=
  let h := h + b.toUInt32
  let h := h + (h <<< 10)
  h ^^^ (h >>> 6)

/-- `fastd_hash` (src/hash.h:25-32) -/
def hashBytes (h : UInt32) (data : List UInt8) : UInt32 := data.foldl hashByte h

/-- `fastd_hash_final` (src/hash.h:35-39) -/
def hashFinal (h : UInt32) : UInt32 :=
  let h := h + (h <<< 3)
  let h := h ^^^ (h >>> 11)
  h + (h <<< 15)

/-- Memory representation of a port: network byte order. -/
def portBytes (p : UInt16) : List UInt8 := [(p >>> 8).toUInt8, p.toUInt8]

/-- Memory representation of `sin6_scope_id`: host byte order (little endian). -/
def scopeBytes (s : UInt32) : List UInt8 :=
  [s.toUInt8, (s >>> 8).toUInt8, (s >>> 16).toUInt8, (s >>> 24).toUInt8]

/-- The bytes hashed by `fastd_peer_address_hash` (src/peer_hashtable.h:24-42); `none` is its
`exit_bug` for an unknown address family. -/
def addrHashInput : Addr → Option (List UInt8)
  | .unspec _ => none
  | .v4 ip port => some (ip.toList ++ portBytes port)
  | .v6 ip port _ scope =>
    some (ip.toList ++ portBytes port ++ (if linkLocal ip then scopeBytes scope else []))

/-- `peer_address_bucket` (src/peer_hashtable.c:55-61) -/
def bucket (seed : UInt32) (size : Nat) (a : Addr) : Option Nat :=
  (addrHashInput a).map fun d => (hashFinal (hashBytes seed d)).toNat % size

end Fastd.Daemon
