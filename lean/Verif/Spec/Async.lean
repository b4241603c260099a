import Verif.Async.Model
import Verif.Daemon.Addr

/-!
# What is expected of the results of other threads

Independent of datagrams and buffers.
-/

namespace Fastd.Async.Spec

open Fastd.Daemon (Addr)

/-- One result of `getaddrinfo`. -/
inductive Answer
  /-- a `struct sockaddr_in`, which ends with some unused bytes -/
  | inet (ip : Vector UInt8 4) (port : UInt16) (pad : Vector UInt8 8)
  /-- a `struct sockaddr_in6` -/
  | inet6 (ip : Vector UInt8 16) (port : UInt16) (flow scope : UInt32)
  /-- a socket address of another family -/
  | other (family : UInt16) (rest : List UInt8)

/-- The family of an answer is as it says. -/
def Answer.ok : Answer → Prop
  | .other f _ => f.toNat ≠ AF_INET ∧ f.toNat ≠ AF_INET6
  | _ => True

/-- A 16 bit number in network order -/
def be16 (p : UInt16) : List UInt8 := [p.toNat / 256 |> UInt8.ofNat, UInt8.ofNat p.toNat]

/-- The bytes of a socket address (netinet/in.h). -/
def Answer.bytes : Answer → List UInt8
  | .inet ip port pad => le 2 AF_INET ++ be16 port ++ ip.toList ++ pad.toList
  | .inet6 ip port flow scope => le 2 AF_INET6 ++ be16 port ++ le 4 flow.toNat ++ ip.toList ++ le 4 scope.toNat
  | .other family rest => le 2 family.toNat ++ rest

/-- The addresses to be used: those of the internet protocols; addresses of IPv4 which are mapped to IPv6 stand for the former. -/
def Answer.addr : Answer → Option Addr
  | .inet ip port _ => some (.v4 ip port)
  | .inet6 ip port flow scope =>
    if ip.toList.take 12 = [0, 0, 0, 0, 0, 0, 0, 0, 0, 0, 0xff, 0xff] then some (.v4 #v[ip[12], ip[13], ip[14], ip[15]] port)
    else some (.v6 ip port flow scope)
  | .other _ _ => none

/-- That some memory is a `fastd_peer_address_t` with the given address. Unused bytes do not matter. -/
def Holds (m : List UInt8) : Addr → Prop
  | .unspec _ => False
  | .v4 ip port => m.length = ADDR ∧ (le 2 AF_INET ++ be16 port ++ ip.toList) <+: m
  | .v6 ip port flow scope => m = le 2 AF_INET6 ++ be16 port ++ le 4 flow.toNat ++ ip.toList ++ le 4 scope.toNat

/-- The same for lists. -/
inductive AllHold : List (List UInt8) → List Addr → Prop
  | nil : AllHold [] []
  | cons {m a ms as} : Holds m a → AllHold ms as → AllHold (m :: ms) (a :: as)

/-- What the main thread has to be told, as a consequence of the things that have happened: the results of those `sendmsg` has
accepted. -/
inductive Told : List Label → List Msg → Prop
  | nil : Told [] []
  | other {ls ms l} : (∀ b, l ≠ .signal b) → (∀ j a b, l ≠ .resolved j a b) → (∀ j o b, l ≠ .verified j o b) →
      Told ls ms → Told (ls ++ [l]) ms
  | lostSignal {ls ms} : Told ls ms → Told (ls ++ [.signal false]) ms
  | lostResolved {ls ms j a} : Told ls ms → Told (ls ++ [.resolved j a false]) ms
  | lostVerified {ls ms j o} : Told ls ms → Told (ls ++ [.verified j o false]) ms
  | signal {ls ms} : Told ls ms → Told (ls ++ [.signal true]) (ms ++ [.nop])
  | resolved {ls ms j} {answer : List Answer} {addrs} : Told ls ms →
      AllHold addrs (answer.filterMap Answer.addr) →
      Told (ls ++ [.resolved j (answer.map Answer.bytes) true]) (ms ++ [.resolve j addrs])
  | verified {ls ms j o} : Told ls ms → Told (ls ++ [.verified j o true]) (ms ++ [.verify j o])

/-- What can be assumed about an event: numbers and objects have the sizes of their types, and `getaddrinfo` returns socket
addresses, fewer than there is room for in memory. -/
def Sane : Label → Prop
  | .resolve j _ => j.peer < 2 ^ 64 ∧ j.remote < 2 ^ 64
  | .verify j _ _ => j.peer < 2 ^ 64 ∧ j.sock < 2 ^ 64 ∧ j.loc.length = ADDR ∧ j.rem.length = ADDR ∧ j.data.length = VERIFY_DATA
  | .resolved _ a _ => a.length < 2 ^ 56 ∧ ∃ answer : List Answer, (∀ x ∈ answer, x.ok) ∧ a = answer.map Answer.bytes
  | _ => True

/-- The event is a request to resolve a host name for which a thread was started. -/
def asksR (j : RJob) : Label → Bool
  | .resolve k true => k = j
  | _ => false

/-- The event is the loss of the answer of a resolver. -/
def lostR (j : RJob) : Label → Bool
  | .resolved k _ false => k = j
  | _ => false

/-- The notification is an answer to a request to resolve a host name. -/
def isR (j : RJob) : Msg → Bool
  | .resolve k _ => k = j
  | _ => false

/-- The same for verifications -/
def asksV (j : VJob) : Label → Bool
  | .verify k _ true => k = j
  | _ => false

def lostV (j : VJob) : Label → Bool
  | .verified k _ false => k = j
  | _ => false

def isV (j : VJob) : Msg → Bool
  | .verify k _ => k = j
  | _ => false

end Fastd.Async.Spec
