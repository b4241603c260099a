import Verif.Spec.Start
import Verif.Config.Caps

/-!
# Privileges needed by a running fastd

`its` are the items of `Spec/Conf`.
-/

namespace Fastd.Config.Spec

open Fastd.Config (Bytes lit)
open Fastd.Config.Gram
open Fastd.Config.Exec
open Fastd.Config.Caps

/-- All bind addresses -/
def binds {D} (env : Env D) (its : List (Nat × Item D)) : List Bind := its.flatMap fun x => theBinds env x.2

/-- `b` is the address for outgoing connections with IPv4 (or IPv6). -/
def Outgoing {D} (env : Env D) (its : List (Nat × Item D)) (v6 : Bool) (b : Bind) : Prop :=
  ∃ n, (binds env its)[n]? = some b ∧
    if v6 then IsDefault (fun b => notV4 b.addr) (·.default6) (binds env its) (some n) else IsDefault (fun b => notV6 b.addr) (·.default4) (binds env its) (some n)

/-- The packet mark, see C74 -/
def mark {D} (its : List (Nat × Item D)) : UInt32 := ((last theMark its).getD 0).toUInt32

/-- There are peers of which nothing is known at the start. -/
def UnknownPeers {D} (env : Env D) (its : List (Nat × Item D)) : Prop := (∃ x ∈ its, (theDir env x.2).isSome) ∨ ∃ x ∈ its, (theVerify env x).isSome

/-- The operations done by fastd while it is running -/
inductive Later {D} (env : Env D) (its : List (Nat × Item D)) : Priv → Prop
  /-- Without a fixed port, every peer gets its own socket. -/
  | socket {v6 b} : Outgoing env its v6 b → b.dynamic = true → Later env its (.socket b)
  /-- Without any address also -/
  | any {b} : binds env its = [] → b.bindtodev = none → port b.addr = 0 → Later env its (.socket b)
  /-- There are interfaces for peers, and they are created when the connection is established, or for peers that are found later. -/
  | iface : (last theMode its).getD .tap ≠ .tap → last thePersist its = some false ∨ UnknownPeers env its → Later env its .iface
  /-- With offloading, there are interfaces and sockets for connections, with addresses of all kinds. -/
  | offload {op} : env.offloadL2tp = true → last theOffload its = some true → Later env its op

/-- The capabilities for the network -/
def netCaps : List Cap := [.netAdmin, .netBindService, .netRaw]

/-- Root, with all capabilities that matter -/
structure Root (p : Proc) : Prop where
  uid : p.ruid = 0 ∧ p.euid = 0 ∧ p.suid = 0
  caps : ∀ c ∈ netCaps ++ [.setuid, .setgid], c ∈ p.permitted ∧ c ∈ p.effective

/-- A user or a group is configured. -/
def Switches {D} (its : List (Nat × Item D)) : Prop := (last theUser its).isSome ∨ (last theGroup its).isSome

/-- When privileges are dropped -/
def dropWhen {D} (its : List (Nat × Item D)) : DropCaps := (last theDropCaps its).getD .on

end Fastd.Config.Spec
