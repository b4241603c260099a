import Verif.Daemon.State

/-!
# The hash table of peers by address (src/peer_hashtable.c) and the MAC table (src/peer.c)

Model only.
-/

namespace Fastd.Daemon

variable [Env]

/-! ### Hash table -/

/-- `init_hashtable` (src/peer_hashtable.c:18-21) with `size` buckets; `seed` is random. -/
def HT.empty (seed : UInt32) (size : Nat) : HT := ⟨seed, List.replicate size [], 0⟩

/-- `fastd_peer_hashtable_insert` and `resize_hashtable` (src/peer_hashtable.c:39-51, 67-80). The recursion through
`resize_hashtable` is bounded by `fuel`. -/
def htInsertFuel : Nat → Nat → M Unit
  | 0, _ => fail .fuel
  | fuel + 1, i => do
    let p ← getP i
    if !p.addr.isSet then pure ()
    else
      modify fun c => { c with ht := { c.ht with used := c.ht.used + 1 } }
      let c ← get
      if c.ht.used > 2 * c.ht.buckets.length then
        let seed ← draw
        modify fun c => { c with ht := HT.empty (.ofNat seed) (2 * c.ht.buckets.length) }
        forEach (htInsertFuel fuel) (c.peers.map (·.id))
      else
        match bucket c.ht.seed c.ht.buckets.length p.addr with
        | none => fail .bug
        | some b => modify fun c => { c with ht := { c.ht with buckets := c.ht.buckets.modify b (· ++ [i]) } }

/-- `fastd_peer_hashtable_insert`; that a recursion depth of 2 is enough is part of the correctness proof. -/
def htInsert (i : Nat) : M Unit := htInsertFuel 2 i

/-- `fastd_peer_hashtable_remove` (src/peer_hashtable.c:87-102): removes the first entry of the peer from the bucket
of its address. `used` is a `size_t`. -/
def htRemove (i : Nat) : M Unit := do
  let p ← getP i
  if !p.addr.isSet then pure ()
  else
    let c ← get
    match bucket c.ht.seed c.ht.buckets.length p.addr with
    | none => fail .bug
    | some b =>
      modify fun c => { c with ht := { c.ht with
        buckets := c.ht.buckets.modify b (·.erase i)
        used := if c.ht.used = 0 then 2 ^ 64 - 1 else c.ht.used - 1 } }

/-- The loop of `fastd_peer_hashtable_lookup`. -/
def htScan (addr : Addr) : List Nat → M (Option Nat)
  | [] => pure none
  | i :: is => do
    let p ← getP i
    if addrEq p.addr addr then pure (some i) else htScan addr is

/-- `fastd_peer_hashtable_lookup` (src/peer_hashtable.c:105-117) -/
def htLookup (addr : Addr) : M (Option Nat) := do
  let c ← get
  match bucket c.ht.seed c.ht.buckets.length addr with
  | none => fail .bug
  | some b => htScan addr (c.ht.buckets.getD b [])

/-! ### MAC table -/

/-- `memcmp` of two MAC addresses, `eth_addr_cmp` (src/peer.c:886-888) -/
def macCmp : Bytes → Bytes → Ordering
  | [], [] => .eq
  | [], _ => .lt
  | _, [] => .gt
  | a :: as, b :: bs => if a < b then .lt else if b < a then .gt else macCmp as bs

/-- The search loop of `fastd_peer_eth_addr_add` (src/peer.c:903-917): the index of the entry, or the index to insert
at. `fuel` bounds the iterations. -/
def ethSearch (es : List Eth) (addr : Bytes) : Nat → Nat → Nat → Except Fail (Nat ⊕ Nat)
  | 0, _, _ => .error .fuel
  | fuel + 1, min, max =>
    if max > min then
      let cur := min + (max - min) / 2
      match es[cur]? with
      | none => .error .mem
      | some e =>
        match macCmp addr e.addr with
        | .eq => .ok (.inl cur)
        | .lt => ethSearch es addr fuel min cur
        | .gt => ethSearch es addr fuel (cur + 1) max
    else .ok (.inr min)

/-- `fastd_peer_eth_addr_add` (src/peer.c:897-924) after the check of the peer. -/
def ethPut (peer : Option Nat) (addr : Bytes) : M Unit := do
  let c ← get
  match ethSearch c.eth addr (c.eth.length + 1) 0 c.eth.length with
  | .error e => fail e
  | .ok (.inl k) =>
    modify fun c => { c with eth := c.eth.modify k fun e =>
      { e with peer := peer, timeout := c.now + ETH_ADDR_STALE_TIME } }
  | .ok (.inr k) =>
    modify fun c => { c with eth := c.eth.insertIdx k ⟨addr, peer, c.now + ETH_ADDR_STALE_TIME⟩ }

/-- `fastd_peer_eth_addr_add` (src/peer.c:897-924) -/
def ethAdd (peer : Option Nat) (addr : Bytes) : M Unit :=
  match peer with
  | none => ethPut none addr
  | some i => do
    let p ← getP i
    if !p.isEstablished then fail .bug else ethPut (some i) addr

/-- `fastd_peer_find_by_eth_addr` (src/peer.c:927-936) -/
def ethFind (es : List Eth) (addr : Bytes) : Option (Option Nat) :=
  match Data.bsearch (fun e => macCmp addr e.addr) es with
  | none => none
  | some k => (es[k]?).map (·.peer)

/-- The compacting loop over `ctx.eth_addrs` in `reset_peer` (src/peer.c:302-311) and
`fastd_peer_eth_addr_cleanup` (src/peer.c:1013-1024): entries satisfying `del` are dropped, later ones are
moved forward by the number of dropped ones. -/
def ethCompact (del : Eth → Bool) (es : List Eth) : List Eth :=
  let rec go : List Eth → Nat → Nat → Nat → List Eth × Nat
    | a, _, deleted, 0 => (a, deleted)
    | a, i, deleted, n + 1 =>
      match a[i]? with
      | none => (a, deleted)
      | some e =>
        if del e then go a (i + 1) (deleted + 1) n
        else if deleted ≠ 0 then go (a.set (i - deleted) e) (i + 1) deleted n
        else go a (i + 1) deleted n
  let (a, deleted) := go es 0 0 es.length
  a.take (es.length - deleted)

/-- `fastd_peer_eth_addr_cleanup` (src/peer.c:1010-1025) -/
def ethCleanup : M Unit := modify fun c => { c with eth := ethCompact (fun e => timedOut e.timeout c.now) c.eth }

end Fastd.Daemon
