import Verif.Daemon.Addr

/-!
# Handshakes to unknown senders (src/receive.c)

Model only.
-/

namespace Fastd.Daemon.Backoff

/-- `UNKNOWN_TABLES` (src/build.h.in:141) -/
def UNKNOWN_TABLES : Nat := 16
/-- `UNKNOWN_ENTRIES` (src/build.h.in:144) -/
def UNKNOWN_ENTRIES : Nat := 64
/-- `MIN_HANDSHAKE_INTERVAL` (src/build.h.in:135) -/
def MIN_HANDSHAKE_INTERVAL : Time := 15000
/-- `table_interval` (src/receive.c:111) -/
def tableInterval : Time := MIN_HANDSHAKE_INTERVAL / (UNKNOWN_TABLES - 1 : Nat)

/-- `fastd_handshake_timeout_t` (src/fastd.h) -/
structure Entry where
  address : Addr
  timeout : Time

/-- `ctx.unknown_handshakes` and `ctx.unknown_handshake_seed` -/
structure Tables where
  tab : Nat → Nat → Entry
  seed : UInt32

/-- `fastd_receive_unknown_init` (src/receive.c:73-84) -/
def init (now : Time) (seed : UInt32) : Tables := ⟨fun _ _ => ⟨.unspec 0, now⟩, seed⟩

/-- Memory representation of the `int64_t` slice number (little endian). -/
def sliceBytes (slice : Int) : List UInt8 :=
  (List.range 8).map fun k => UInt8.ofNat ((slice / (256 : Int) ^ k) % 256).toNat

/-- `unknown_hash_entry` (src/receive.c:93-101): indices of table and entry; `none` is the `exit_bug` of
`fastd_peer_address_hash`. The conversion to `size_t` before the `%` does not change the remainder, as 16
divides 2^64. -/
def slot (seed : UInt32) (base : Int) (i : Nat) (addr : Addr) : Option (Nat × Nat) :=
  let slice := base - i
  (addrHashInput addr).map fun d =>
    ((slice % (UNKNOWN_TABLES : Int)).toNat,
     (hashFinal (hashBytes (hashBytes seed (sliceBytes slice)) d)).toNat % UNKNOWN_ENTRIES)

/-- Result of the search loop: `found` is `return true`. -/
inductive Search
  | found
  | firstEmpty (i : Nat)
  | bug

/-- The loop of `backoff_unknown` (src/receive.c:116-131) from index `i` on with `n` iterations left. -/
def search (t : Tables) (now : Time) (base : Int) (addr : Addr) : Nat → Nat → Nat → Search
  | 0, _, firstEmpty => .firstEmpty firstEmpty
  | n + 1, i, firstEmpty =>
    match slot t.seed base i addr with
    | none => .bug
    | some (a, b) =>
      let e := t.tab a b
      if timedOut e.timeout now then
        search t now base addr n (i + 1) (if firstEmpty = UNKNOWN_TABLES then i else firstEmpty)
      else if !addrEq addr e.address then search t now base addr n (i + 1) firstEmpty
      else .found

/-- What `backoff_unknown` did. -/
inductive Outcome
  /-- returned true: no handshake is sent -/
  | backoff
  /-- returned false after writing the slot with index `i`; `displaced` if all slots were in use -/
  | send (i : Nat) (displaced : Bool)
  | bug
deriving DecidableEq

/-- `backoff_unknown` (src/receive.c:110-144); `rnd` is the random number used by
`fastd_rand(0, UNKNOWN_TABLES)`. Times are not negative, so that the unsigned divisions and
subtractions of the C code are those of the integers. -/
def backoffUnknown (t : Tables) (now : Time) (addr : Addr) (rnd : Nat) : Outcome × Tables :=
  let base := now / tableInterval
  match search t now base addr UNKNOWN_TABLES 0 UNKNOWN_TABLES with
  | .found => (.backoff, t)
  | .bug => (.bug, t)
  | .firstEmpty fe =>
    let i := if fe = UNKNOWN_TABLES then rnd % UNKNOWN_TABLES else fe
    match slot t.seed base i addr with
    | none => (.bug, t)
    | some (a, b) =>
      let e : Entry := ⟨addr, now + MIN_HANDSHAKE_INTERVAL - i * tableInterval⟩
      (.send i (fe = UNKNOWN_TABLES),
        { t with tab := fun a' b' => if a' = a ∧ b' = b then e else t.tab a' b' })

end Fastd.Daemon.Backoff
