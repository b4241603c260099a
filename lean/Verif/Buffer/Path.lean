import Verif.Buffer.Buf

/-!
# The packet path

Model of everything fastd does with packet buffers while it handles an event: which buffers are
taken from the pool and returned, how large they are, where their data starts, and which parts of
them are accessed. Packet contents are not part of this model (they are in `Verif/Method`): every
decision that depends on contents, on session state, on system calls or on configuration that is not
in `Cfg` is taken by an oracle, so the theorems hold for every outcome.

A buffer handle is a fresh number for every allocation, so using or freeing a buffer that has already
been freed is an error even if its storage has been handed out again.
-/

namespace Fastd.Path

open Fastd.Buffer (blockCount alignto)

/-- What can go wrong. -/
inductive Err
  | oversized     -- exit_fatal("BUG: oversized buffer alloc") (src/buffer.c:55-56)
  | outOfBuffers  -- exit_bug("out of buffers") (src/buffer.c:59-60)
  | badHandle     -- use or free of a buffer that is not in use
  | headroom      -- exit_bug("tried to push buffer across beginning of headroom") (src/buffer.h:82-88)
  | short         -- exit_bug("tried to pull buffer across end of data") (src/buffer.h:104-110)
  | oob           -- access outside the storage
  | misaligned    -- access to a fastd_block128_t that is not 16-byte aligned
deriving DecidableEq, Repr

/-- Handles of buffers. -/
scoped notation "BufId" => Nat

/-- Buffer pool, buffers in use (offset of data, length) and oracle. The pool is a linked list of
equal buffers (src/buffer.c:18-82) of which only the number matters. -/
structure St where
  free : Nat
  held : BufId → Option (Nat × Nat)
  next : BufId
  orc : Nat → Nat

inductive Out (α : Type) where
  | ok (a : α) (s : St)
  | err (e : Err)

def M (α : Type) := St → Out α

def M.bind {α β : Type} (m : M α) (f : α → M β) : M β := fun s =>
  match m s with
  | .ok a s' => f a s'
  | .err e => .err e

instance : Monad M where
  pure a := fun s => .ok a s
  bind := M.bind

def fail {α : Type} (e : Err) : M α := fun _ => .err e

/-- Ask the oracle. -/
def pick : M Nat := fun s => .ok (s.orc 0) { s with orc := fun i => s.orc (i + 1) }

def pickBool : M Bool := do return (← pick) % 2 == 1

/-- The method providers. -/
inductive Prov
  | null | nullL2tp | genericGmac | genericUmac | poly1305 | composedGmac | composedUmac | cipherTest
deriving DecidableEq, Repr

/-- `.overhead` of the providers (src/methods/null/null.c:97, null-l2tp/null-l2tp.c:154,
generic_gmac/generic_gmac.c:247, generic_umac/generic_umac.c:227,
generic_poly1305/generic_poly1305.c:237, composed_gmac/composed_gmac.c:293,
composed_umac/composed_umac.c:271, cipher_test/cipher_test.c:194) -/
def Prov.overhead : Prov → Nat
  | .null => 1
  | .nullL2tp => 8
  | .cipherTest => 8
  | _ => 24

/-- `.encrypt_headroom` of the providers (the line after the overhead). -/
def Prov.enc : Prov → Nat
  | .null => 1
  | .nullL2tp => 8
  | .genericGmac | .genericUmac => 16
  | .poly1305 => 32
  | _ => 0

/-- `.decrypt_headroom` of the providers. -/
def Prov.dec : Prov → Nat
  | .poly1305 => 16
  | _ => 0

/-- Maximum of a list of sizes, as the loop with `max_size_t` computes it. -/
def maxOf (l : List Nat) : Nat := l.foldl max 0

/-- The relevant configuration. `payload` is `fastd_max_payload(ctx.max_mtu)` (src/fastd.h:478-488),
`tap` says that the mode is `MODE_TAP`, `multiaf` that the platform has `multiaf_tun` and the mode is
TUN, `cap` is the size the buffers were allocated with at start-up (src/buffer.c:25-32). -/
structure Cfg where
  methods : List Prov
  payload : Nat
  tap : Bool
  forward : Bool
  multiaf : Bool
  cap : Nat

namespace Cfg

/-- `conf.overhead` (src/config.c:470-480) -/
def overhead (c : Cfg) : Nat := maxOf (c.methods.map Prov.overhead)

/-- `conf.encrypt_headroom` (src/config.c:484) -/
def enc (c : Cfg) : Nat := alignto (maxOf (c.methods.map Prov.enc)) 16

/-- `conf.decrypt_headroom` (src/config.c:487) -/
def dec (c : Cfg) : Nat := alignto (maxOf (c.methods.map Prov.dec)) 16 + 8

/-- `headroom` in `configure_peers` (src/config.c:671-672) -/
def headroom (c : Cfg) : Nat := max (c.enc + 16) (c.dec + c.overhead)

/-- `ctx.max_buffer` (src/config.c:673-674); 1232 is `MAX_HANDSHAKE_SIZE` (src/handshake.h:25) -/
def maxBuffer (c : Cfg) : Nat := alignto (max (c.headroom + c.payload) 1232) 16

/-- `max_len` in `fastd_receive` (src/receive.c:244) -/
def recvLen (c : Cfg) : Nat := max (c.payload + c.overhead) 1232

end Cfg

/-- `conf.mode` -/
inductive Mode
  | tap | multitap | tun
deriving DecidableEq, Repr

/-- `fastd_max_payload` (src/fastd.h:478-488) -/
def maxPayload (mode : Mode) (mtu : Nat) : Nat :=
  match mode with
  | .tap | .multitap => mtu + 14
  | .tun => mtu

/-- `ctx.max_mtu` as computed by `configure_peers` (src/config.c:632, 659-660) from the configured MTU
and the MTUs of the enabled peers. -/
def maxMtu (mode : Mode) (mtu : Nat) (peers : List Nat) : Nat :=
  if mode = .tap then mtu else peers.foldl max mtu

/-- The user's part of the configuration; `multiaf` is a property of the platform. -/
structure UserCfg where
  mode : Mode
  mtu : Nat
  methods : List Prov
  forward : Bool
  multiaf : Bool

/-- The configuration in effect while the peers have the MTUs `now` and the buffers were allocated when
they had the MTUs `start` (`fastd_configure_peers`; `fastd_init_buffers`; later
`fastd_config_load_peer_dirs`: src/fastd.c:532-540, 574). -/
def UserCfg.cfg (u : UserCfg) (start now : List Nat) : Cfg :=
  let c (ps : List Nat) (cap : Nat) : Cfg :=
    { methods := u.methods, payload := maxPayload u.mode (maxMtu u.mode u.mtu ps), tap := u.mode == .tap,
      forward := u.forward, multiaf := u.multiaf && u.mode == .tun, cap := cap }
  c now (c start 0).maxBuffer

/-! ### Buffer primitives -/

def upd (m : BufId → Option (Nat × Nat)) (i : BufId) (v : Option (Nat × Nat)) : BufId → Option (Nat × Nat) :=
  fun j => if j = i then v else m j

/-- `fastd_buffer_alloc` (src/buffer.c:53-73) -/
def alloc (c : Cfg) (len hr : Nat) : M BufId := fun s =>
  if alignto (hr + len) 16 > c.maxBuffer then .err .oversized
  else match s.free with
  | 0 => .err .outOfBuffers
  | f + 1 => .ok s.next { s with free := f, held := upd s.held s.next (some (hr, len)), next := s.next + 1 }

/-- `fastd_buffer_free` (src/buffer.c:76-80) -/
def free (b : BufId) : M Unit := fun s =>
  match s.held b with
  | none => .err .badHandle
  | some _ => .ok () { s with free := s.free + 1, held := upd s.held b none }

/-- Reading `buffer->data` (offset) and `buffer->len`. -/
def get (b : BufId) : M (Nat × Nat) := fun s =>
  match s.held b with
  | none => .err .badHandle
  | some x => .ok x s

def set (b : BufId) (x : Nat × Nat) : M Unit := fun s =>
  match s.held b with
  | none => .err .badHandle
  | some _ => .ok () { s with held := upd s.held b (some x) }

/-- Access to `n` bytes from offset `lo` of the data. -/
def bytes (c : Cfg) (b : BufId) (lo n : Nat) : M Unit := do
  let (off, _) ← get b
  if off + lo + n > c.cap then fail .oob else return ()

/-- Access to `n` blocks of 16 bytes from offset `lo` of the data. -/
def blocks (c : Cfg) (b : BufId) (lo n : Nat) : M Unit := do
  let (off, _) ← get b
  if n = 0 then return ()
  else if off + lo + n * 16 > c.cap then fail .oob
  else if (off + lo) % 16 ≠ 0 then fail .misaligned
  else return ()

/-- `fastd_buffer_push` (src/buffer.h:82-88) -/
def push (b : BufId) (n : Nat) : M Unit := do
  let (off, len) ← get b
  if n > off then fail .headroom else set b (off - n, len + n)

/-- `fastd_buffer_push_from`, `fastd_buffer_push_zero` (src/buffer.h:91-100) -/
def pushFrom (c : Cfg) (b : BufId) (n : Nat) : M Unit := do
  push b n
  bytes c b 0 n

/-- `fastd_buffer_pull` (src/buffer.h:104-110) -/
def pull (b : BufId) (n : Nat) : M Unit := do
  let (off, len) ← get b
  if len < n then fail .short else set b (off + n, len - n)

/-- `fastd_buffer_pull_to` (src/buffer.h:113-116) -/
def pullTo (c : Cfg) (b : BufId) (n : Nat) : M Unit := do
  bytes c b 0 n
  pull b n

/-- `fastd_buffer_zero_pad` (src/buffer.h:75-79) -/
def zeroPad (c : Cfg) (b : BufId) : M Unit := do
  let (off, len) ← get b
  bytes c b len (alignto (off + len) 16 - (off + len))

/-- `buffer->len = n` -/
def setLen (b : BufId) (n : Nat) : M Unit := do
  let (off, _) ← get b
  set b (off, n)

/-- `fastd_buffer_dup` (src/buffer.h:43-47) -/
def dup (c : Cfg) (b : BufId) (hr : Nat) : M BufId := do
  let (_, len) ← get b
  let n ← alloc c len hr
  bytes c b 0 len
  bytes c n 0 len
  return n

/-- `fastd_buffer_align` (src/buffer.h:63-72) -/
def align (c : Cfg) (b : BufId) (hr : Nat) : M BufId := do
  let (off, _) ← get b
  if off ≥ hr ∧ (off - hr) % 16 = 0 then return b
  else do
    let n ← dup c b hr
    free b
    return n

/-! ### Methods -/

/-- `cipher->crypt(out + lo', in + lo, n blocks)`; the result is whether it succeeded. -/
def crypt (c : Cfg) (out : BufId) (lo' : Nat) (b : BufId) (lo n : Nat) : M Bool := do
  blocks c b lo n
  blocks c out lo' n
  pickBool

/-- `mac->digest(in + lo, len)`. -/
def digest (c : Cfg) (b : BufId) (lo len : Nat) : M Bool := do
  blocks c b lo (blockCount len 16)
  pickBool

/-- `fastd_method_put_common_header` (src/methods/common.h:126-140) -/
def putHeader (c : Cfg) (b : BufId) : M Unit := do
  pushFrom c b 6
  pushFrom c b 1
  pushFrom c b 1

/-- End of encryption with a MAC (see `Fastd.Method.sealEnd`): `in` is freed only on success. -/
def sealEnd (c : Cfg) (b out : BufId) : M (Option BufId) := do
  zeroPad c out
  let (_, len) ← get out
  if ← digest c out 16 (len - 16) then do
    blocks c out 0 1
    free b
    putHeader c out
    return some out
  else do
    free out
    return none

/-- `method_encrypt` of all providers: src/methods/null/null.c:80-85,
null-l2tp/null-l2tp.c:98-124, generic_gmac/generic_gmac.c:150-184,
generic_umac/generic_umac.c:130-164, generic_poly1305/generic_poly1305.c:131-165,
composed_gmac/composed_gmac.c:183-222, composed_umac/composed_umac.c:161-200,
cipher_test/cipher_test.c:117-141. -/
def encrypt (c : Cfg) (p : Prov) (b : BufId) : M (Option BufId) :=
  match p with
  | .null => do
    pushFrom c b 1
    return some b
  | .nullL2tp => do
    let (_, len) ← get b
    if len = 0 then do
      free b
      let out ← alloc c 0 20
      pushFrom c out 8
      pushFrom c out 12
      return some out
    else do
      pushFrom c b 8
      return some b
  | .genericGmac | .genericUmac => do
    pushFrom c b 16
    let (_, len) ← get b
    let out ← alloc c len 16
    if ← crypt c out 0 b 0 (blockCount len 16) then sealEnd c b out
    else do
      free out
      return none
  | .poly1305 => do
    pushFrom c b 32
    let (_, len) ← get b
    let out ← alloc c len 16
    if ← crypt c out 0 b 0 (blockCount len 16) then do
      bytes c out 0 32
      pull out 32
      let (_, l) ← get out
      bytes c out 0 l
      pushFrom c out 16
      free b
      putHeader c out
      return some out
    else do
      free out
      return none
  | .composedGmac | .composedUmac => do
    let (_, len) ← get b
    let out ← alloc c (16 + len) 16
    blocks c out 0 1
    if ← pickBool then do
      if ← crypt c out 16 b 0 (blockCount len 16) then sealEnd c b out
      else do
        free out
        return none
    else do
      free out
      return none
  | .cipherTest => do
    let (_, len) ← get b
    let out ← alloc c len 16
    if ← crypt c out 0 b 0 (blockCount len 16) then do
      free b
      putHeader c out
      return some out
    else do
      free out
      return none

/-- End of decryption (reorder check: a duplicate gets length 0). -/
def finish (out : BufId) : M (Option BufId) := do
  if ← pickBool then setLen out 0
  return some out

/-- Verifying the tag and the end of decryption for the MAC methods
(src/methods/generic_gmac/generic_gmac.c:221-242); `len` is the length of the view. -/
def openEnd (c : Cfg) (b : BufId) (len : Nat) (out : BufId) : M (Option BufId) := do
  if ← digest c b (8 + 16) (len - 16) then do
    blocks c out 0 1
    if ← pickBool then do
      free b
      pull out 16
      finish out
    else do
      free out
      return none
  else do
    free out
    return none

/-- The checks before decryption: too short, session not valid, header refused
(e.g. src/methods/generic_gmac/generic_gmac.c:188-203). -/
def headerOk (c : Cfg) (b : BufId) (minLen : Nat) : M Bool := do
  let (_, len) ← get b
  if len < minLen then return false
  else do
    bytes c b 0 8
    pickBool

/-- The `fail` label of the Poly1305 method (generic_poly1305.c:224-231). -/
def polyFail (c : Cfg) (b out : BufId) : M (Option BufId) := do
  free out
  pushFrom c b 16
  putHeader c b
  return none

/-- `method_decrypt` of all providers: src/methods/null/null.c:88-93,
null-l2tp/null-l2tp.c:127-147, generic_gmac/generic_gmac.c:187-242,
generic_umac/generic_umac.c:167-222, generic_poly1305/generic_poly1305.c:168-232,
composed_gmac/composed_gmac.c:225-288, composed_umac/composed_umac.c:203-266,
cipher_test/cipher_test.c:144-189. `none` is NULL; otherwise the input buffer has been freed or is
the result. -/
def decrypt (c : Cfg) (p : Prov) (b : BufId) : M (Option BufId) :=
  match p with
  | .null => do
    pull b 1
    return some b
  | .nullL2tp => do
    if ← headerOk c b 8 then do
      pull b 8
      return some b
    else return none
  | .genericGmac | .genericUmac => do
    if ← headerOk c b 24 then do
      let (_, l) ← get b
      let len := l - 8
      let out ← alloc c len (c.enc - 16)
      if ← crypt c out 0 b 8 (blockCount len 16) then openEnd c b len out
      else do
        free out
        return none
    else return none
  | .poly1305 => do
    if ← headerOk c b 24 then do
      pull b 8
      pullTo c b 16
      pushFrom c b 32
      let (_, len) ← get b
      let out ← alloc c len (c.enc - 32)
      let ok ← crypt c out 0 b 0 (blockCount len 16)
      pull b 32
      if ok then do
        bytes c out 0 32
        let (_, l) ← get b
        bytes c b 0 l
        if ← pickBool then do
          free b
          pull out 32
          finish out
        else polyFail c b out
      else polyFail c b out
    else return none
  | .composedGmac | .composedUmac => do
    if ← headerOk c b 24 then do
      let (_, l) ← get b
      let len := l - 8
      let out ← alloc c len (c.enc - 16)
      if ← crypt c out 0 b 8 1 then do
        if ← crypt c out 16 b (8 + 16) (blockCount len 16 - 1) then openEnd c b len out
        else do
          free out
          return none
      else do
        free out
        return none
    else return none
  | .cipherTest => do
    if ← headerOk c b 8 then do
      let (_, l) ← get b
      let len := l - 8
      let out ← alloc c len c.enc
      if ← crypt c out 0 b 8 (blockCount len 16) then do
        free b
        finish out
      else do
        free out
        return none
    else return none

/-- A session uses one of the configured methods (C27). -/
def pickMethod (c : Cfg) : M Prov := do
  let n ← pick
  return c.methods.getD (n % c.methods.length) .null

/-! ### Sending -/

/-- `session_send` (src/protocols/ec25519_fhmqvc/ec25519_fhmqvc.c:164-181) -/
def sessionSend (c : Cfg) (p : Prov) (b : BufId) : M Unit := do
  zeroPad c b
  match ← encrypt c p b with
  | none => free b
  | some out => do
    let (_, len) ← get out
    bytes c out 0 len
    free out

/-- `protocol_send` (ec25519_fhmqvc.c:184-198) -/
def protocolSend (c : Cfg) (b : BufId) : M Unit := do
  if ← pickBool then free b
  else do
    let p ← pickMethod c
    sessionSend c p b

/-- `fastd_protocol_ec25519_fhmqvc_send_empty` (ec25519_fhmqvc.c:201-203) -/
def sendEmpty (c : Cfg) (p : Prov) : M Unit := do
  let b ← alloc c 0 (alignto p.enc 8)
  sessionSend c p b

/-- The keepalive in `fastd_peer_handle_task` (src/peer.c:999) -/
def keepalive (c : Cfg) : M Unit := do
  let b ← alloc c 0 c.enc
  protocolSend c b

/-- Building and sending a handshake packet of `space` bytes with control header: `new_handshake`,
`fastd_handshake_send_free`, `fastd_handshake_send_error` (src/handshake.c:152-210, 283-341). That the
records fit into `space` is C28. -/
def sendHandshake (c : Cfg) (space : Nat) : M Unit := do
  let b ← alloc c space 0
  pull b 12
  let (_, l) ← get b
  bytes c b 0 l
  if ← pickBool then do
    pushFrom c b 12
    let (_, l) ← get b
    bytes c b 0 l
  free b

/-- The loop of `send_all` (src/send.c:159-176): `n` is the number of peers still to be visited. -/
def sendAll (c : Cfg) (b : BufId) : Nat → M Unit
  | 0 => free b
  | n + 1 => do
    if ← pickBool then sendAll c b n
    else if n = 0 then protocolSend c b
    else do
      let d ← dup c b c.enc
      protocolSend c d
      sendAll c b n

/-- `send_data_tap_single` (src/send.c:179-213): was the packet handled? -/
def sendTapSingle (c : Cfg) (b : BufId) : M Bool := do
  if c.tap = false then return false
  else do
    let (_, len) ← get b
    if len < 14 then do
      free b
      return true
    else do
      bytes c b 0 14
      match (← pick) % 3 with
      | 0 => return false
      | 1 => do
        free b
        return true
      | _ => do
        protocolSend c b
        return true

/-- `fastd_send_data` (src/send.c:216-227) -/
def sendData (c : Cfg) (b : BufId) (dest : Bool) : M Unit := do
  if dest then protocolSend c b
  else do
    if ← sendTapSingle c b then return ()
    else do
      let n ← pick
      sendAll c b n

/-- `fastd_iface_handle` (src/iface.c:427-446): `len` is what `read` returned. The interface's MTU is
taken to be `ctx.max_mtu` (it may be smaller, which needs less space). -/
def ifaceHandle (c : Cfg) (len : Nat) : M Unit := do
  let b ← if c.multiaf then alloc c (c.payload + 4) (c.enc + (16 - 4)) else alloc c c.payload c.enc
  bytes c b 0 len
  setLen b len
  if c.multiaf then pull b 4
  let dest ← pickBool
  sendData c b dest

/-! ### Receiving -/

/-- `fastd_iface_write` (src/iface.c:449-478) -/
def ifaceWrite (c : Cfg) (b : BufId) : M Unit := do
  let (_, len) ← get b
  if len = 0 then return ()
  else do
    if c.multiaf then do
      bytes c b 0 1
      if ← pickBool then do
        pushFrom c b 4
        bytes c b 0 (len + 4)
      else return ()
    else bytes c b 0 len

/-- `fastd_handle_receive` (src/receive.c:287-329) -/
def handleReceive (c : Cfg) (b : BufId) : M Unit := do
  if ← pickBool then free b
  else do
    let (_, len) ← get b
    if c.tap = true ∧ len < 14 then free b
    else do
      bytes c b 0 (if c.tap then 14 else 0)
      ifaceWrite c b
      if c.tap = true ∧ c.forward = true then do
        let b ← align c b c.enc
        sendData c b false
      else free b

/-- The end of `protocol_handle_recv` (ec25519_fhmqvc.c:150-155) -/
def recvFinish (c : Cfg) (out : BufId) : M Unit := do
  let (_, len) ← get out
  if len ≠ 0 then handleReceive c out else free out

/-- The first attempt of `protocol_handle_recv`, with the old session (ec25519_fhmqvc.c:118-120). -/
def tryOld (c : Cfg) (b : BufId) : M (Option BufId) := do
  if ← pickBool then do
    let p ← pickMethod c
    decrypt c p b
  else return none

/-- `protocol_handle_recv` (ec25519_fhmqvc.c:109-161) -/
def protocolRecv (c : Cfg) (b : BufId) : M Unit := do
  if ← pickBool then free b
  else do
    zeroPad c b
    match ← tryOld c b with
    | some out => recvFinish c out
    | none => do
      let p ← pickMethod c
      match ← decrypt c p b with
      | none => free b
      | some out => do
        if ← pickBool then sendEmpty c p
        recvFinish c out

/-- What handling a handshake (or a timer) can do with buffers: send handshake packets and empty
packets (`fastd_handshake_handle` and everything below it, src/handshake.c:482-560,
src/protocols/ec25519_fhmqvc/handshake.c). `n` is the number of packets sent. Sizes are at most
`MAX_HANDSHAKE_SIZE` (C28), at least the two headers. -/
def sendSome (c : Cfg) : Nat → M Unit
  | 0 => return ()
  | n + 1 => do
    if ← pickBool then do
      let k ← pick
      sendHandshake c (16 + k % (1232 - 15))
    else do
      let p ← pickMethod c
      sendEmpty c p
    sendSome c n

/-- What a received UDP packet is treated as. -/
inductive Kind
  | data         -- a data packet from a peer that may send data
  | handshake
  | other        -- unknown sender, unexpected data or unknown type
deriving DecidableEq, Repr

/-- `handle_socket_receive` (src/receive.c:171-240), after the optional removal of the control
header. -/
def dispatch (c : Cfg) (b : BufId) (kind : Kind) : M Unit :=
  match kind with
  | .data => protocolRecv c b
  | .handshake => do
    let (_, len) ← get b
    bytes c b 0 len
    let n ← pick
    sendSome c n
    free b
  | .other => do
    let n ← pick
    sendSome c (n % 2)
    free b

/-- `handle_socket_receive` (src/receive.c:171-240); `ctl` says that the packet has a control
header. -/
def socketReceive (c : Cfg) (b : BufId) (ctl : Bool) (kind : Kind) : M Unit := do
  if ← pickBool then free b
  else do
    bytes c b 0 1
    if ctl then do
      let (_, len) ← get b
      if len < 13 then free b
      else do
        pullTo c b 12
        bytes c b 0 1
        if ← pickBool then free b else dispatch c b kind
    else dispatch c b kind

/-- `fastd_receive` (src/receive.c:243-284): a packet of `len` bytes (longer ones are truncated by
`recvmsg`). -/
def receive (c : Cfg) (len : Nat) (ctl : Bool) (kind : Kind) : M Unit := do
  let b ← alloc c c.recvLen c.dec
  bytes c b 0 (min len c.recvLen)
  if min len c.recvLen = 0 then free b
  else do
    setLen b (min len c.recvLen)
    if ← pickBool then free b else socketReceive c b ctl kind

/-! ### Events -/

/-- The events fastd handles. -/
inductive Event
  | tunnel (len : Nat)                          -- a packet from the tunnel interface
  | udp (len : Nat) (ctl : Bool) (kind : Kind)  -- a packet from the network
  | timer (sends : Nat)                         -- a peer's task: keepalive, handshakes

def handle (c : Cfg) : Event → M Unit
  | .tunnel len => ifaceHandle c len
  | .udp len ctl kind => receive c len ctl kind
  | .timer n => do
    if ← pickBool then keepalive c
    sendSome c n

/-- All the events of a run. -/
def run (c : Cfg) : List Event → M Unit
  | [] => return ()
  | e :: es => do
    handle c e
    run c es

/-- The state after `fastd_init_buffers` (src/buffer.c:25-32): `FASTD_BUFFER_COUNT` = 3 buffers. -/
def St.init (orc : Nat → Nat) : St where
  free := 3
  held := fun _ => none
  next := 0
  orc := orc

end Fastd.Path
