import Verif.Offload.Init

/-!
# C93-C97: L2TP offload
-/

namespace Fastd.L2tp

open Fastd.Netlink
open Fastd.Spec.Netlink (Attr Msg Ack Req encode encodeAck decode l2tp name16)
open Fastd.Daemon (Addr)

/-! ## C93: requests -/

/-- The question for the number of a family, whatever the buffer contained before. -/
theorem C93_family {name : Bytes} {seq : Nat} (h0 : 0 ∉ name) (hn : name.length ≤ 15) (hs : seq < 4294967296) :
    ∃ m msg, (∀ stack, 80 ≤ stack.length → finish (getFamilyReq stack name) seq = some m) ∧ decode m = some msg ∧ msg.seq = seq ∧
      Spec.Netlink.control msg = some (.getFamily name) := by
  obtain ⟨m, msg, ⟨h1, h2, h3⟩, h4⟩ := sends_getFamily (seq := seq) h0 hn hs
  exact ⟨m, msg, h1, h2, h3, h4⟩

/-- A tunnel of version 3 over the socket is requested, with the peer's tunnel having the ID 1. -/
theorem C93_tunnel {family fd id seq : Nat} (hf : family < 65536) (hfd : fd < 4294967296) (hid : id < 4294967296) (hs : seq < 4294967296) :
    ∃ m msg, (∀ stack, 80 ≤ stack.length → finish (tunnelCreateReq stack family fd id) seq = some m) ∧ decode m = some msg ∧
      msg.seq = seq ∧ l2tp family msg = some (.tunnelCreate id 1 3 fd) := by
  obtain ⟨m, msg, ⟨h1, h2, h3⟩, h4⟩ := sends_tunnelCreate hf hfd hid hs
  exact ⟨m, msg, h1, h2, h3, h4⟩

/-- An Ethernet session in the tunnel is requested, with the IDs 1 on both sides, and the name of the interface if one is given. -/
theorem C93_session {family id seq : Nat} {ifname : Option Bytes} (hf : family < 65536) (hid : id < 4294967296)
    (hs : seq < 4294967296) (hn : ∀ n, ifname = some n → 0 ∉ n ∧ n.length ≤ 15) :
    ∃ m msg, (∀ stack, 80 ≤ stack.length → finish (sessionCreateReq stack family id ifname) seq = some m) ∧ decode m = some msg ∧
      msg.seq = seq ∧ l2tp family msg = some (.sessionCreate id 1 1 ifname) := by
  obtain ⟨m, msg, ⟨h1, h2, h3⟩, h4⟩ := sends_sessionCreate hf hid hs hn
  exact ⟨m, msg, h1, h2, h3, h4⟩

theorem C93_get {family id seq : Nat} (hf : family < 65536) (hid : id < 4294967296) (hs : seq < 4294967296) :
    ∃ m msg, (∀ stack, 80 ≤ stack.length → finish (sessionGetReq stack family id) seq = some m) ∧ decode m = some msg ∧
      msg.seq = seq ∧ l2tp family msg = some (.sessionGet id 1) := by
  obtain ⟨m, msg, ⟨h1, h2, h3⟩, h4⟩ := sends_sessionGet hf hid hs
  exact ⟨m, msg, h1, h2, h3, h4⟩

theorem C93_delete {family id seq : Nat} (hf : family < 65536) (hid : id < 4294967296) (hs : seq < 4294967296) :
    ∃ m msg, (∀ stack, 80 ≤ stack.length → finish (sessionDeleteReq stack family id) seq = some m) ∧ decode m = some msg ∧
      msg.seq = seq ∧ l2tp family msg = some (.sessionDelete id 1) := by
  obtain ⟨m, msg, ⟨h1, h2, h3⟩, h4⟩ := sends_sessionDelete hf hid hs
  exact ⟨m, msg, h1, h2, h3, h4⟩

-- a request with the interface name "vpn0"
example : finish (sessionCreateReq (List.replicate 96 0xaa) 28 0x01020304 (some [0x76, 0x70, 0x6e, 0x30])) 7 =
    some [72, 0, 0, 0, 28, 0, 5, 0, 7, 0, 0, 0, 0, 0, 0, 0, 5, 1, 0, 0,
      8, 0, 9, 0, 4, 3, 2, 1, 8, 0, 11, 0, 1, 0, 0, 0, 8, 0, 12, 0, 1, 0, 0, 0, 6, 0, 1, 0, 5, 0, 0, 0, 5, 0, 5, 0, 0, 0, 0, 0,
      9, 0, 8, 0, 0x76, 0x70, 0x6e, 0x30, 0, 0, 0, 0] := by decide +kernel

-- with a buffer that is too small, the message would be written outside of it
example : finish (sessionGetReq (List.replicate 35 0xaa) 28 1) 7 = none := by decide +kernel

/-! ## C94: answers are read safely -/

/-- Messages of any contents are read without an access outside of the buffer, and in finitely many steps; an interface name is always
terminated. Missing: messages whose length field is at least 2^31, see `C94_hang_false` and `C94_oob_false`. -/
theorem C94_safe_partial (cb : Option Cb) {b : Bytes} {len : Nat} (seq portid : Nat) (s : St) (hl : len ≤ b.length) (hb4 : b.length % 4 = 0)
    (hb : b.length < 1073741824) (H : ∀ off n, off % 4 = 0 → off + 16 ≤ len → rd32 b off = some n → n < 2147483648) :
    ∃ r s', cbRun cb b len seq portid (len + 1) s = .done r s' ∧ (r = 1 ∨ r = 0 ∨ r = -1) ∧
      (s.ifname.length = 16 ∧ s.ifname.getLast? = some 0 → s'.ifname.length = 16 ∧ s'.ifname.getLast? = some 0) := by
  unfold cbRun
  rw [int32_eq (by omega) (by omega)]
  exact cbLoop_safe cb seq portid hl hb4 hb H (len + 1) 0 len 1 s (by omega) (by omega) (by omega) (by omega) (by omega) (.inl rfl)

/-- A message of 16 bytes with a wrong length -/
def endless : Bytes := [0xfd, 0xff, 0xff, 0xff, 1, 0, 0, 0, 0, 0, 0, 0, 0, 0, 0, 0]

theorem endless_loop (seq portid : Nat) (l : Bytes) : ∀ (fuel : Nat) (ret : Int) (s : St),
    cbLoop none (endless ++ l) seq portid fuel 0 16 ret s = .fuel := by
  intro fuel
  induction fuel with
  | zero => exact fun _ _ => rfl
  | succ fuel ih =>
    intro ret s
    have e0 : rd32 (endless ++ l) 0 = some 4294967293 := by simp [endless, rd32, rd16, rd8]
    have e12 : rd32 (endless ++ l) 12 = some 0 := by simp [endless, rd32, rd16, rd8]
    have e8 : rd32 (endless ++ l) 8 = some 0 := by simp [endless, rd32, rd16, rd8]
    have e6 : rd16 (endless ++ l) 6 = some 0 := by simp [endless, rd16, rd8]
    have e4 : rd16 (endless ++ l) 4 = some 1 := by simp [endless, rd16, rd8]
    have i1 : int32 ((4294967293 : Nat) : Int) = -3 := by decide
    have a1 : align32 4294967293 = 0 := by decide
    have i2 : int32 ((16 : Int) - ((0 : Nat) : Int)) = 16 := by decide
    rw [cbLoop, if_pos (by decide), e0]
    simp only
    rw [if_pos ⟨by decide, by rw [i1]; decide⟩]
    simp only [Nat.zero_add]
    rw [e12, e8, e6, e4]
    simp only
    rw [if_neg (by simp), if_neg (by simp), if_neg (by decide)]
    have hm : message none (endless ++ l) 0 1 s = some (.done 1 s) := by simp [message]
    rw [hm]
    simp only
    rw [if_neg (by decide), a1, i2]
    exact ih 1 s

/-- A message with a length of almost 2^32 is read forever. -/
theorem C94_hang_false (seq portid fuel : Nat) (s : St) (l : Bytes) : cbRun none (endless ++ l) 16 seq portid fuel s = .fuel :=
  endless_loop seq portid l fuel 1 s

/-- A message of 24 bytes with a wrong length, and an interface name that is longer than the buffer -/
def tooLong : Bytes := [4, 0, 0, 0x80, 28, 0, 0, 0, 0, 0, 0, 0, 0, 0, 0, 0, 8, 1, 0, 0, 0xff, 0xff, 8, 0]

/-- A message with a length of at least 2^31 can make the parser read outside of a buffer of 8 KiB. -/
theorem C94_oob_false (l : Bytes) (hl : l.length ≤ 8168) (seq portid fuel : Nat) (s : St) :
    cbRun (some .getIfname) (tooLong ++ l) 24 seq portid (fuel + 1) s = .oob := by
  have e0 : rd32 (tooLong ++ l) 0 = some 2147483652 := by simp [tooLong, rd32, rd16, rd8]
  have e12 : rd32 (tooLong ++ l) 12 = some 0 := by simp [tooLong, rd32, rd16, rd8]
  have e8 : rd32 (tooLong ++ l) 8 = some 0 := by simp [tooLong, rd32, rd16, rd8]
  have e6 : rd16 (tooLong ++ l) 6 = some 0 := by simp [tooLong, rd16, rd8]
  have e4 : rd16 (tooLong ++ l) 4 = some 28 := by simp [tooLong, rd16, rd8]
  have e20 : rd16 (tooLong ++ l) 20 = some 65535 := by simp [tooLong, rd16, rd8]
  have e22 : rd16 (tooLong ++ l) 22 = some 8 := by simp [tooLong, rd16, rd8]
  have i0 : int32 ((24 : Nat) : Int) = 24 := by decide
  have i1 : int32 ((2147483652 : Nat) : Int) = -2147483644 := by decide
  have hcb : attrCb .getIfname (tooLong ++ l) 20 s = none := by
    have ht : attrType (tooLong ++ l) 20 = some 8 := by unfold attrType; rw [e22]; rfl
    have hp : attrPayloadLen (tooLong ++ l) 20 = some 65531 := by unfold attrPayloadLen; rw [e20]; rfl
    have hr : rd8 (tooLong ++ l) (20 + 4 + (65531 - 1)) = none := by
      unfold rd8
      rw [List.getElem?_eq_none]
      · rfl
      · have : tooLong.length = 24 := rfl
        rw [List.length_append, this]; omega
    have hv : validateNulString (tooLong ++ l) 20 = none := by
      unfold validateNulString
      rw [hp]
      simp only [Option.bind_eq_bind, Option.bind_some]
      rw [if_neg (by decide), hr]
      rfl
    unfold attrCb
    rw [ht]
    simp only [Option.bind_eq_bind, Option.bind_some, if_true]
    rw [hv]
    rfl
  have htail : (0 : Nat) + align32 2147483652 = 2147483652 := by decide
  have hal : (0 : Nat) + 16 + align 4 = 20 := by decide
  have i2 : int32 (((2147483652 : Nat) : Int) - ((20 : Nat) : Int)) = 2147483632 := by decide
  have hp : attrParse .getIfname (tooLong ++ l) 0 s = .oob := by
    unfold attrParse
    rw [e0]
    simp only
    rw [htail, hal]
    unfold attrLoop
    simp only
    rw [i2, if_pos (by decide)]
    split
    · rfl
    · rename_i n hn
      rw [e20] at hn
      cases hn
      rw [if_pos (by decide), hcb]
  unfold cbRun
  rw [i0, cbLoop, if_pos (by decide), e0]
  simp only
  rw [if_pos ⟨by decide, by rw [i1]; decide⟩]
  simp only [Nat.zero_add]
  rw [e12, e8, e6, e4]
  simp only
  rw [if_neg (by simp), if_neg (by simp), if_neg (by decide)]
  have hm : message (some .getIfname) (tooLong ++ l) 0 28 s = some .oob := by simp [message, hp]
  rw [hm]

-- two messages, the first one with a family number, the second one an acknowledgement
example : cbRun (some .getFamily)
    [28, 0, 0, 0, 16, 0, 0, 0, 1, 0, 0, 0, 0, 0, 0, 0, 1, 2, 0, 0, 6, 0, 1, 0, 28, 0, 0, 0,
      36, 0, 0, 0, 2, 0, 0, 0, 1, 0, 0, 0, 0, 0, 0, 0, 0, 0, 0, 0, 20, 0, 0, 0, 16, 0, 5, 0, 1, 0, 0, 0, 0, 0, 0, 0] 64 1 0 65
    { errno := 5, family := none, ifname := [] } = .done 0 { errno := 0, family := some 28, ifname := [] } := by decide +kernel

/-! ## C95: answers belong to the request -/

/-- If the system answers as described by its interface, a request has exactly the result that the kernel has reported; no part of its
answers is left for the next request. -/
theorem C95_answer_partial {sys : Sys} {fuel : Nat} {req : Option Bytes} {cb : Option Cb} {family : Option Nat} {ifname : Bytes} {w : W} {m : Bytes}
    {ds : List Bytes} {data : List Msg} {a : Ack} (hr : ∀ p, sys.recvError p = none) (hst : ∀ p, (sys.stack p).length < 1073741824)
    (hm : finish req ((w.seq + 1) % 4294967296) = some m) (hans : sys.answer w.pos m = .ok ds)
    (ha : Answer cb ((w.seq + 1) % 4294967296) (sys.stack w.pos).length ds data a) (hq : w.queue = []) (hf : data.length < fuel) :
    ∃ b s w', doNl sys fuel req cb family ifname w = (.ok (b, s), w') ∧ (b = true ↔ a.error = 0) ∧ w'.errno = a.error ∧ w'.queue = [] ∧
      w'.log = (m, ds) :: w.log ∧
      (cb = some .getFamily → s.family = ((Spec.Netlink.attr (data.flatMap (·.attrs)) 1).map Spec.Netlink.num).or family ∧ s.ifname = ifname) ∧
      (cb = some .getIfname → s.ifname = ((Spec.Netlink.attr (data.flatMap (·.attrs)) 8).map name16).getD ifname ∧ s.family = family) := by
  refine ⟨_, _, _, doNl_eq hr hst hm hans ha hq hf, by simp, rfl, rfl, rfl, ?_, ?_⟩
  · rintro rfl; simp [seen, fold_family]
  · rintro rfl; simp [seen, fold_ifname]

/-- A request that could not be sent is taken for a successful one. -/
theorem C95_send_error_false {sys : Sys} {fuel : Nat} {req : Option Bytes} {cb : Option Cb} {family : Option Nat} {ifname : Bytes} {w : W} {m : Bytes}
    {e : Nat} (hm : finish req ((w.seq + 1) % 4294967296) = some m) (hans : sys.answer w.pos m = .error e) :
    ∃ s w', doNl sys fuel req cb family ifname w = (.ok (true, s), w') ∧ w'.log = w.log := ⟨_, _, doNl_error hm hans, rfl⟩

theorem doNlLoop_recvError (sys : Sys) (run : Bytes → Nat → St → Out) (fuel : Nat) (buf : Bytes) (s : St) (w : W) {e : Nat}
    (hr : sys.recvError w.pos = some (e, false)) :
    doNlLoop sys run (fuel + 1) buf s w = (.ok (true, { s with errno := e }), { w with pos := w.pos + 1, errno := e }) := by
  rw [doNlLoop]
  simp only [hr]
  rfl

/-- So is a request whose answer could not be received; the answer stays in the queue if the error does not remove it. -/
theorem C95_receive_error_false {sys : Sys} {fuel : Nat} {req : Option Bytes} {cb : Option Cb} {family : Option Nat} {ifname : Bytes} {w : W} {m : Bytes}
    {e : Nat} {ds : List Bytes} (hm : finish req ((w.seq + 1) % 4294967296) = some m) (hans : sys.answer w.pos m = .ok ds)
    (hr : sys.recvError (w.pos + 1) = some (e, false)) :
    ∃ s w', doNl sys (fuel + 1) req cb family ifname w = (.ok (true, s), w') ∧ w'.queue = w.queue ++ ds := by
  unfold doNl
  simp only [hm, hans]
  rw [doNlLoop_recvError sys _ _ _ _ _ hr]
  exact ⟨_, _, rfl, rfl⟩

/-! ## C96: sessions -/

/-- Setting up a session for a peer never reads or writes outside of a buffer, and never waits for an answer that does not come. It
either succeeds completely, as described by `Up`: there is a new socket, bound to the local address and connected to the peer; the
kernel has confirmed the session, and the interface that has got the configured MTU is the one the kernel has named. Or it leaves
nothing behind, as described by `Down`. It ends the process only if a socket cannot be created. -/
theorem C96_init {sys : Sys} {size : Nat} (hc : Conform sys size) {fuel : Nat} {p : Peer} {w : W} (hv : Valid w)
    (hn : ∀ n, p.ifname = some n → 0 ∉ n ∧ n.length ≤ 15) :
    (∃ s w', initSession sys fuel p w = (.ok (some s), w') ∧ Up sys p w s w') ∨
    (∃ w', initSession sys fuel p w = (.ok none, w') ∧ Down sys w w') ∨
    (∃ w', initSession sys fuel p w = (.error .exit, w')) ∨ (∃ w', initSession sys fuel p w = (.error .fuel, w')) := by
  have h := initSession_cases hc (fuel := fuel) hv hn
  unfold Holds at h
  cases e : initSession sys fuel p w with
  | mk x w' =>
    rw [e] at h
    match x, h with
    | .ok (some s), h => exact .inl ⟨s, w', rfl, h⟩
    | .ok none, h => exact .inr (.inl ⟨w', rfl, h⟩)
    | .error st, .inl h => cases h; exact .inr (.inr (.inl ⟨w', rfl⟩))
    | .error st, .inr h => cases h; exact .inr (.inr (.inr ⟨w', rfl⟩))

/-- Ending a session closes its socket and no other one, and asks the kernel to delete the session. -/
theorem C96_free {sys : Sys} {size : Nat} (hc : Conform sys size) {fuel : Nat} {s : Session} {w w' : W} (hv : Valid w)
    (hid : s.connId < 4294967296) {x : Unit} (h : freeSession sys fuel s w = (.ok x, w')) :
    w'.sk.fds s.fd = none ∧ (∀ n, n ≠ s.fd → w'.sk.fds n = w.sk.fds n ∧ w'.peers n = w.peers n) ∧ w'.queue = [] ∧ w'.family = w.family ∧
    (¬ SendError sys → ∃ e data err, w'.log = e :: w.log ∧ Entry w.family e (.sessionDelete s.connId 1) data err) := by
  have hd := sessionDelete_cases hc (fuel := fuel) hv hid
  unfold Holds at hd
  have he : freeSession sys fuel s = (sessionDelete sys fuel s.connId >>= fun _ => closeSocket s.fd) := rfl
  rw [he, bind_run] at h
  cases e : sessionDelete sys fuel s.connId w with
  | mk y w1 =>
    rw [e] at h hd
    cases y with
    | error _ => cases h
    | ok b =>
      obtain ⟨hk, hd⟩ := hd
      dsimp only at h
      rw [closeSocket_run] at h
      cases h
      have hsk : w1.sk = w.sk := hk.sk
      have hpe : w1.peers = w.peers := hk.peers
      refine ⟨by simp, fun n hn => ⟨by simp [hn, hsk], by simp [hn, hpe]⟩, hk.queue, hk.family, fun hns => ?_⟩
      rcases hd with ⟨_, _, h⟩ | ⟨e, data, err, h1, h2, _⟩
      · exact absurd h hns
      · exact ⟨e, data, err, h1, h2⟩

/-- A session follows its peer to a new address, unless the local address has changed. No request is made, and no other socket is
affected. -/
theorem C96_update {sys : Sys} {s : Session} {localAddr addr : Addr} {w w' : W} {b : Bool}
    (h : updateSession sys s localAddr addr w = (.ok b, w')) :
    w'.sk = w.sk ∧ w'.log = w.log ∧ (∀ n, n ≠ s.fd → w'.peers n = w.peers n) ∧
    (b = true → w'.peers s.fd = some addr ∧ ∃ a, s.bound = some a ∧ Daemon.addrEq localAddr a = true) ∧
    (b = false → w'.peers s.fd = w.peers s.fd) := by
  unfold updateSession at h
  cases hb : s.bound with
  | none => rw [hb] at h; cases h; simp
  | some a =>
    rw [hb] at h
    dsimp only at h
    by_cases he : Daemon.addrEq localAddr a = true
    · rw [if_pos he] at h
      have key : ∀ addr', (do
          let r ← next sys.connect
          match r with
          | some e => setErrno e; pure false
          | none => fun w => (.ok true, { w with peers := fun n => if n = s.fd then some addr' else w.peers n }) : M Bool) w = (.ok b, w') →
          w'.sk = w.sk ∧ w'.log = w.log ∧ (∀ n, n ≠ s.fd → w'.peers n = w.peers n) ∧
          (b = true → w'.peers s.fd = some addr') ∧ (b = false → w'.peers s.fd = w.peers s.fd) := by
        intro addr' h
        rw [bind_run] at h
        simp only [next] at h
        cases hcn : sys.connect w.pos with
        | some e => rw [hcn] at h; cases h; exact ⟨rfl, rfl, fun _ _ => rfl, (fun h => by cases h), fun _ => rfl⟩
        | none =>
          rw [hcn] at h; cases h
          exact ⟨rfl, rfl, fun n hn => by simp [hn], fun _ => by simp, fun h => by cases h⟩
      unfold connectSocket at h
      cases addr with
      | unspec _ => cases h
      | v4 ip port =>
        obtain ⟨h1, h2, h3, h4, h5⟩ := key _ h
        exact ⟨h1, h2, h3, fun hb => ⟨h4 hb, a, rfl, he⟩, h5⟩
      | v6 ip port flow scope =>
        obtain ⟨h1, h2, h3, h4, h5⟩ := key _ h
        exact ⟨h1, h2, h3, fun hb => ⟨h4 hb, a, rfl, he⟩, h5⟩
    · rw [if_neg he] at h
      cases h
      exact ⟨rfl, rfl, fun _ _ => rfl, (fun h => by cases h), fun _ => rfl⟩

/-! ## C97: the initialisation -/

/-- If sending never fails, then fastd starts with offloading only if the kernel has named the family `l2tp`, and has created a tunnel
and an Ethernet session in it and deleted the session again; the socket used for this is closed. -/
theorem C97_init_partial {sys : Sys} {size : Nat} (hc : Conform sys size) (hns : ¬ SendError sys) {fuel : Nat} {w w' : W} (hq : w.queue = [])
    (h16 : ∀ seq ds data a, Answer (some .getFamily) seq size ds data a →
      (Spec.Netlink.attr (data.flatMap (·.attrs)) 1).map Spec.Netlink.num ≠ some 16)
    {opened : Bool} {x : Unit} (h : init sys fuel opened w = (.ok x, w')) :
    opened = true ∧ w'.sk.fds = w.sk.fds ∧ w'.queue = [] ∧ ∃ (f : Nat) (e0 : Bytes × List Bytes) (data : List Msg) (id fd : Nat) (e1 e2 e3 : Bytes × List Bytes)
      (l : List (Bytes × List Bytes)) (d1 d2 d3 : List Msg), w'.log = e3 :: e2 :: e1 :: l ++ e0 :: w.log ∧
      (∃ msg a, decode e0.1 = some msg ∧ Spec.Netlink.control msg = some (.getFamily [0x6c, 0x32, 0x74, 0x70]) ∧
        e0.2 = data.map encode ++ [encodeAck a] ∧ (Spec.Netlink.attr (data.flatMap (·.attrs)) 1).map Spec.Netlink.num = some f) ∧
      w'.family = f ∧ 0 < id ∧ id < 4294967296 ∧ w.sk.fds fd = none ∧ Entry f e1 (.tunnelCreate id 1 3 fd) d1 0 ∧
      Entry f e2 (.sessionCreate id 1 1 none) d2 0 ∧ Entry f e3 (.sessionDelete id 1) d3 0 := by
  unfold init at h
  cases opened with
  | false => cases h
  | true =>
    refine ⟨rfl, ?_⟩
    have hf := family_cases hc (fuel := fuel) (name := genlName) hq (by decide) (by decide)
    unfold Holds at hf
    simp only [if_true] at h
    rw [bind_run] at h
    cases e : genlGetFamilyId sys fuel genlName w with
    | mk y w1 =>
      rw [e] at h hf
      cases y with
      | error _ => cases h
      | ok o =>
        obtain ⟨hk, hf⟩ := hf
        rcases hf with ⟨_, _, hs⟩ | ⟨p, m, msg, ds, data, a, g1, g2, g3, g4, g5, g6⟩
        · exact absurd hs hns
        · cases o with
          | none => cases h
          | some f =>
            have hf16 : f < 65536 := by
              cases hat : Spec.Netlink.attr (data.flatMap (·.attrs)) 1 with
              | none => rw [hat] at g6; cases g6
              | some pl =>
                rw [hat] at g6
                cases g6
                unfold Spec.Netlink.attr at hat
                cases hfd : (data.flatMap (·.attrs)).reverse.find? (fun a => decide (a.type % 16384 = 1)) with
                | none => rw [hfd] at hat; cases hat
                | some at1 =>
                  rw [hfd] at hat
                  cases hat
                  have hmem := List.mem_of_find?_eq_some hfd
                  have hty := List.find?_some hfd
                  simp only [List.mem_reverse, List.mem_flatMap] at hmem
                  obtain ⟨dm, hdm, hat1⟩ := hmem
                  have := (g4.data dm hdm).good .getFamily rfl at1 hat1 (by simpa using hty)
                  have hlt := num_lt at1.payload
                  rw [this] at hlt
                  exact hlt
            have hmod : f % 65536 = f := Nat.mod_eq_of_lt hf16
            have hv : Valid { w1 with family := f % 65536 } :=
              ⟨hk.queue, by show f % 65536 < _; omega, by
                show f % 65536 ≠ 16
                rw [hmod]
                rintro rfl
                exact h16 _ _ _ _ g4 g6.symm⟩
            have hst := selftest_cases hc hns (fuel := fuel) hv
            unfold Holds at hst
            have h' : selftest sys fuel { w1 with family := f % 65536 } = (.ok x, w') := h
            rw [h'] at hst
            obtain ⟨s1, s2, s3, id, fd, e1, e2, e3, l, d1, d2, d3, s4, s5, s6, s7, s8, s9, s10, _⟩ := hst
            dsimp only at s1 s2 s3 s4 s7 s8 s9 s10
            rw [hmod] at s3 s8 s9 s10
            rw [hk.sk] at s1 s7
            exact ⟨s1, s2, f, (m, ds), data, id, fd, e1, e2, e3, l, d1, d2, d3, by rw [s4, g5], ⟨msg, a, g1, g2, g4.eq, g6.symm⟩, s3, s5, s6,
              s7, s8, s9, s10⟩

/-! ## Examples -/

namespace Demo

/-- The kernel's answer to a request: L2TP has the number 28, and the interface is called "l2tpeth0". -/
def data (msg : Msg) : List Msg :=
  if msg.type = 16 then
    [{ type := 16, flags := 0, seq := msg.seq, pid := 0, cmd := 1, version := 2, attrs := [⟨2, [0x6c, 0x32, 0x74, 0x70, 0]⟩, ⟨1, [28, 0]⟩] }]
  else if msg.cmd = 8 then
    [{ type := 28, flags := 0, seq := msg.seq, pid := 0, cmd := 8, version := 1,
       attrs := [⟨9, [1, 2, 3, 4]⟩, ⟨8, [0x6c, 0x32, 0x74, 0x70, 0x65, 0x74, 0x68, 0x30, 0]⟩] }]
  else []

def ack (msg : Msg) (m : Bytes) (error : Nat) : Ack :=
  { flags := 0x100, seq := msg.seq, pid := 0, error := error, orig := m.take 16 ++ List.replicate (16 - (m.take 16).length) 0 }

/-- Sockets: the descriptor is 5 or more. -/
def netSys : Net.Sys :=
  { usePktinfo := true, useFreebind := false, useBindToDevice := true, usePmtu := true, usePacketMark := true, packetMark := 0, offload := true
    ifIndex := fun _ => 0, tape := fun p => some (5 + p % 1000) }

/-- A system on which `fails` decides about the errors reported for requests -/
def sys (fails : Nat → Msg → Except Nat Nat) : Sys :=
  { net := netSys
    stack := fun _ => List.replicate 128 0xaa
    answer := fun p m =>
      match decode m with
      | none => .ok []
      | some msg =>
        match fails p msg with
        | .error e => .error e
        | .ok e => .ok ((if e = 0 then data msg else []).map encode ++ [encodeAck (ack msg m e)])
    recvError := fun _ => none
    random := fun p => 1000 + p
    connect := fun _ => none
    setMtu := fun _ => none }

def w0 : W :=
  { sk := { fds := fun _ => none, pos := 0 }, peers := fun _ => none, queue := [], seq := 4294967294, family := 28, errno := 0, pos := 0, log := []
    mtus := [] }

def peer : Peer :=
  { localAddr := .v4 #v[192, 0, 2, 1] 10000, addr := .v4 #v[192, 0, 2, 2] 10001, bindtodev := none, ifname := some [0x76, 0x70, 0x6e, 0x30]
    mtu := 1406 }

theorem seq_lt {m : Bytes} {msg : Msg} (h : decode m = some msg) : msg.seq < 4294967296 := by
  unfold decode at h
  by_cases hc : m.length < 20 ∨ Spec.Netlink.num (m.take 4) ≠ m.length
  · rw [if_pos hc] at h; cases h
  · rw [if_neg hc] at h
    cases ha : Spec.Netlink.attrs (m.drop 20) with
    | none => rw [ha] at h; cases h
    | some as =>
      rw [ha] at h
      cases h
      have := num_lt ((m.drop 8).take 4)
      have hl : ((m.drop 8).take 4).length ≤ 4 := by simp; omega
      have hp := Nat.pow_le_pow_right (n := 256) (by decide) hl
      show Spec.Netlink.num _ < _
      exact Nat.lt_of_lt_of_le this hp

/-- The assumptions about the system are satisfied by this one. -/
theorem conform {fails : Nat → Msg → Except Nat Nat} (h : ∀ p msg e, fails p msg = .ok e → e < 4096) : Conform (sys fails) 128 := by
  refine ⟨fun _ => rfl, fun _ => by simp [sys], by decide, fun p n hn => ?_, ?_⟩
  · simp [sys, netSys] at hn; omega
  · intro p m msg ds hd ha
    have hs := seq_lt hd
    simp only [sys, hd] at ha
    cases hf : fails p msg with
    | error e => rw [hf] at ha; cases ha
    | ok e =>
      rw [hf] at ha
      cases ha
      refine ⟨_, _, rfl, ?_, ⟨by simp [ack], hs, by simp [ack], h p msg e hf, by simp [ack]; omega⟩, rfl, ?_⟩
      · intro d hd'
        by_cases he : e = 0
        · rw [if_pos he] at hd'
          unfold data at hd'
          by_cases h16 : msg.type = 16
          · rw [if_pos h16] at hd'
            simp only [List.mem_singleton] at hd'
            subst hd'
            refine ⟨⟨by simp, by simp, hs, by simp, by simp, by simp, ?_, by simp; decide⟩, by simp, by simp, rfl, ?_, ?_⟩
            · simp [Spec.Netlink.AttrOk]
            · rw [Spec.Netlink.encode_length]; simp; decide
            · intro c hc; rw [if_pos h16] at hc; cases hc; simp [good]
          · rw [if_neg h16] at hd'
            by_cases h8 : msg.cmd = 8
            · rw [if_pos h8] at hd'
              simp only [List.mem_singleton] at hd'
              subst hd'
              refine ⟨⟨by simp, by simp, hs, by simp, by simp, by simp, ?_, by simp; decide⟩, by simp, by simp, rfl, ?_, ?_⟩
              · simp [Spec.Netlink.AttrOk]
              · rw [Spec.Netlink.encode_length]; simp; decide
              · intro c hc; rw [if_neg h16] at hc; cases hc; simp [good]
            · rw [if_neg h8] at hd'; cases hd'
        · rw [if_neg he] at hd'; cases hd'
      · simp [encodeAck, Spec.Netlink.bytes_length, ack]; omega

/-- Whether there is a result, and what has been requested -/
def summary {α : Type} (r : Except Stop (Option α) × W) : Option Bool × List (Option Req) :=
  (match r.1 with | .ok o => some o.isSome | .error _ => none,
    r.2.log.map fun e => (decode e.1).bind (l2tp 28))

-- everything succeeds; the first ID is in use
example : summary (initSession (sys fun p msg => .ok (if msg.cmd = 1 ∧ p < 6 then 17 else 0)) 8 peer w0) =
    (some true, [some (.sessionGet 1075 1), some (.sessionCreate 1075 1 1 (some [0x76, 0x70, 0x6e, 0x30])), some (.tunnelCreate 1075 1 3 5),
      some (.tunnelCreate 1080 1 3 5)]) := by decide +kernel

-- the session: the interface is the one named by the kernel
example : (match (initSession (sys fun _ _ => .ok 0) 8 peer w0).1 with | .ok (some s) => some s | _ => none) =
    some { fd := 5, bound := some (.v4 #v[192, 0, 2, 1] 10000), connId := 1080
           ifname := [0x6c, 0x32, 0x74, 0x70, 0x65, 0x74, 0x68, 0x30, 0, 0, 0, 0, 0, 0, 0, 0], mtu := 1406 } ∧
    (initSession (sys fun _ _ => .ok 0) 8 peer w0).2.peers 5 = some peer.addr := by decide +kernel

-- the session cannot be created: the socket is closed
example : summary (initSession (sys fun _ msg => .ok (if msg.cmd = 5 then 95 else 0)) 8 peer w0) =
    (some false, [some (.sessionCreate 1080 1 1 (some [0x76, 0x70, 0x6e, 0x30])), some (.tunnelCreate 1080 1 3 5)]) ∧
    (initSession (sys fun _ msg => .ok (if msg.cmd = 5 then 95 else 0)) 8 peer w0).2.sk.fds 5 = none := by decide +kernel

-- the MTU cannot be set: the session is deleted
example : summary (initSession { sys (fun _ _ => .ok 0) with setMtu := fun _ => some 22 } 8 peer w0) =
    (some false, [some (.sessionDelete 1080 1), some (.sessionGet 1080 1),
      some (.sessionCreate 1080 1 1 (some [0x76, 0x70, 0x6e, 0x30])), some (.tunnelCreate 1080 1 3 5)]) := by decide +kernel

-- the peer moves
example : (updateSession (sys fun _ _ => .ok 0) { fd := 5, bound := some (.v4 #v[192, 0, 2, 1] 10000), connId := 1, ifname := [], mtu := 0 }
    (.v4 #v[192, 0, 2, 1] 10000) (.v4 #v[192, 0, 2, 3] 10001) w0).2.peers 5 = some (.v4 #v[192, 0, 2, 3] 10001) ∧
    (updateSession (sys fun _ _ => .ok 0) { fd := 5, bound := some (.v4 #v[192, 0, 2, 1] 10000), connId := 1, ifname := [], mtu := 0 }
      (.v4 #v[192, 0, 2, 9] 10000) (.v4 #v[192, 0, 2, 3] 10001) w0).2.peers 5 = none := by decide +kernel

/-- Whether the initialisation succeeds -/
def isOk {α : Type} : Except Stop α → Bool
  | .ok _ => true
  | .error _ => false

example : isOk (init (sys fun _ _ => .ok 0) 8 true w0).1 = true ∧ (init (sys fun _ _ => .ok 0) 8 true { w0 with family := 0 }).2.family = 28 ∧
    (init (sys fun _ _ => .ok 0) 8 true w0).2.log.length = 4 := by decide +kernel

-- no support for L2TP in the kernel
example : isOk (init (sys fun _ _ => .ok 2) 8 true w0).1 = false := by decide +kernel

/-- The self-test succeeds although none of its requests has been sent. -/
theorem C97_selftest_false : ∃ sys size fuel w, Conform sys size ∧ w.queue = [] ∧ isOk (init sys fuel true w).1 = true ∧
    (init sys fuel true w).2.log.length = 1 := by
  refine ⟨sys fun _ msg => if msg.type = 16 then .ok 0 else .error 105, 128, 8, w0, conform fun p msg e h => ?_, rfl, by decide +kernel, by decide +kernel⟩
  by_cases h16 : msg.type = 16
  · rw [if_pos h16] at h; cases h; decide
  · rw [if_neg h16] at h; cases h

end Demo

end Fastd.L2tp
