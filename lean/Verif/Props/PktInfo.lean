import Verif.Net.PktInfoLemmas

/-!
# Properties C98 and C99: the addresses of datagrams

C98: the local address of a received datagram is the one that the kernel reports, whatever other control messages there are; control messages
are never read beyond their end. C99: a datagram is sent to the given address, from the given local address, it is tried again without
local address if this is refused, and it is counted exactly once.
-/

namespace Fastd.Net.PktInfo

open Fastd.Daemon (Addr linkLocal v4Mapped simplify widen)
open Fastd.Spec.Cmsg (Msg WritesAll Source pktinfo4 pktinfo6 readAll source)

/-! ## C98 -/

/-- **C98, safety**: whatever the kernel has written, nothing outside of it is read. -/
theorem C98_safe (bound : Addr) (r : Recv) : receive bound r ≠ .outside := by
  cases r with
  | error => exact fun h => by cases h
  | got data from_ ctl =>
    show (if data.length = 0 then Recd.dropped else _) ≠ _
    by_cases h : data.length = 0
    · rw [if_pos h]; exact fun h => by cases h
    · rw [if_neg h, handle_eq]
      have := controlLoop_safe ctl bound 0
      cases hc : controlLoop ctl bound 0 with
      | ok a => cases a <;> exact fun h => by cases h
      | outside => exact absurd hc this
      | hang => exact fun h => by cases h

/-- **C98, IPv4**: the first packet info of the kernel gives the local address, with the port that the socket is bound to. -/
theorem C98_v4 (bound from_ : Addr) (data : Bytes) (hd : data ≠ []) (ms ms' : List Msg) (ifindex : Nat) (spec : Bytes) (hs : spec.length = 4)
    (addr : Vector UInt8 4) (ctl : Bytes) (hw : WritesAll (ms ++ pktinfo4 ifindex spec addr.toList :: ms') ctl)
    (hv : ∀ m ∈ ms ++ pktinfo4 ifindex spec addr.toList :: ms', m.Valid) (ho : ∀ m ∈ ms, m.Other) :
    receive bound (.got data from_ ctl) = .handled (.v4 addr (getPort bound)) (simplify from_) data := by
  obtain ⟨p, l, q, h1, -, h3⟩ := loop_skip ms _ ms' ctl hw hv ho bound []
  show (if data.length = 0 then Recd.dropped else _) = _
  rw [if_neg (by simpa using hd), handle_eq]
  have h3 : controlLoop ctl bound 0 = _ := h3
  rw [h3, loop_v4 ifindex spec hs addr h1]
  rfl

/-- **C98, IPv6**: likewise; the interface is part of link-local addresses only, and IPv4 addresses in IPv6 notation become IPv4 addresses. -/
theorem C98_v6 (bound from_ : Addr) (data : Bytes) (hd : data ≠ []) (ms ms' : List Msg) (ifindex : Nat) (hi : ifindex < 2 ^ 32)
    (addr : Vector UInt8 16) (ctl : Bytes) (hw : WritesAll (ms ++ pktinfo6 addr.toList ifindex :: ms') ctl)
    (hv : ∀ m ∈ ms ++ pktinfo6 addr.toList ifindex :: ms', m.Valid) (ho : ∀ m ∈ ms, m.Other) :
    receive bound (.got data from_ ctl) =
      .handled
        (if v4Mapped addr then .v4 #v[addr[12], addr[13], addr[14], addr[15]] (getPort bound)
         else .v6 addr (getPort bound) 0 (if linkLocal addr then UInt32.ofNat ifindex else 0))
        (simplify from_) data := by
  obtain ⟨p, l, q, h1, -, h3⟩ := loop_skip ms _ ms' ctl hw hv ho bound []
  show (if data.length = 0 then Recd.dropped else _) = _
  rw [if_neg (by simpa using hd), handle_eq]
  have h3 : controlLoop ctl bound 0 = _ := h3
  rw [h3, loop_v6 ifindex hi addr h1]
  rfl

/-- **C98, no packet info**: without it the datagram is ignored; nothing is assumed about the local address. -/
theorem C98_missing (bound from_ : Addr) (data : Bytes) (ms : List Msg) (ctl : Bytes) (hw : WritesAll ms ctl)
    (hv : ∀ m ∈ ms, m.Valid) (ho : ∀ m ∈ ms, m.Other) :
    receive bound (.got data from_ ctl) = .dropped := by
  show (if data.length = 0 then Recd.dropped else _) = _
  by_cases h : data.length = 0
  · rw [if_pos h]
  · rw [if_neg h, handle_eq]
    have := loop_none ms ctl hw hv ho bound []
    have this : controlLoop ctl bound 0 = _ := this
    rw [this]

/-- A timestamp before the packet info: `SO_TIMESTAMP` -/
example : ∃ ctl, WritesAll [⟨1, 29, List.replicate 16 7⟩, pktinfo4 3 [192, 0, 2, 1] [192, 0, 2, 1]] ctl ∧
    receive (.v4 #v[0, 0, 0, 0] 1000) (.got [1, 2] (.v4 #v[198, 51, 100, 1] 2000) ctl) =
      .handled (.v4 #v[192, 0, 2, 1] 1000) (.v4 #v[198, 51, 100, 1] 2000) [1, 2] := by
  refine ⟨_, .cons ⟨[], rfl, rfl⟩ (.cons ⟨[9, 9, 9, 9], rfl, rfl⟩ .nil), ?_⟩
  refine C98_v4 _ _ _ (by simp) [⟨1, 29, List.replicate 16 7⟩] [] 3 [192, 0, 2, 1] rfl #v[192, 0, 2, 1] _
    (.cons ⟨[], rfl, rfl⟩ (.cons ⟨[9, 9, 9, 9], rfl, rfl⟩ .nil)) ?_ ?_
  · intro m hm
    simp only [List.cons_append, List.nil_append, List.mem_cons, List.not_mem_nil, or_false] at hm
    rcases hm with rfl | rfl
    · exact ⟨by decide, by decide, by decide⟩
    · exact ⟨by decide, by decide, by decide⟩
  · intro m hm
    simp only [List.mem_cons, List.not_mem_nil, or_false] at hm
    subst hm
    exact ⟨by decide, by decide⟩

/-- An IPv4 packet on an IPv6 socket -/
example : receive (.v6 (Vector.replicate 16 0) 1000 0 0)
    (.got [1] (.v6 #v[0, 0, 0, 0, 0, 0, 0, 0, 0, 0, 0xff, 0xff, 198, 51, 100, 1] 2000 0 0)
      ([36, 0, 0, 0, 0, 0, 0, 0, 41, 0, 0, 0, 50, 0, 0, 0] ++ [0, 0, 0, 0, 0, 0, 0, 0, 0, 0, 0xff, 0xff, 192, 0, 2, 1] ++ [2, 0, 0, 0, 0, 0, 0, 0])) =
    .handled (.v4 #v[192, 0, 2, 1] 1000) (.v4 #v[198, 51, 100, 1] 2000) [1] := by decide +kernel

/-- The kernel never writes this, but the C library would not notice: a length that wraps around is an endless loop. -/
theorem C98_length_hang : receive (.v4 #v[0, 0, 0, 0] 1) (.got [1] (.v4 #v[198, 51, 100, 1] 2000)
    ([255, 255, 255, 255, 255, 255, 255, 255] ++ List.replicate 8 0)) = .hang := by decide +kernel

/-! ## C99 -/

/-- The calls of `sendmsg` -/
def calls (l : List Eff) : List (Addr × Bytes × Bytes) :=
  l.filterMap fun
    | .sendmsg n c d => some (n, c, d)
    | _ => none

/-- What is counted -/
def counts (l : List Eff) : List (Stat × Nat) :=
  l.filterMap fun
    | .stat s n => some (s, n)
    | _ => none

/-- The address to pass to the kernel: the socket and the address have to be of the same family. -/
def Dest (bound remote name : Addr) : Prop :=
  match bound, remote with
  | .v6 .., .v4 ip port =>
    name = .v6 #v[0, 0, 0, 0, 0, 0, 0, 0, 0, 0, 0xff, 0xff, ip[0], ip[1], ip[2], ip[3]] port 0 0
  | _, _ => name = remote

/-- Control messages that ask for a local address -/
def From (loc : Option Addr) (ctl : Bytes) : Prop :=
  match loc with
  | some (.v4 ip _) => ∃ m, readAll ctl = some [m] ∧ source m = some (.v4 ip.toList 0)
  | some (.v6 ip _ _ scope) =>
    ∃ m, readAll ctl = some [m] ∧ source m = some (.v6 ip.toList (if linkLocal ip then scope.toNat else 0))
  | _ => ctl = []

/-- Is there a local address? -/
def hasLocal : Option Addr → Bool
  | some (.v4 ..) => true
  | some (.v6 ..) => true
  | _ => false

theorem from_addPktinfo (loc : Option Addr) : From loc (addPktinfo loc) := by
  cases loc with
  | none => rfl
  | some a =>
    cases a with
    | unspec p => rfl
    | v4 ip p =>
      have hl : (leBytes 4 0 ++ ip.toList ++ leBytes 4 0).length = 12 := by
        simp only [leBytes_eq, List.length_append, bytes_length, Vector.length_toList]
      have := readAll_one ipprotoIp ipPktinfo (leBytes 4 0 ++ ip.toList ++ leBytes 4 0) (by decide) (by decide) (by omega)
      rw [hl] at this
      refine ⟨_, this, ?_⟩
      have h1 : (leBytes 4 0 ++ ip.toList ++ leBytes 4 0).take 4 = leBytes 4 0 := by
        simp [leBytes_eq, List.take_append, bytes_length, List.take_of_length_le]
      have h2 : ((leBytes 4 0 ++ ip.toList ++ leBytes 4 0).drop 4).take 4 = ip.toList := by
        simp [leBytes_eq, List.drop_append, List.take_append, bytes_length, List.take_of_length_le]
      unfold source
      simp only
      rw [if_pos ⟨rfl, rfl, hl⟩, h1, h2, leBytes_eq, num_bytes _ _ (by omega)]
    | v6 ip p f scope =>
      generalize hn : (if linkLocal ip then scope.toNat else 0) = n
      have hb : n < 2 ^ 32 := by have := scope.toNat_lt; subst hn; split <;> omega
      have hl : (ip.toList ++ leBytes 4 n).length = 20 := by
        simp only [leBytes_eq, List.length_append, bytes_length, Vector.length_toList]
      have := readAll_one ipprotoIpv6 ipv6Pktinfo (ip.toList ++ leBytes 4 n) (by decide) (by decide) (by omega)
      rw [hl] at this
      have h1 : (ip.toList ++ leBytes 4 n).take 16 = ip.toList := by
        rw [List.take_append_of_le_length (by simp), List.take_of_length_le (by simp)]
      have h2 : (ip.toList ++ leBytes 4 n).drop 16 = leBytes 4 n := by
        rw [List.drop_append, List.drop_of_length_le (by simp)]; simp
      show ∃ m, readAll (cmsgHdr ipprotoIpv6 ipv6Pktinfo 20 ++ (ip.toList ++ leBytes 4 (if linkLocal ip then scope.toNat else 0))) = some [m] ∧
        source m = some (.v6 ip.toList (if linkLocal ip then scope.toNat else 0))
      rw [hn]
      refine ⟨_, this, ?_⟩
      unfold source
      simp only
      rw [if_neg (fun h => by cases h.1), if_pos ⟨rfl, rfl, hl⟩, h1, h2, leBytes_eq, num_bytes _ _ (by omega)]

theorem addPktinfo_nil (loc : Option Addr) : addPktinfo loc = [] ↔ hasLocal loc = false := by
  cases loc with
  | none => simp [addPktinfo, hasLocal]
  | some a => cases a <;> simp [addPktinfo, hasLocal, cmsgHdr, leBytes]

theorem dest_widen (b remote : Addr) : Dest b remote (match b with | .v6 .. => widen remote | _ => remote) := by
  cases b <;> cases remote <;> rfl

/-- The whole result of `send` -/
theorem send_eq (b : Addr) (loc : Option Addr) (remote : Addr) (hr : remote.isSet = true) (peer : PeerArg) (data : Bytes) (size : Nat)
    (first second : Option Errno) :
    ∃ name, Dest b remote name ∧ send (some b) loc remote peer data size first second =
      (.sendmsg name (addPktinfo loc) data :: (again name (addPktinfo loc) data peer first second).1
        ++ (count peer size (again name (addPktinfo loc) data peer first second).2).1,
       (count peer size (again name (addPktinfo loc) data peer first second).2).2) := by
  refine ⟨_, dest_widen b remote, ?_⟩
  cases remote with
  | unspec p => cases hr
  | v4 => rfl
  | v6 => rfl

theorem again_cases (name : Addr) (ctl data : Bytes) (peer : PeerArg) (first second : Option Errno) :
    (ctl ≠ [] ∧ (first = some .inval ∨ first = some .netunreach) ∧
      again name ctl data peer first second = ((if peer = some false then [.schedule] else []) ++ [.sendmsg name [] data], second)) ∨
    (¬ (ctl ≠ [] ∧ (first = some .inval ∨ first = some .netunreach)) ∧ again name ctl data peer first second = ([], first)) := by
  cases first with
  | none => right; exact ⟨(fun h => by rcases h.2 with h | h <;> cases h), rfl⟩
  | some e =>
    by_cases h : ctl ≠ [] ∧ (e = .inval ∨ e = .netunreach)
    · left
      refine ⟨h.1, ?_, if_pos h⟩
      rcases h.2 with h | h
      · left; rw [h]
      · right; rw [h]
    · right
      refine ⟨fun h' => h ⟨h'.1, ?_⟩, if_neg h⟩
      rcases h'.2 with h' | h'
      · left; cases h'; rfl
      · right; cases h'; rfl

theorem stats_calls (peer : PeerArg) (size : Nat) (s : Stat) : calls (statsAdd peer s size).1 = [] := by
  unfold statsAdd
  split
  · rfl
  · cases peer <;> rfl

theorem count_calls (peer : PeerArg) (size : Nat) (r : Option Errno) : calls (count peer size r).1 = [] := by
  rcases r with - | e
  · exact stats_calls ..
  · cases e <;> exact stats_calls ..

/-- **C99, destination and source**: the datagram is passed to the kernel unchanged, for the address that it is to be sent to, and the first time with
the local address it is to be sent from. -/
theorem C99_addresses (b : Addr) (loc : Option Addr) (remote : Addr) (hr : remote.isSet = true) (peer : PeerArg) (data : Bytes) (size : Nat)
    (first second : Option Errno) :
    ∃ name ctl rest, calls (send (some b) loc remote peer data size first second).1 = (name, ctl, data) :: rest ∧
      Dest b remote name ∧ From loc ctl ∧
      rest = if hasLocal loc ∧ (first = some .inval ∨ first = some .netunreach) then [(name, [], data)] else [] := by
  obtain ⟨name, hd, he⟩ := send_eq b loc remote hr peer data size first second
  refine ⟨name, addPktinfo loc, calls (again name (addPktinfo loc) data peer first second).1, ?_, hd, from_addPktinfo loc, ?_⟩
  · rw [he]
    have h1 : ∀ x y : List Eff, calls (x ++ y) = calls x ++ calls y := fun x y => List.filterMap_append
    show calls ([.sendmsg name (addPktinfo loc) data] ++ (again name (addPktinfo loc) data peer first second).1 ++ _) = _
    rw [h1, h1, count_calls, List.append_nil]
    rfl
  · have hn : addPktinfo loc ≠ [] ↔ hasLocal loc = true := by
      rw [ne_eq, addPktinfo_nil]; cases hasLocal loc <;> simp
    rcases again_cases name (addPktinfo loc) data peer first second with ⟨h1, h2, h3⟩ | ⟨h1, h3⟩
    · rw [h3, if_pos (show hasLocal loc = true ∧ (first = some .inval ∨ first = some .netunreach) from ⟨hn.1 h1, h2⟩)]
      cases hp : decide (peer = some false) <;> simp_all [calls]
    · rw [h3, if_neg (fun h => h1 ⟨hn.2 h.1, h.2⟩)]
      rfl

/-- **C99, counting**: a packet with a peer is counted once, as sent if the last attempt succeeded, as dropped if the queue of the socket is full, and
as an error otherwise; and the daemon goes on. Packets of size 0 (handshakes) are not counted. -/
theorem C99_counts (b : Addr) (loc : Option Addr) (remote : Addr) (hr : remote.isSet = true) (peer : PeerArg) (data : Bytes) (size : Nat)
    (first second : Option Errno) (hp : size = 0 ∨ peer.isSome = true) :
    (send (some b) loc remote peer data size first second).2 = .done ∧
    counts (send (some b) loc remote peer data size first second).1 =
      if size = 0 then []
      else
        match (if hasLocal loc ∧ (first = some .inval ∨ first = some .netunreach) then second else first) with
        | none => [(.tx, size)]
        | some .again => [(.txDropped, size)]
        | some _ => [(.txError, size)] := by
  obtain ⟨name, -, he⟩ := send_eq b loc remote hr peer data size first second
  have hn : addPktinfo loc ≠ [] ↔ hasLocal loc = true := by
    rw [ne_eq, addPktinfo_nil]; cases hasLocal loc <;> simp
  have hlast : (again name (addPktinfo loc) data peer first second).2 =
      if hasLocal loc ∧ (first = some .inval ∨ first = some .netunreach) then second else first := by
    rcases again_cases name (addPktinfo loc) data peer first second with ⟨h1, h2, h3⟩ | ⟨h1, h3⟩
    · rw [h3, if_pos (show hasLocal loc = true ∧ (first = some .inval ∨ first = some .netunreach) from ⟨hn.1 h1, h2⟩)]
    · rw [h3, if_neg (fun h => h1 ⟨hn.2 h.1, h.2⟩)]
  have hag : counts (again name (addPktinfo loc) data peer first second).1 = [] := by
    rcases again_cases name (addPktinfo loc) data peer first second with ⟨-, -, h3⟩ | ⟨-, h3⟩ <;> rw [h3]
    · cases hp : decide (peer = some false) <;> simp_all [counts]
    · rfl
  have h1 : ∀ x y : List Eff, counts (x ++ y) = counts x ++ counts y := fun x y => List.filterMap_append
  rw [he, hlast]
  generalize (if hasLocal loc ∧ (first = some .inval ∨ first = some .netunreach) then second else first) = last
  refine ⟨?_, ?_⟩
  · show (count peer size last).2 = .done
    rcases hp with h | h
    · subst h
      rcases last with - | e
      · rfl
      · cases e <;> rfl
    · cases peer with
      | none => cases h
      | some p =>
        rcases last with - | e
        · show (statsAdd _ _ _).2 = _; unfold statsAdd; split <;> rfl
        · cases e <;> (show (statsAdd _ _ _).2 = _; unfold statsAdd; split <;> rfl)
  · show counts ([.sendmsg name (addPktinfo loc) data] ++ (again name (addPktinfo loc) data peer first second).1 ++ _) = _
    rw [h1, h1, hag]
    show counts (count peer size last).1 = _
    rcases hp with h | h
    · subst h
      rw [if_pos rfl]
      rcases last with - | e
      · rfl
      · cases e <;> rfl
    · cases peer with
      | none => cases h
      | some p =>
        rcases last with - | e
        · show counts (statsAdd _ _ _).1 = _; unfold statsAdd; split <;> rfl
        · cases e <;> (show counts (statsAdd _ _ _).1 = _; unfold statsAdd; split <;> rfl)

/-- **C99, replies**: what is sent from the local address of a received datagram is sent from the address that this datagram was sent to: over IPv4
on an IPv4 socket, -/
theorem C99_reply4 (bound from_ : Addr) (data reply : Bytes) (hd : data ≠ []) (ms ms' : List Msg) (ifindex : Nat) (spec : Bytes) (hs : spec.length = 4)
    (addr : Vector UInt8 4) (ctl : Bytes) (hw : WritesAll (ms ++ pktinfo4 ifindex spec addr.toList :: ms') ctl)
    (hv : ∀ m ∈ ms ++ pktinfo4 ifindex spec addr.toList :: ms', m.Valid) (ho : ∀ m ∈ ms, m.Other)
    (peer : PeerArg) (size : Nat) (first second : Option Errno) :
    ∃ loc remote, receive bound (.got data from_ ctl) = .handled loc remote data ∧
      (remote.isSet = true → ∃ name c rest m, calls (send (some bound) (some loc) remote peer reply size first second).1 = (name, c, reply) :: rest ∧
        readAll c = some [m] ∧ source m = some (.v4 addr.toList 0)) := by
  refine ⟨_, _, C98_v4 bound from_ data hd ms ms' ifindex spec hs addr ctl hw hv ho, fun hr => ?_⟩
  obtain ⟨name, c, rest, h1, -, ⟨m, h2, h3⟩, -⟩ := C99_addresses bound (some (.v4 addr (getPort bound))) (simplify from_) hr peer reply size first second
  exact ⟨name, c, rest, m, h1, h2, h3⟩

/-- over IPv6, on the same link if the address is link-local, -/
theorem C99_reply6 (bound from_ : Addr) (data reply : Bytes) (hd : data ≠ []) (ms ms' : List Msg) (ifindex : Nat) (hi : ifindex < 2 ^ 32)
    (addr : Vector UInt8 16) (hm : v4Mapped addr = false) (ctl : Bytes) (hw : WritesAll (ms ++ pktinfo6 addr.toList ifindex :: ms') ctl)
    (hv : ∀ m ∈ ms ++ pktinfo6 addr.toList ifindex :: ms', m.Valid) (ho : ∀ m ∈ ms, m.Other)
    (peer : PeerArg) (size : Nat) (first second : Option Errno) :
    ∃ loc remote, receive bound (.got data from_ ctl) = .handled loc remote data ∧
      (remote.isSet = true → ∃ name c rest m, calls (send (some bound) (some loc) remote peer reply size first second).1 = (name, c, reply) :: rest ∧
        readAll c = some [m] ∧ source m = some (.v6 addr.toList (if linkLocal addr then ifindex else 0))) := by
  refine ⟨_, _, C98_v6 bound from_ data hd ms ms' ifindex hi addr ctl hw hv ho, fun hr => ?_⟩
  rw [if_neg (by simp [hm])]
  obtain ⟨name, c, rest, h1, -, ⟨m, h2, h3⟩, -⟩ :=
    C99_addresses bound (some (.v6 addr (getPort bound) 0 (if linkLocal addr then UInt32.ofNat ifindex else 0))) (simplify from_) hr peer reply size first second
  refine ⟨name, c, rest, m, h1, h2, ?_⟩
  rw [h3]
  cases linkLocal addr with
  | false => rfl
  | true =>
    simp only [if_true]
    rw [UInt32.toNat_ofNat', Nat.mod_eq_of_lt hi]

/-- and over IPv4 on an IPv6 socket. -/
theorem C99_reply_mapped (bound from_ : Addr) (data reply : Bytes) (hd : data ≠ []) (ms ms' : List Msg) (ifindex : Nat) (hi : ifindex < 2 ^ 32)
    (addr : Vector UInt8 16) (hm : v4Mapped addr = true) (ctl : Bytes) (hw : WritesAll (ms ++ pktinfo6 addr.toList ifindex :: ms') ctl)
    (hv : ∀ m ∈ ms ++ pktinfo6 addr.toList ifindex :: ms', m.Valid) (ho : ∀ m ∈ ms, m.Other)
    (peer : PeerArg) (size : Nat) (first second : Option Errno) :
    ∃ loc remote, receive bound (.got data from_ ctl) = .handled loc remote data ∧
      (remote.isSet = true → ∃ name c rest m, calls (send (some bound) (some loc) remote peer reply size first second).1 = (name, c, reply) :: rest ∧
        readAll c = some [m] ∧ source m = some (.v4 [addr[12], addr[13], addr[14], addr[15]] 0)) := by
  refine ⟨_, _, C98_v6 bound from_ data hd ms ms' ifindex hi addr ctl hw hv ho, fun hr => ?_⟩
  rw [if_pos hm]
  obtain ⟨name, c, rest, h1, -, ⟨m, h2, h3⟩, -⟩ :=
    C99_addresses bound (some (.v4 #v[addr[12], addr[13], addr[14], addr[15]] (getPort bound))) (simplify from_) hr peer reply size first second
  exact ⟨name, c, rest, m, h1, h2, h3⟩

/-- A local address that has gone: the second attempt succeeds, a handshake is scheduled, and the packet is counted as sent. -/
example : send (some (.v6 (Vector.replicate 16 0) 1000 0 0)) (some (.v4 #v[192, 0, 2, 1] 1000)) (.v4 #v[198, 51, 100, 1] 2000) (some false) [1, 2, 3] 3
      (some .inval) none =
    ([.sendmsg (.v6 #v[0, 0, 0, 0, 0, 0, 0, 0, 0, 0, 0xff, 0xff, 198, 51, 100, 1] 2000 0 0)
        [28, 0, 0, 0, 0, 0, 0, 0, 0, 0, 0, 0, 8, 0, 0, 0, 0, 0, 0, 0, 192, 0, 2, 1, 0, 0, 0, 0] [1, 2, 3],
      .schedule,
      .sendmsg (.v6 #v[0, 0, 0, 0, 0, 0, 0, 0, 0, 0, 0xff, 0xff, 198, 51, 100, 1] 2000 0 0) [] [1, 2, 3],
      .stat .tx 3], .done) := by decide +kernel

/-- `hp` in `C99_counts` is needed: counting a packet without peer is a null pointer access. No caller does this. -/
example : (send (some (.v4 #v[0, 0, 0, 0] 1000)) none (.v4 #v[198, 51, 100, 1] 2000) none [1] 1 none none).2 = .null := by decide +kernel

end Fastd.Net.PktInfo
