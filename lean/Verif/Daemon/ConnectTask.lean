import Verif.Daemon.ConnectRecv

/-!
# A handshake between compatible peers: sending the first packet

Helper lemmas for C83.
-/

namespace Fastd.Daemon

set_option linter.unusedSectionVars false

open Handshake (controlHeader)

variable [Env]

/-- The bound socket used for packets to an address, if there is one. -/
def sockFor (p : Peer) (a : Addr) : Option Nat :=
  match p.sock with
  | some (.bound k) => some k
  | _ => match a with
    | .v4 .. => Env.sockV4
    | .v6 .. => Env.sockV6
    | .unspec _ => none

theorem noExit_resetSocket {c : Ctx} (hs : Sorted c.peers) {p : Peer} (hp : p ∈ c.peers) (hset : p.addr.isSet = true) {s : Nat}
    (hf : sockFor p p.addr = some s) : NoExit (resetSocket p.id) c := by
  unfold resetSocket
  have hg : getP p.id c = .ok (p, c) := by
    obtain ⟨a, c', h, h1, h2⟩ := must_getP (Q := fun a c' => a = p ∧ c' = c) hs hp rfl ⟨rfl, rfl⟩
    rw [h, h1, h2]
  refine noExit_bind (by unfold NoExit; rw [hg]; intro _ h; cases h) fun q c' h => ?_
  rw [hg] at h
  cases h
  rw [if_neg (by rw [hset]; simp)]
  split
  · exact noExit_of_ks Ks.pure _
  · rename_i hdyn
    have hnew : (match p.addr with | .v4 .. => Env.sockV4 | .v6 .. => Env.sockV6 | .unspec _ => none) = some s := by
      unfold Peer.sockDynamic at hdyn
      unfold sockFor at hf
      split at hf
      · rename_i k hk; rw [hk] at hdyn; simp at hdyn
      · exact hf
    refine noExit_bind (noExit_of_ks (ks_freeSocket _) _) fun _ c' _ => ?_
    cases ha : p.addr with
    | unspec => rw [ha] at hset; cases hset
    | v4 => rw [ha] at hnew; simp only [] at hnew ⊢; rw [hnew]; exact noExit_of_ks Ks.modP _
    | v6 => rw [ha] at hnew; simp only [] at hnew ⊢; rw [hnew]; exact noExit_of_ks Ks.modP _

theorem must_resetSocket {c : Ctx} {x y z : Nat → Prop} (h : Inv True x y z c) {p : Peer} (hp : p ∈ c.peers)
    (he : p.state ≠ .established) (hin : p.state ≠ .inactive) (hd : p.isDynamic = false) (hset : p.addr.isSet = true) {s : Nat}
    (hs : sockFor p p.addr = some s) {Q : Unit → Ctx → Prop}
    (hQ : ∀ c' socks, c' = { c with peers := updPeers c.peers p.id fun _ => { p with sock := some (.bound s) }, socks := socks } →
      Inv True x y z c' → ({ p with sock := some (.bound s) } : Peer) ∈ c'.peers → Q () c') :
    must (resetSocket p.id) Q c := by
  refine must_of_wp_at (noExit_resetSocket h.ids hp hset hs) ?_
  unfold resetSocket
  rw [wp_bind, wp_getP h.ids hp, if_neg (by rw [hset]; simp)]
  unfold sockFor at hs
  by_cases hdyn : p.sockDynamic = true
  · rw [if_neg (by rw [hdyn]; simp), wp_bind]
    have hnew : (match p.addr with | .v4 .. => Env.sockV4 | .v6 .. => Env.sockV6 | .unspec _ => none) = some s := by
      unfold Peer.sockDynamic at hdyn
      split at hs
      · rename_i k hk; rw [hk] at hdyn; cases hdyn
      · exact hs
    refine wp_freeSocket h.ids h.socks hp ?_
    refine wp_opaque fun c1 e1 => ?_
    have p1 : c1.peers = updPeers c.peers p.id fun _ => { p with sock := none } := by rw [e1]
    have hs1 : Sorted c1.peers := by
      rw [p1]; exact sorted_updPeers h.ids (by intro q _ hq; exact hq.symm)
    have hm1 : ({ p with sock := none } : Peer) ∈ c1.peers := by rw [p1]; exact mem_upd_self hp
    have new : wp True (newSocket p.id (some s)) Q c1 := by
      unfold newSocket
      simp only []
      refine (wp_modP (p := { p with sock := none }) hs1 hm1 rfl).2 ?_
      rw [p1, updPeers_updPeers (by intro q _ hq; exact hq.symm), e1]
      refine hQ _ (dropSock p.sock c.socks) ?_ (h.sock hp he (fun h => absurd h hin) (fun h => by rw [hd] at h; cases h)
        (h.socks.drop (q := { p with sock := some (.bound s) }) hp rfl fun n h => (by simp at h))) (mem_upd_self hp)
      rfl
    cases ha : p.addr with
    | unspec => rw [ha] at hset; cases hset
    | v4 => rw [ha] at hnew; simp only [] at hnew ⊢; rw [hnew]; exact new
    | v6 => rw [ha] at hnew; simp only [] at hnew ⊢; rw [hnew]; exact new
  · rw [if_pos (by simpa using hdyn), wp_pure]
    have : p.sock = some (.bound s) := by
      unfold Peer.sockDynamic at hdyn
      split at hs
      · rename_i k hk
        rw [hk, Option.some.inj hs]
      · rename_i hk
        split at hdyn
        · rename_i k h'; exact absurd h' (hk k)
        · exact absurd rfl hdyn
    have e : ({ p with sock := some (.bound s) } : Peer) = p := by rw [← this]
    have e' : c = { c with peers := updPeers c.peers p.id fun _ => { p with sock := some (.bound s) }, socks := c.socks } := by
      rw [e, updPeers_self h.ids hp]
    refine hQ c c.socks e' h (by rw [e]; exact hp)

theorem must_send {c : Ctx} (hE : EnvOk) {s : Nat} {loc rem : Addr} (hset : rem.isSet = true) {peer : Option Nat} {d : Bytes}
    {Q : Unit → Ctx → Prop} (hQ : Q () { c with log := c.log ++ [.send (.bound s) loc rem peer d], pos := c.pos + 1 }) :
    must (send (some (.bound s)) loc rem peer d) Q c := by
  refine ⟨(), _, ?_, hQ⟩
  unfold send
  simp only [hset, Bool.not_true, Bool.false_eq_true, if_false, hE.noErr, Bool.and_false]
  rfl

/-- The number of the key after maintenance. -/
def serialAfter (ks : Protocol.HKeys Nat) (now : Time) : Nat :=
  if ks.cur.preferredTill ≤ now then ks.cur.serial + 1 else ks.cur.serial

theorem maintained_serial {c : Ctx} : (maintained c).keys.cur.serial = serialAfter c.keys c.now := by
  unfold maintained Protocol.HKeys.maintenance Protocol.HKey.preferred timedOut serialAfter
  by_cases hp : c.keys.cur.preferredTill ≤ c.now
  · simp only [hp, decide_true, Bool.not_true, Bool.not_false, if_true]
  · simp [hp]

/-- What `handshakeInit` does when nothing fails. -/
theorem must_handshakeInit {c : Ctx} {x y z : Nat → Prop} (h : Inv True x y z c) (hE : EnvOk) (hk : KeysOk c.keys c.now)
    {p : Peer} (hp : p ∈ c.peers) {s : Nat} {loc rem : Addr} (hset : rem.isSet = true) {Q : Unit → Ctx → Prop}
    (hQ : ∀ pkt c' ks n, initPacket (some p.key) (Env.pub ks.cur.key) = some pkt → ks.cur.serial ≠ 0 → c.now < ks.cur.preferredTill →
      ks.cur.serial = serialAfter c.keys c.now →
      c' = { c with
        keys := ks, pos := n
        log := c.log ++ [.hsInit (some p.id) rem, .send (.bound s) loc rem (some p.id) pkt,
          .send (.bound s) loc rem (some p.id) (controlHeader ++ pkt)] } → Q () c') :
    must (handshakeInit (.bound s) loc rem (some p.id)) Q c := by
  obtain ⟨_, hk2, hk3⟩ := hk.maintenance (Env.tape c.pos)
  unfold handshakeInit
  refine must_bind (must_ok (c' := maintained c) rfl ?_)
  have hp1 : p ∈ (maintained c).peers := hp
  unfold peerKeyOf
  simp only []
  refine must_bind (must_bind (must_getP (c := maintained c) h.ids hp1 rfl (must_pure (must_bind (must_get ?_)))))
  obtain ⟨pkt, hpkt⟩ : ∃ pkt, initPacket (some p.key) (Env.pub (maintained c).keys.cur.key) = some pkt :=
    Option.isSome_iff_exists.1 (initPacket_fits (k := some p.key) hE (fun a ha => by cases ha; exact (h.peer p hp).key) _)
  rw [hpkt]
  refine must_bind (must_ok (a := pkt) (c' := maintained c) rfl (must_bind (must_ok (a := ()) rfl ?_)))
  unfold sendHandshakePkt
  show must (forEach _ [pkt, controlHeader ++ pkt]) Q _
  unfold forEach
  refine must_bind (must_send hE hset ?_)
  unfold forEach
  refine must_bind (must_send hE hset ?_)
  unfold forEach
  refine must_pure (hQ pkt _ (maintained c).keys ((maintained c).pos + 1 + 1) hpkt hk2 hk3 maintained_serial ?_)
  simp only [maintained, List.append_assoc, List.cons_append, List.nil_append]

/-- The peer to which a first packet is to be sent: a configured peer that is not connected, and no other peer uses the
address. -/
structure Target (c : Ctx) (p : Peer) (k : Nat) (a : Addr) (s : Nat) : Prop where
  mem : p ∈ c.peers
  static : p.cfg = .static
  idle : p.state ≠ .established
  next : p.nextRemote = some k
  addr : ∃ r, p.remotes[k]? = some r ∧ r.addrs[r.cur]? = some a
  free : ∀ q ∈ c.peers, q.id ≠ p.id → q.isEnabled = true → addrEq q.addr a = false ∧ ownsAddress q a = false
  sock : sockFor p a = some s
  /-- no handshake was sent to the address in the last 15 s -/
  recent : timedOut p.lastHsTimeout c.now = true ∨ addrEq a p.lastHsAddr = false

theorem Target.enabled {c : Ctx} {p : Peer} {k : Nat} {a : Addr} {s : Nat} (ht : Target c p k a s) : p.isEnabled = true := by
  unfold Peer.isEnabled; rw [ht.static]

theorem Target.notDyn {c : Ctx} {p : Peer} {k : Nat} {a : Addr} {s : Nat} (ht : Target c p k a s) : p.isDynamic = false := by
  unfold Peer.isDynamic; rw [ht.static]; rfl

theorem Target.active {c : Ctx} {p : Peer} {k : Nat} {a : Addr} {s : Nat} (ht : Target c p k a s) {x z : Nat → Prop}
    (h : Inv True x nobody z c) : p.state ≠ .inactive := by
  intro hs
  have := (h.act p ht.mem (fun h => h)).1 hs
  rw [ht.enabled] at this
  cases this

/-- The target after the handshake was sent. -/
def aimed (p : Peer) (a : Addr) (s : Nat) (now : Time) : Peer :=
  { p with addr := a, sock := some (.bound s), lastHsTimeout := now + MIN_HANDSHAKE_INTERVAL, lastHsAddr := a }

theorem must_sendFirst {c : Ctx} {z : Nat → Prop} (h : Inv True nobody nobody z c) (hE : EnvOk) (hk : KeysOk c.keys c.now)
    {p : Peer} {k : Nat} {a : Addr} {s : Nat} (ht : Target c p k a s) {Q : Unit → Ctx → Prop}
    (hQ : ∀ pkt c' ks n ht socks, initPacket (some p.key) (Env.pub ks.cur.key) = some pkt → ks.cur.serial ≠ 0 →
      c.now < ks.cur.preferredTill → ks.cur.serial = serialAfter c.keys c.now → aimed p a s c.now ∈ c'.peers →
      c' = { c with
        peers := updPeers c.peers p.id fun _ => aimed p a s c.now
        keys := ks, pos := n, ht := ht, socks := socks
        log := c.log ++ [.hsInit (some p.id) a, .send (.bound s) p.localAddr a (some p.id) pkt,
          .send (.bound s) p.localAddr a (some p.id) (controlHeader ++ pkt)] } → Q () c') :
    must (sendHandshake p.id (some k)) Q c := by
  have hst := ht.active h
  have hpk := h.peer p ht.mem
  obtain ⟨r, hr, ha⟩ := ht.addr
  have hset : a.isSet = true := (hpk.addrs r (List.mem_of_getElem? hr)).1 _ (List.mem_of_getElem? ha)
  have hne : ¬ r.addrs.length = 0 := by
    intro h0
    rw [List.length_eq_zero_iff.1 h0] at ha
    cases ha
  unfold sendHandshake
  refine must_bind ?_
  unfold chooseAddress
  refine must_bind (must_getP h.ids ht.mem rfl ?_)
  rw [if_neg (by simpa [Peer.isEstablished] using ht.idle)]
  refine must_bind (must_ok (a := k) (c' := c) rfl ?_)
  refine must_bind ?_
  unfold getR
  refine must_bind (must_getP h.ids ht.mem rfl ?_)
  simp only [hr]
  refine must_pure ?_
  rw [if_neg hne, ha]
  refine must_bind (must_ok (a := a) (c' := c) rfl (must_bind ?_))
  unfold claimAddress
  rw [hset, if_neg (by simp)]
  refine must_bind (must_get ?_)
  rw [claimScan_free_of ht.free]
  simp only []
  have hfree : ∀ r ∈ c.peers, r.id ≠ p.id → addrEq r.addr a = false := by
    intro r hr hne
    cases he : r.isEnabled with
    | true => exact (ht.free r hr hne he).1
    | false =>
      have hin := (h.act r hr (fun h => h)).2 he
      exact addrEq_unset hset ((h.peer r hr).inact hin).1
  refine must_of_wp (ks_claimFinish _ _ _ _) (wp_claimFinish h ht.mem rfl hset hst hfree
    (fun _ n hn => by cases hn) fun c1 htab n h1 hm1 e1 f1 => ?_)
  have hs1 : sockFor (claimed p none none a) a = some s := ht.sock
  refine must_bind (must_resetSocket (p := claimed p none none a) h1 hm1 ht.idle hst ht.notDyn hset hs1
    fun c2 socks e2 h2 hm2 => must_pure ?_)
  rw [if_neg (by simp)]
  refine must_bind (must_getP h2.ids hm2 rfl (must_bind (must_get ?_)))
  have n2 : c2.now = c.now := by rw [e2, e1]
  have k2 : c2.keys = c.keys := by rw [e2, e1]
  simp only []
  rw [if_neg (by show ¬ ((!a.isSet) = true); rw [hset]; simp), if_neg (by
    unfold recentHandshake
    rw [n2]
    show ¬ ((!timedOut p.lastHsTimeout c.now && addrEq a p.lastHsAddr) = true)
    rcases ht.recent with h | h <;> simp [h])]
  refine must_bind (must_of_wp Ks.modP (wp_modP_same h2 hm2 rfl rfl rfl rfl rfl ⟨rfl, rfl, fun _ => rfl⟩ rfl rfl rfl rfl rfl (fun h => h)
        (fun h => h) (fun _ _ _ => Int.le_refl _) fun c3 e3 h3 hm3 f3 => ?_))
  have p3 : c3.peers = updPeers c.peers p.id fun _ => aimed p a s c.now := by
    rw [e3]
    show updPeers c2.peers p.id _ = _
    rw [e2]
    show updPeers (updPeers c1.peers p.id _) p.id _ = _
    rw [e1, updPeers_updPeers (by intro _ _ h; exact h.symm), updPeers_updPeers (by intro _ _ h; exact h.symm)]
    rfl
  have hm3' : aimed p a s c.now ∈ c3.peers := by rw [p3]; exact mem_upd_self ht.mem
  refine must_handshakeInit (p := aimed p a s c.now) h3 hE (by rw [e3]; show KeysOk c2.keys c2.now; rw [k2, n2]; exact hk) hm3' hset
    fun pkt c4 ks n' hpkt hser hpref hnext e4 => ?_
  have n3 : c3.now = c.now := by rw [e3]; exact n2
  have l3 : c3.log = c.log := by rw [e3, e2, e1]
  refine hQ pkt c4 ks n' htab socks hpkt hser (by rw [← n3]; exact hpref) (by rw [hnext, n3, e3]; show serialAfter c2.keys _ = _; rw [k2]) (by rw [e4]; exact hm3') ?_
  rw [e4, l3, p3, e3, e2, e1]
  rfl

/-- The target after the task. -/
structure Tasked (p q : Peer) (a : Addr) (s : Nat) (now : Time) : Prop where
  eq : q = { aimed p a s now with state := .handshake, task := q.task, nextHs := q.nextHs, nextRemote := q.nextRemote, remotes := q.remotes }

theorem must_peerTask {c : Ctx} (h : Inv True nobody nobody nobody c) (hE : EnvOk) (hk : KeysOk c.keys c.now)
    {p : Peer} {k : Nat} {a : Addr} {s : Nat} (ht : Target c p k a s) (hres : c.now < p.resetTimeout) (hkeep : c.now < p.keepalive)
    (hdue : p.nextHs ≤ c.now) (hmay : mayConnect c.peers p = true) :
    must (peerTask p.id) (fun _ c' => ∃ pkt q, initPacket (some p.key) (Env.pub c'.keys.cur.key) = some pkt ∧ c'.keys.cur.serial ≠ 0 ∧
      c.now < c'.keys.cur.preferredTill ∧ c'.keys.cur.serial = serialAfter c.keys c.now ∧ c'.now = c.now ∧ c'.hasFloating = c.hasFloating ∧
      c'.peers = updPeers c.peers p.id (fun _ => q) ∧ Tasked p q a s c.now ∧
      c'.log = c.log ++ [.hsInit (some p.id) a, .send (.bound s) p.localAddr a (some p.id) pkt,
          .send (.bound s) p.localAddr a (some p.id) (controlHeader ++ pkt)]) c := by
  have hst := ht.active h
  have hpk := h.peer p ht.mem
  obtain ⟨r0, hr0, ha0⟩ := ht.addr
  have hrem : p.remotes ≠ [] := by
    intro h0
    rw [h0] at hr0
    cases hr0
  unfold peerTask
  refine must_bind (must_of_wp Ks.modP ?_)
  refine wp_modP_core (x' := nobody) (y' := nobody) (z' := (· = p.id)) h ht.mem rfl ⟨rfl, rfl, rfl, rfl, Iff.rfl, rfl, rfl⟩
    (fun _ _ => id) (fun _ _ => id) (fun _ _ h => h.elim) ?_ ?_ ?_ (fun hn => absurd rfl hn) fun c1 e1 h1 hp1 f1 => ?_
  · exact { hpk with inact := fun h => ⟨(hpk.inact h).1, (hpk.inact h).2.1, rfl⟩ }
  · exact h.act p ht.mem
  · exact h.timers p ht.mem
  have n1 : c1.now = c.now := by rw [e1]
  refine must_bind (must_getP h1.ids hp1 rfl (must_bind (must_get ?_)))
  rw [if_neg (by show ¬ (timedOut p.resetTimeout c1.now = true); rw [n1]; simpa [timedOut] using hres)]
  refine must_bind ?_
  unfold handleTaskKeepalive
  refine must_bind (must_getP h1.ids hp1 rfl (must_bind (must_get ?_)))
  rw [if_neg (by show ¬ (timedOut p.keepalive c1.now = true); rw [n1]; simpa [timedOut] using hkeep)]
  refine must_pure (must_bind ?_)
  unfold handleTaskDueHandshake
  refine must_bind (must_getP h1.ids hp1 rfl (must_bind (must_get ?_)))
  rw [if_pos (by show timedOut p.nextHs c1.now = true; rw [n1]; simpa [timedOut] using hdue)]
  unfold handleTaskHandshake
  refine must_bind (must_of_wp (ks_setNextHandshakeDefault _) ?_)
  unfold setNextHandshakeDefault setNextHandshake
  rw [wp_bind]
  refine wp_handshakeDefaultRand fun d _ _ => ?_
  have h0 := h1.pos (c1.pos + 1)
  rw [wp_bind, wp_get]
  have hpk1 := h1.peer _ hp1
  refine wp_modP_core (x' := nobody) (y' := nobody) (z' := (· = p.id)) h0 (p := { p with task := none }) hp1 rfl ⟨rfl, rfl, rfl, rfl, Iff.rfl, rfl, rfl⟩
    (fun _ _ => id) (fun _ _ => id) (fun _ _ => id) ?_ ?_ ?_ (fun hn => absurd rfl hn) fun c2 e2 h2 hp2 f2 => ?_
  · exact { hpk1 with hs := fun _ hr _ _ => absurd hr hrem }
  · exact h1.act _ hp1
  · exact fun he => absurd he ht.idle
  have n2 : c2.now = c.now := by rw [e2]; exact n1
  have k2 : c2.keys = c.keys := by rw [e2, e1]
  have p2 : c2.peers = updPeers c.peers p.id fun _ => { p with task := none, nextHs := c.now + d } := by
    rw [e2]
    show updPeers c1.peers p.id _ = _
    rw [e1, updPeers_updPeers (by intro _ _ h; exact h.symm)]
    rfl
  have e : ({ ({ p with task := none } : Peer) with nextHs := c1.now + d } : Peer) = { p with task := none, nextHs := c.now + d } := by rw [n1]
  have hp2' : ({ p with task := none, nextHs := c.now + d } : Peer) ∈ c2.peers := by rw [p2]; exact mem_upd_self ht.mem
  generalize hp' : ({ p with task := none, nextHs := c.now + d } : Peer) = q at *
  have hq : q = { p with task := none, nextHs := q.nextHs } := by rw [← hp']
  have hqi : q.id = p.id := by rw [hq]
  refine must_bind (must_getP h2.ids hp2' hqi (must_bind (must_get ?_)))
  rw [if_neg (by
    rw [p2, mayConnect_upd h.ids ht.mem (by rw [hq]) (by rw [hq]), hmay]
    simp), if_pos (by rw [hq, ht.next]; rfl)]
  have htq : Target c2 q k a s := by
    refine ⟨hp2', by rw [hq]; exact ht.static, by rw [hq]; exact ht.idle, by rw [hq]; exact ht.next, by rw [hq]; exact ht.addr, ?_,
      by rw [hq]; exact ht.sock, by rw [hq, n2]; exact ht.recent⟩
    intro r hr hne hen
    rw [p2] at hr
    rcases mem_upd hr with rfl | ⟨hr, hri⟩
    · exact absurd rfl hne
    · exact ht.free r hr hri hen
  have hnx : q.nextRemote = some k := by rw [hq]; exact ht.next
  rw [hnx]
  refine must_bind ?_
  rw [← hqi]
  refine must_sendFirst h2 hE (by rw [k2, n2]; exact hk) htq fun pkt c3 ks n htab socks hpkt hser hpref hnext hm3 e3 => ?_
  have p3 : c3.peers = updPeers c.peers p.id fun _ => aimed q a s c2.now := by
    rw [e3]
    show updPeers c2.peers q.id _ = _
    rw [p2, hqi, updPeers_updPeers (by intro _ _ h; exact hqi.trans h.symm)]
    rfl
  have hs3 : Sorted c3.peers := by rw [p3]; exact sorted_updPeers h.ids (by intro r _ hr; rw [hr]; exact hqi)
  refine must_of_wp (ks_advanceRemote _ _) (wp_advanceRemote (p := aimed q a s c2.now) hs3 hm3 rfl htq.idle ?_ htq.notDyn
    fun c4 q4 r4 _ hadv hone => ?_)
  · have : k < p.remotes.length := (List.getElem?_eq_some_iff.1 hr0).1
    rw [hq]; exact this
  obtain ⟨n4, e4⟩ := hone.eq
  have p4 : c4.peers = updPeers c.peers p.id fun _ => q4 := by
    rw [e4]
    show updPeers c3.peers q.id _ = _
    rw [p3, hqi, updPeers_updPeers (by intro _ _ h; exact hqi.trans h.symm)]
    rfl
  have hq4i : q4.id = p.id := hone.id.trans hqi
  have hm4 : q4 ∈ c4.peers := by rw [p4]; exact mem_upd_self ht.mem
  have hs4 : Sorted c4.peers := by rw [p4]; exact sorted_updPeers h.ids (by intro r _ hr; rw [hr]; exact hq4i)
  refine must_of_wp (ks_schedulePeerTask _) ?_
  show wp True (modP q.id scheduled) _ c4
  refine (wp_modP (p := q4) hs4 hm4 (hq4i.trans hqi.symm)).2 ?_
  have p5 : updPeers c4.peers q.id scheduled = updPeers c.peers p.id fun _ => scheduled q4 := by
    have : updPeers c4.peers q.id scheduled = updPeers c4.peers q.id fun _ => scheduled q4 := by
      rw [show q.id = q4.id from hqi.trans hq4i.symm]
      exact updPeers_const hs4 hm4
    rw [this, p4, hqi, updPeers_updPeers (by intro _ _ h; exact hq4i.trans h.symm)]
    rfl
  have k4 : c4.keys = ks := by rw [e4, e3]
  have n4' : c4.now = c.now := by rw [e4, e3]; exact n2
  refine ⟨pkt, scheduled q4, ?_, ?_, ?_, ?_, n4', ?_, by rw [hqi] at p5 ⊢; exact p5, ⟨?_⟩, ?_⟩
  · show initPacket (some p.key) (Env.pub c4.keys.cur.key) = _
    rw [k4, ← hpkt, hq]
  · show c4.keys.cur.serial ≠ 0
    rw [k4]; exact hser
  · show c.now < c4.keys.cur.preferredTill
    rw [k4, ← n2]; exact hpref
  · show c4.keys.cur.serial = _
    rw [k4, ← n2, ← k2]; exact hnext
  · show c4.hasFloating = _
    rw [e4, e3, e2, e1]
  · rw [scheduled_eq, hadv.peer, n2, hq]
    rfl
  · show c4.log = _
    rw [e4, e3]
    show c2.log ++ _ = _
    rw [show c2.log = c.log by rw [e2, e1], hq]

/-- A first packet is sent when the time for it has come, and the answer will be heard. -/
theorem must_task {c : Ctx} (hr : Reach fineEvent c) (hE : EnvOk) {p : Peer} {k : Nat} {a : Addr} {s : Nat} (ht : Target c p k a s)
    (hres : c.now < p.resetTimeout) (hkeep : c.now < p.keepalive) (hdue : p.nextHs ≤ c.now) (hmay : mayConnect c.peers p = true)
    (hint : timedOut p.estHsTimeout c.now = true) (hinf : c.now < timeoutInv) :
    (Event.task p.id).possible c ∧
    ∃ c' pkt q, handle (.task p.id) c = .ok ((), c') ∧ Reach fineEvent c' ∧
      initPacket (some p.key) (Env.pub c'.keys.cur.key) = some pkt ∧ c'.keys.cur.serial ≠ 0 ∧
      c.now < c'.keys.cur.preferredTill ∧ c'.keys.cur.serial = serialAfter c.keys c.now ∧ c'.now = c.now ∧
      Tasked p q a s c.now ∧ Hears c' q (.bound s) a ∧
      c'.log = c.log ++ [.hsInit (some p.id) a, .send (.bound s) p.localAddr a (some p.id) pkt,
          .send (.bound s) p.localAddr a (some p.id) (controlHeader ++ pkt)] := by
  have h := hr.fineInv hE
  obtain ⟨_, c', he, pkt, q, h1, h2, h3, h4, h5, h6, h7, h8, h9⟩ := must_peerTask h hE hr.keysOk ht hres hkeep hdue hmay
  have hposs : (Event.task p.id).possible c := by
    have hd := (deadline_le (p := p)).2.2
    obtain ⟨t, htk, htd⟩ := h.sched p ht.mem (fun h => h) (ht.active h) (by omega)
    exact ⟨p, ht.mem, rfl, t, htk, by omega⟩
  obtain ⟨r, hrk, hra⟩ := ht.addr
  have hset : a.isSet = true := ((h.peer p ht.mem).addrs r (List.mem_of_getElem? hrk)).1 _ (List.mem_of_getElem? hra)
  have hq := h8.eq
  have hqi : q.id = p.id := by rw [hq]; rfl
  refine ⟨hposs, c', pkt, q, he, .step hr hposs hinf he, h1, h2, h3, h4, h5, h8, ?_, h9⟩
  refine ⟨by rw [h7]; exact mem_upd_self ht.mem, by rw [hq]; exact ht.static, hset, .inl ?_, fun r hrm hne hen => ?_, ?_,
    by rw [hq, h5]; exact hint⟩
  · have : q.addr = a := by rw [hq]; rfl
    rw [this]
    exact addrEq_refl a
  · rw [h7] at hrm
    rcases mem_upd hrm with rfl | ⟨hr, hri⟩
    · exact absurd rfl hne
    · exact ht.free r hr hri hen
  · have hc : ∀ g, countEstablished c'.peers g = countEstablished c.peers g := by
      have hqs : q.state = .handshake := by rw [hq]
      have hqg : q.group = p.group := by rw [hq]; rfl
      have fw : List.Forall₂ (fun p p' : Peer => (p'.group = p.group ∧ (p'.state = .established → p.state = .established)) ∧
          (p.group = p'.group ∧ (p.state = .established → p'.state = .established))) c.peers c'.peers := by
        rw [h7]
        refine forall₂_updPeers (fun r hr hi => ?_) fun _ _ _ => ⟨⟨rfl, id⟩, rfl, id⟩
        rw [h.inj hr ht.mem hi]
        exact ⟨⟨hqg, fun h => by rw [hqs] at h; cases h⟩, hqg.symm, fun h => absurd h ht.idle⟩
      intro g
      exact Nat.le_antisymm (countEstablished_le (fw.imp fun _ _ h => h.1) g) (countEstablished_le (fw.imp fun _ _ h => h.2).flip g)
    have hqe : q.isEstablished = p.isEstablished := by
      have : p.isEstablished = false := by simpa [Peer.isEstablished] using ht.idle
      rw [this, hq]; rfl
    have hqg : q.group = p.group := by rw [hq]; rfl
    have := hmay
    unfold mayConnect at this ⊢
    simp only [hc]
    rw [hqe, hqg]
    exact this

end Fastd.Daemon
