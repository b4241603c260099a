import Verif.Offload.Session

/-!
# L2TP offload: lemmas about starting and ending sessions
-/

namespace Fastd.L2tp

open Fastd.Netlink
open Fastd.Spec.Netlink (Msg Ack Req encode encodeAck decode l2tp name16)
open Fastd.Daemon (Addr)
open Fastd.Config.Exec (Bind)

theorem opt_fd {sys : Net.Sys} {fd : Nat} {fd' : Nat} (cond : Bool) (f : Net.Sk → Net.Sk) (next : Net.M (Option Nat))
    (hn : ∀ k k', next k = (some (some fd'), k') → fd' = fd) (k k' : Net.K)
    (h : Net.opt sys cond fd f next k = (some (some fd'), k')) : fd' = fd := by
  unfold Net.opt at h
  cases cond with
  | false => exact hn k k' h
  | true =>
    simp only [if_true] at h
    rw [Net.bind_eq] at h
    cases e : Net.call sys fd f k with
    | mk r k1 =>
      rw [e] at h
      cases r with
      | none => cases h
      | some ok =>
        cases ok with
        | true => exact hn k1 k' h
        | false => cases h

theorem socket_fd {sys : Net.Sys} {af : Net.Family} {k k' : Net.K} {fd : Nat} (h : Net.socket sys af k = (some (some fd), k')) :
    sys.tape k.pos = some fd := by
  unfold Net.socket at h
  cases ht : sys.tape k.pos with
  | none => rw [ht] at h; cases h
  | some n =>
    rw [ht] at h
    simp only at h
    cases hf : k.fds n with
    | some s => rw [hf] at h; cases h
    | none => rw [hf] at h; cases h; rfl

theorem setup4_fd {sys : Net.Sys} {b : Bind} {early : Bool} {k k' : Net.K} {fd : Nat}
    (h : Net.setup4 sys b early k = (some (some fd), k')) : ∃ p, sys.tape p = some fd := by
  unfold Net.setup4 at h
  rw [Net.bind_eq] at h
  cases e : Net.socket sys .inet k with
  | mk r k1 =>
    rw [e] at h
    match r, h with
    | none, h => cases h
    | some none, h => cases h
    | some (some n), h => rw [setup_fd k1 h]; exact ⟨_, socket_fd e⟩

theorem bindSocket_fd {sys : Net.Sys} {b : Bind} {early : Bool} {k k' : Net.K} {fd : Nat}
    (h : Net.bindSocket sys b early k = (some (some fd), k')) : ∃ p, sys.tape p = some fd := by
  unfold Net.bindSocket at h
  cases ha : b.addr with
  | v4 ip port => rw [ha] at h; exact setup4_fd h
  | v6 ip port flow scope =>
    rw [ha] at h
    simp only at h
    rw [Net.bind_eq] at h
    cases e : Net.socket sys .inet6 k with
    | mk r k1 =>
      rw [e] at h
      match r, h with
      | none, h => cases h
      | some none, h => cases h
      | some (some n), h => rw [opt_fd _ _ _ (fun k k' h => setup_fd k h) _ _ h]; exact ⟨_, socket_fd e⟩
  | unspec port =>
    rw [ha] at h
    simp only at h
    rw [Net.bind_eq] at h
    cases e : Net.socket sys .inet6 k with
    | mk r k1 =>
      rw [e] at h
      match r, h with
      | none, h => cases h
      | some none, h => exact setup4_fd h
      | some (some n), h => rw [opt_fd _ _ _ (fun k k' h => setup_fd k h) _ _ h]; exact ⟨_, socket_fd e⟩

/-- The address that the socket of a session is bound to -/
def bindOf (localAddr : Addr) (dev : Option Bytes) : Bind :=
  { addr := localAddr, bindtodev := dev, default4 := false, default6 := false, dynamic := false }

theorem openOffload_cases {sys : Sys} {size : Nat} (hc : Conform sys size) (localAddr : Addr) (dev : Option Bytes) (w : W) :
    Holds (openOffload sys localAddr dev) w fun x w' =>
      match x with
      | .error e => e = .exit
      | .ok none => w'.sk.fds = w.sk.fds ∧ w' = { w with sk := w'.sk }
      | .ok (some fd) => fd < 4294967296 ∧ w' = { w with sk := w'.sk } ∧
          ∃ s, Net.Opened w.sk.fds fd s w'.sk.fds ∧ Net.IsSet sys.net (bindOf localAddr dev) s := by
  unfold Holds openOffload net Net.openDynamic
  have hd := Net.bindSocket_done sys.net (bindOf localAddr dev) true w.sk
  rw [Net.bind_eq]
  change Net.Done _ _ _ (Net.bindSocket sys.net { addr := localAddr, bindtodev := dev, default4 := false, default6 := false, dynamic := false } true w.sk) at hd
  cases e : Net.bindSocket sys.net { addr := localAddr, bindtodev := dev, default4 := false, default6 := false, dynamic := false } true w.sk with
  | mk r k1 =>
    rw [e] at hd
    match r, hd with
    | none, _ => rfl
    | some none, h => exact ⟨h, rfl⟩
    | some (some fd), ⟨s, ho, hs⟩ =>
      obtain ⟨p, hp⟩ := bindSocket_fd e
      dsimp only
      rw [Net.bind_eq]
      unfold Net.getsockname
      cases ht : sys.net.tape k1.pos with
      | none => rfl
      | some _ => exact ⟨hc.fds p fd hp, rfl, s, ho, hs⟩

/-- The state while a session is being set up -/
structure Inside (w : W) (fd : Nat) (s : Net.Sk) (w1 : W) : Prop where
  sk : Net.Opened w.sk.fds fd s w1.sk.fds
  peers : ∀ n, n ≠ fd → w1.peers n = w.peers n
  family : w1.family = w.family
  mtus : w1.mtus = w.mtus
  queue : w1.queue = []

theorem Inside.keeps {w w1 w2 : W} {fd : Nat} {s : Net.Sk} (h : Inside w fd s w1) (hk : Keeps w1 w2) : Inside w fd s w2 :=
  ⟨by rw [hk.sk]; exact h.sk, fun n hn => by rw [hk.peers]; exact h.peers n hn, hk.family.trans h.family, hk.mtus.trans h.mtus, hk.queue⟩

theorem Inside.valid {w w1 : W} {fd : Nat} {s : Net.Sk} (h : Inside w fd s w1) (hv : Valid w) : Valid w1 :=
  ⟨h.queue, by rw [h.family]; exact hv.2.1, by rw [h.family]; exact hv.2.2⟩

/-- As before, but for requests that have been made -/
structure Back (w w' : W) : Prop where
  fds : w'.sk.fds = w.sk.fds
  peers : (∀ n, w.sk.fds n = none → w.peers n = none) → w'.peers = w.peers
  family : w'.family = w.family
  mtus : w'.mtus = w.mtus
  queue : w'.queue = []

theorem closeSocket_run (fd : Nat) (w : W) :
    closeSocket fd w = (.ok (), { w with sk := { w.sk with fds := fun n => if n = fd then none else w.sk.fds n }
                                         peers := fun n => if n = fd then none else w.peers n }) := rfl

theorem close_back {w w1 : W} {fd : Nat} {s : Net.Sk} (h : Inside w fd s w1) :
    Holds (closeSocket fd) w1 fun x w' => x = .ok () ∧ Back w w' ∧ w'.log = w1.log := by
  unfold Holds
  rw [closeSocket_run]
  refine ⟨rfl, ⟨?_, fun hp => ?_, h.family, h.mtus, h.queue⟩, rfl⟩
  · funext n
    simp only [h.sk.2]
    by_cases hn : n = fd
    · simp [hn, h.sk.1]
    · simp [hn]
  · funext n
    by_cases hn : n = fd
    · simp [hn, hp fd h.sk.1]
    · simp [hn, h.peers n hn]

theorem free_cases {sys : Sys} {size : Nat} (hc : Conform sys size) {fuel fd id : Nat} {delete : Bool} {w w1 : W} {s : Net.Sk}
    (hi : Inside w fd s w1) (hv : Valid w) (hid : id < 4294967296) :
    Holds (freeOffloadSession sys fuel fd id delete) w1 fun x w' =>
      match x with
      | .error e => e = .fuel
      | .ok _ => Back w w' ∧ ∃ l, w'.log = l ++ w1.log ∧ (delete = false → l = []) ∧
          (delete = true → (SendError sys ∧ l = []) ∨ ∃ e data err, l = [e] ∧ Entry w.family e (.sessionDelete id 1) data err) := by
  cases delete with
  | false =>
    refine holds_eq (fun r => r) rfl (close_back hi) fun x w' hx => ?_
    obtain ⟨rfl, hb, hl⟩ := hx
    exact ⟨hb, [], hl, fun _ => rfl, fun h => by cases h⟩
  | true =>
    show Holds (sessionDelete sys fuel id >>= fun _ => closeSocket fd) w1 _
    refine holds_bind (sessionDelete_cases hc (fuel := fuel) (hi.valid hv) hid) ?_ (fun e w' he => he)
    rintro b w2 ⟨hk, hx⟩
    refine (close_back (hi.keeps hk)).imp fun x w' hx' => ?_
    obtain ⟨rfl, hb, hl⟩ := hx'
    rw [hi.family] at hx
    rcases hx with ⟨_, h2, h3⟩ | ⟨e, data, err, h1, h2, _, _⟩
    · exact ⟨hb, [], by rw [hl, h2]; rfl, fun _ => rfl, fun _ => .inl ⟨h3, rfl⟩⟩
    · exact ⟨hb, [e], by rw [hl, h1]; rfl, (fun h => by cases h), fun _ => .inr ⟨e, data, err, rfl, h2⟩⟩

theorem connect_cases {sys : Sys} {w w1 : W} {fd : Nat} {s : Net.Sk} (hi : Inside w fd s w1) (addr : Addr) :
    Holds (connectSocket sys fd addr) w1 fun x w' =>
      match x with
      | .error e => e = .exit
      | .ok b => Inside w fd s w' ∧ w'.log = w1.log ∧ (b = true → w'.peers fd = some addr) := by
  have key : ∀ addr, Holds (do
      let r ← next sys.connect
      match r with
      | some e => setErrno e; pure false
      | none => fun w => (.ok true, { w with peers := fun n => if n = fd then some addr else w.peers n })) w1 fun x w' =>
      match x with
      | .error e => e = .exit
      | .ok b => Inside w fd s w' ∧ w'.log = w1.log ∧ (b = true → w'.peers fd = some addr) := by
    intro addr
    refine holds_bind (P := fun r w' => r = .ok (sys.connect w1.pos) ∧ w' = { w1 with pos := w1.pos + 1 }) ⟨rfl, rfl⟩ ?_
      (fun e w' h => by cases h.1)
    rintro a w' ⟨h1, rfl⟩
    cases h1
    cases sys.connect w1.pos with
    | some e => exact ⟨⟨hi.sk, hi.peers, hi.family, hi.mtus, hi.queue⟩, rfl, fun h => by cases h⟩
    | none =>
      refine ⟨⟨hi.sk, fun n hn => ?_, hi.family, hi.mtus, hi.queue⟩, rfl, fun _ => ?_⟩
      · show (if n = fd then some addr else w1.peers n) = _
        rw [if_neg hn]; exact hi.peers n hn
      · show (if fd = fd then some addr else w1.peers fd) = _
        rw [if_pos rfl]
  cases addr with
  | unspec _ => exact rfl
  | v4 ip port => exact key _
  | v6 ip port flow scope => exact key _

theorem Entry.functional {family : Nat} {e : Bytes × List Bytes} {r r' : Req} {data data' : List Msg} {err err' : Nat}
    (h : Entry family e r data err) (h' : Entry family e r' data' err') : r = r' := by
  obtain ⟨m, _, h1, h2, _⟩ := h
  obtain ⟨m', _, h1', h2', _⟩ := h'
  rw [h1] at h1'; cases h1'
  rw [h2] at h2'; cases h2'
  rfl

theorem num_bytes_mod (k n : Nat) : Spec.Netlink.num (Spec.Netlink.bytes k n) = n % 256 ^ k := by
  induction k generalizing n with
  | zero => simp [Spec.Netlink.bytes, Spec.Netlink.num, Nat.mod_one]
  | succ k ih =>
    rw [Spec.Netlink.bytes, Spec.Netlink.num, ih, Nat.pow_succ, Nat.mul_comm (256 ^ k), Nat.mod_mul]
    simp

theorem encodeAck_error (a : Ack) : Spec.Netlink.num (((encodeAck a).drop 16).take 4) = (4294967296 - a.error) % 4294967296 := by
  have e : (encodeAck a).drop 16 = Spec.Netlink.bytes 4 (4294967296 - a.error) ++ a.orig := by
    have : encodeAck a = (Spec.Netlink.bytes 4 (20 + a.orig.length) ++ Spec.Netlink.bytes 2 2 ++ Spec.Netlink.bytes 2 a.flags ++
        Spec.Netlink.bytes 4 a.seq ++ Spec.Netlink.bytes 4 a.pid) ++ (Spec.Netlink.bytes 4 (4294967296 - a.error) ++ a.orig) := by
      simp [encodeAck]
    rw [this, List.drop_left' (by simp [Spec.Netlink.bytes_length])]
  rw [e, Spec.Netlink.take_bytes, num_bytes_mod]

theorem Entry.err {family : Nat} {e : Bytes × List Bytes} {r r' : Req} {data data' : List Msg} {err err' : Nat}
    (h : Entry family e r data err) (h' : Entry family e r' data' err') : err = err' := by
  obtain ⟨_, a, _, _, h1, rfl, h2⟩ := h
  obtain ⟨_, a', _, _, h1', rfl, h2'⟩ := h'
  have hl := congrArg List.getLast? (h1.symm.trans h1')
  simp only [List.getLast?_append, List.getLast?_singleton, Option.some_or, Option.some.injEq] at hl
  have := (encodeAck_error a).symm.trans ((congrArg (fun l => Spec.Netlink.num ((l.drop 16).take 4)) hl).trans (encodeAck_error a'))
  omega

/-- A session that has been set up -/
structure Up (sys : Sys) (p : Peer) (w : W) (s : Session) (w' : W) : Prop where
  socket : ∃ sk, Net.Opened w.sk.fds s.fd sk w'.sk.fds ∧ Net.IsSet sys.net (bindOf p.localAddr p.bindtodev) sk ∧ s.bound = sk.bound
  peer : w'.peers s.fd = some p.addr
  peers : ∀ n, n ≠ s.fd → w'.peers n = w.peers n
  family : w'.family = w.family
  queue : w'.queue = []
  connId : 0 < s.connId ∧ s.connId < 4294967296
  mtu : s.mtu = p.mtu ∧ w'.mtus = (s.ifname, p.mtu) :: w.mtus
  /-- the last request has been answered with the name of the interface -/
  name : ∃ e l data a, w'.log = e :: l ++ w.log ∧ Entry w.family e (.sessionGet s.connId 1) data 0 ∧
    Spec.Netlink.attr (data.flatMap (·.attrs)) 8 = some a ∧ s.ifname = name16 a ∧ s.ifname.head? ≠ some 0
  /-- if sending never fails, tunnel and session have been created -/
  created : ¬ SendError sys → ∃ get create tunnel l d1 d2 n, w'.log = get :: create :: tunnel :: l ++ w.log ∧
    p.ifname = some n ∧ Entry w.family create (.sessionCreate s.connId 1 1 (if n = [] then none else some n)) d1 0 ∧
    Entry w.family tunnel (.tunnelCreate s.connId 1 3 s.fd) d2 0 ∧
    ∀ e ∈ l, ∃ id data, Entry w.family e (.tunnelCreate id 1 3 s.fd) data 17

/-- Nothing is left of a session that has not been set up: the socket is closed, and if a session has been created, the last
request was to delete it. -/
structure Down (sys : Sys) (w w' : W) : Prop where
  back : Back w w'
  deleted : ∃ l, w'.log = l ++ w.log ∧ (¬ SendError sys → ∀ e ∈ l, ∀ id n data, Entry w.family e (.sessionCreate id 1 1 n) data 0 →
    ∃ e' data' err, l.head? = some e' ∧ Entry w.family e' (.sessionDelete id 1) data' err)

/-- What holds after an attempt to set up a session -/
def Result (sys : Sys) (p : Peer) (w : W) (x : Except Stop (Option Session)) (w' : W) : Prop :=
  match x with
  | .error e => Ended e
  | .ok none => Down sys w w'
  | .ok (some s) => Up sys p w s w'

/-- Deleting a session that has been set up in part -/
theorem undo_cases {sys : Sys} {size : Nat} (hc : Conform sys size) {fuel fd id : Nat} {p : Peer} {w w5 : W} {s : Net.Sk} (hv : Valid w)
    (hid : id < 4294967296) (hi5 : Inside w fd s w5) {l5 : List (Bytes × List Bytes)} (hl5 : w5.log = l5 ++ w.log)
    (h5 : ∀ e ∈ l5, ∀ i n data, Entry w.family e (.sessionCreate i 1 1 n) data 0 → i = id) :
    Holds (do freeOffloadSession sys fuel fd id true; pure (none : Option Session)) w5 (Result sys p w) := by
  refine holds_bind (free_cases hc (fuel := fuel) (id := id) (delete := true) hi5 hv hid) ?_ (fun e w' he => .inr he)
  rintro _ w' ⟨hb, l, hl, _, hl'⟩
  refine ⟨hb, l ++ l5, by show w'.log = _; rw [hl, hl5]; simp, fun hns e he i n data hent => ?_⟩
  rcases hl' rfl with ⟨hs, _⟩ | ⟨e', d', r', rfl, g⟩
  · exact absurd hs hns
  · rcases List.mem_append.1 he with he | he
    · simp at he; subst he; cases g.functional hent
    · rw [h5 e he i n data hent]
      exact ⟨e', d', r', rfl, g⟩

/-- Closing the socket of a session that has not been created -/
theorem abandon_cases {sys : Sys} {size : Nat} (hc : Conform sys size) {fuel fd id : Nat} {p : Peer} {w w5 : W} {s : Net.Sk} (hv : Valid w)
    (hid : id < 4294967296) (hi5 : Inside w fd s w5) {l5 : List (Bytes × List Bytes)} (hl5 : w5.log = l5 ++ w.log)
    (h5 : ∀ e ∈ l5, ∀ i n data, ¬ Entry w.family e (.sessionCreate i 1 1 n) data 0) :
    Holds (do freeOffloadSession sys fuel fd id false; pure (none : Option Session)) w5 (Result sys p w) := by
  refine holds_bind (free_cases hc (fuel := fuel) (id := id) (delete := false) hi5 hv hid) ?_ (fun e w' he => .inr he)
  rintro _ w' ⟨hb, l, hl, hl', _⟩
  rw [hl' rfl, List.nil_append, hl5] at hl
  exact ⟨hb, l5, hl, fun _ e he i n data hent => absurd hent (h5 e he i n data)⟩

/-- What happens after the session has been created, or the request could not be sent -/
def rest (sys : Sys) (fuel : Nat) (p : Peer) (fd id : Nat) : M (Option Session) := do
  match ← sessionGetIfname sys fuel id with
  | none =>
    freeOffloadSession sys fuel fd id true
    pure none
  | some name =>
    match ← next sys.setMtu with
    | some e =>
      setErrno e
      freeOffloadSession sys fuel fd id true
      pure none
    | none => fun w =>
      (.ok (some { fd := fd, bound := (w.sk.fds fd).bind (·.bound), connId := id, ifname := name, mtu := p.mtu }),
        { w with mtus := (name, p.mtu) :: w.mtus })

theorem rest_cases {sys : Sys} {size : Nat} (hc : Conform sys size) {fuel fd id : Nat} {p : Peer} {w w4 : W} {s : Net.Sk} (hv : Valid w)
    (hid0 : 0 < id) (hid : id < 4294967296) (hset : Net.IsSet sys.net (bindOf p.localAddr p.bindtodev) s)
    (hi4 : Inside w fd s w4) (hpa : w4.peers fd = some p.addr) {l4 : List (Bytes × List Bytes)} (hl4 : w4.log = l4 ++ w.log)
    (hcr : ∀ e ∈ l4, ∀ i n data, Entry w.family e (.sessionCreate i 1 1 n) data 0 → i = id)
    (hct : ¬ SendError sys → ∃ create tunnel l d1 d2 n, l4 = create :: tunnel :: l ∧
      p.ifname = some n ∧ Entry w.family create (.sessionCreate id 1 1 (if n = [] then none else some n)) d1 0 ∧
      Entry w.family tunnel (.tunnelCreate id 1 3 fd) d2 0 ∧ ∀ e ∈ l, ∃ id data, Entry w.family e (.tunnelCreate id 1 3 fd) data 17) :
    Holds (rest sys fuel p fd id) w4 (Result sys p w) := by
  unfold rest
  refine holds_bind (sessionGetIfname_cases hc (fuel := fuel) (hi4.valid hv) hid) ?_ (fun e w' he => .inr he)
  rintro o w5 ⟨hk5, h5⟩
  have hi5 := hi4.keeps hk5
  rw [hi4.family] at h5
  cases o with
  | none =>
    dsimp only at h5 ⊢
    rcases h5 with ⟨hl5, _⟩ | ⟨e, d, r, hl5, he⟩
    · exact undo_cases hc hv hid hi5 (by rw [hl5, hl4]) hcr
    · refine undo_cases hc hv hid hi5 (l5 := e :: l4) (by rw [hl5, hl4]; rfl) fun e' he' i n data hent => ?_
      rcases List.mem_cons.1 he' with rfl | he'
      · cases he.functional hent
      · exact hcr e' he' i n data hent
  | some name =>
    obtain ⟨eg, dg, a, hl5, heg, hat, hname, hhd⟩ := h5
    dsimp only
    refine holds_bind (P := fun r w' => r = .ok (sys.setMtu w5.pos) ∧ w' = { w5 with pos := w5.pos + 1 }) ⟨rfl, rfl⟩ ?_
      (fun e w' h => by cases h.1)
    rintro r w6 ⟨hr, rfl⟩
    cases hr
    cases sys.setMtu w5.pos with
    | some er =>
      generalize hw6 : ({ w5 with pos := w5.pos + 1 } : W) = w6
      have hi6 : Inside w fd s w6 := by rw [← hw6]; exact ⟨hi5.sk, hi5.peers, hi5.family, hi5.mtus, hi5.queue⟩
      have hl6 : w6.log = w5.log := by rw [← hw6]
      refine holds_bind (P := fun r w' => r = .ok () ∧ Inside w fd s w' ∧ w'.log = w6.log) (m := setErrno er)
        ⟨rfl, ⟨hi6.sk, hi6.peers, hi6.family, hi6.mtus, hi6.queue⟩, rfl⟩ ?_ (fun e w' h => by cases h.1)
      rintro _ w7 ⟨_, hi7, hl7⟩
      refine undo_cases hc hv hid hi7 (l5 := eg :: l4) (by rw [hl7, hl6, hl5, hl4]; rfl) fun e' he' i n data hent => ?_
      rcases List.mem_cons.1 he' with rfl | he'
      · cases heg.functional hent
      · exact hcr e' he' i n data hent
    | none =>
      refine ⟨⟨s, hi5.sk, hset, ?_⟩, ?_, hi5.peers, hi5.family, hi5.queue, ⟨hid0, hid⟩, ⟨rfl, ?_⟩,
        ⟨eg, l4, dg, a, ?_, heg, hat, hname, hhd⟩, fun hns => ?_⟩
      · show (w5.sk.fds fd).bind _ = _
        rw [hi5.sk.2]; simp
      · show w5.peers fd = _
        rw [hk5.peers, hpa]
      · show (name, p.mtu) :: w5.mtus = _
        rw [hi5.mtus]
      · show w5.log = _
        rw [hl5, hl4]; rfl
      · obtain ⟨ec, e0, l0, dc, d0, n, rfl, g0, g1, g2, g3⟩ := hct hns
        refine ⟨eg, ec, e0, l0, dc, d0, n, ?_, g0, g1, g2, g3⟩
        show w5.log = _
        rw [hl5, hl4]; rfl

theorem initSession_eq (sys : Sys) (fuel : Nat) (p : Peer) {ifname : Bytes} (h : p.ifname = some ifname) :
    initSession sys fuel p = (do
      let fd ← openOffload sys p.localAddr p.bindtodev
      match fd with
      | none => pure none
      | some fd =>
        let b ← connectSocket sys fd p.addr
        if b then
          let o ← tunnelLoop sys fuel fd fuel
          match o with
          | none =>
            freeOffloadSession sys fuel fd 0 false
            pure none
          | some id =>
            let b ← sessionCreate sys fuel id (if ifname = [] then none else some ifname)
            if b then rest sys fuel p fd id
            else
              freeOffloadSession sys fuel fd id false
              pure none
        else
          freeOffloadSession sys fuel fd 0 false
          pure none) := by
  unfold initSession
  rw [h]
  rfl

theorem initSession_cases {sys : Sys} {size : Nat} (hc : Conform sys size) {fuel : Nat} {p : Peer} {w : W} (hv : Valid w)
    (hn : ∀ n, p.ifname = some n → 0 ∉ n ∧ n.length ≤ 15) : Holds (initSession sys fuel p) w (Result sys p w) := by
  cases hpn : p.ifname with
  | none =>
    unfold initSession
    rw [hpn]
    exact ⟨⟨rfl, fun _ => rfl, rfl, rfl, hv.1⟩, [], rfl, fun _ e he => by cases he⟩
  | some ifname =>
    obtain ⟨hn0, hnl⟩ := hn ifname hpn
    rw [initSession_eq sys fuel p hpn]
    refine holds_bind (openOffload_cases hc p.localAddr p.bindtodev w) ?_ (fun e w' he => .inl he)
    intro fd w1 h1
    cases fd with
    | none =>
      obtain ⟨h1, h2⟩ := h1
      show Down sys w w1
      exact ⟨⟨h1, fun _ => by rw [h2], by rw [h2], by rw [h2], by rw [h2]; exact hv.1⟩, [], by rw [h2]; rfl, fun _ e he => by cases he⟩
    | some fd =>
      obtain ⟨hfd, hw1, s, ho, hset⟩ := h1
      have hi1 : Inside w fd s w1 := ⟨ho, by rw [hw1]; exact fun _ _ => rfl, by rw [hw1], by rw [hw1], by rw [hw1]; exact hv.1⟩
      have hl1 : w1.log = w.log := by rw [hw1]
      dsimp only
      refine holds_bind (connect_cases (sys := sys) hi1 p.addr) ?_ (fun e w' he => .inl he)
      rintro b w2 ⟨hi2, hl2, hpa⟩
      cases b with
      | false => exact abandon_cases hc hv (by decide) hi2 (l5 := []) (by rw [hl2, hl1]; rfl) fun e he => by cases he
      | true =>
        have hpa := hpa rfl
        refine holds_bind (tunnelLoop_cases hc (fuel := fuel) hfd fuel (hi2.valid hv)) ?_ (fun e w' he => .inr he)
        rintro o w3 ⟨hk3, lt, hl3, h3⟩
        have hi3 := hi2.keeps hk3
        rw [hi2.family] at h3
        rw [hl2, hl1] at hl3
        cases o with
        | none =>
          refine abandon_cases hc hv (by decide) hi3 hl3 fun e he i n data hent => ?_
          obtain ⟨e0, l0, id0, d0, err0, rfl, g1, _, g3⟩ := h3
          rcases List.mem_cons.1 he with rfl | he
          · cases g1.functional hent
          · obtain ⟨id', d', g⟩ := g3 e he
            cases g.functional hent
        | some id =>
          obtain ⟨hid0, hid, hlt⟩ := h3
          have htun : ∀ e ∈ lt, ∃ id data err, Entry w.family e (.tunnelCreate id 1 3 fd) data err := by
            intro e he
            rcases hlt with ⟨_, g⟩ | ⟨e0, l0, d0, rfl, g1, g2⟩
            · obtain ⟨i, d, g⟩ := g e he; exact ⟨i, d, 17, g⟩
            · rcases List.mem_cons.1 he with rfl | he
              · exact ⟨id, d0, 0, g1⟩
              · obtain ⟨i, d, g⟩ := g2 e he; exact ⟨i, d, 17, g⟩
          refine holds_bind (sessionCreate_cases hc (fuel := fuel) (ifname := if ifname = [] then none else some ifname) (hi3.valid hv) hid ?_)
            ?_ (fun e w' he => .inr he)
          · intro n h
            by_cases h0 : ifname = []
            · rw [if_pos h0] at h; cases h
            · rw [if_neg h0] at h; cases h; exact ⟨hn0, hnl⟩
          rintro b w4 ⟨hk4, h4⟩
          have hi4 := hi3.keeps hk4
          rw [hi3.family] at h4
          have hpa4 : w4.peers fd = some p.addr := by rw [hk4.peers, hk3.peers, hpa]
          rcases h4 with ⟨rfl, hl4, hse⟩ | ⟨ec, dc, errc, hl4, hec, rfl, _⟩
          · refine rest_cases hc hv hid0 hid hset hi4 hpa4 (l4 := lt) (by rw [hl4, hl3]) (fun e he i n data hent => ?_) (fun h => absurd hse h)
            obtain ⟨_, _, _, g⟩ := htun e he
            cases g.functional hent
          · rw [hl3] at hl4
            by_cases hz : errc = 0
            · subst hz
              refine rest_cases hc hv hid0 hid hset hi4 hpa4 (l4 := ec :: lt) hl4 (fun e he i n data hent => ?_) fun hns => ?_
              · rcases List.mem_cons.1 he with rfl | he
                · cases hec.functional hent; rfl
                · obtain ⟨_, _, _, g⟩ := htun e he
                  cases g.functional hent
              · rcases hlt with ⟨hse, _⟩ | ⟨e0, l0, d0, rfl, g1, g2⟩
                · exact absurd hse hns
                · exact ⟨ec, e0, l0, dc, d0, ifname, rfl, hpn, hec, g1, g2⟩
            · simp only [hz, decide_false, Bool.false_eq_true]
              refine abandon_cases hc hv hid hi4 (l5 := ec :: lt) hl4 fun e he i n data hent => ?_
              rcases List.mem_cons.1 he with rfl | he
              · exact hz (hec.err hent)
              · obtain ⟨_, _, _, g⟩ := htun e he
                cases g.functional hent

end Fastd.L2tp
