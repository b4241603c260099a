import Verif.Offload.Nl
import Verif.Offload.Reqs
import Verif.Net.SocketLemmas

/-!
# L2TP offload: lemmas about sessions
-/

namespace Fastd.L2tp

open Fastd.Netlink
open Fastd.Spec.Netlink (Msg Ack Req encode encodeAck decode l2tp name16)
open Fastd.Daemon (Addr)

/-- A system that answers as described in linux/netlink.h: any number of data messages and an acknowledgement, all of them complete
and with the sequence number of the request. Sending may still fail. -/
structure Conform (sys : Sys) (size : Nat) : Prop where
  recv : ∀ p, sys.recvError p = none
  stack : ∀ p, (sys.stack p).length = size
  room : 80 ≤ size ∧ size < 1073741824
  fds : ∀ p n, sys.net.tape p = some n → n < 4294967296
  answer : ∀ p m msg ds, decode m = some msg → sys.answer p m = .ok ds →
    ∃ data a, Answer (some (if msg.type = 16 then .getFamily else .getIfname)) msg.seq size ds data a

/-- Sending a request may fail. -/
def SendError (sys : Sys) : Prop := ∃ p m e, sys.answer p m = .error e

/-- What holds between requests -/
def Valid (w : W) : Prop := w.queue = [] ∧ w.family < 65536 ∧ w.family ≠ 16

/-- A request of a log with its answer: the data and the error code of the acknowledgement -/
def Entry (family : Nat) (e : Bytes × List Bytes) (r : Req) (data : List Msg) (err : Nat) : Prop :=
  ∃ msg a, decode e.1 = some msg ∧ l2tp family msg = some r ∧ e.2 = data.map encode ++ [encodeAck a] ∧ a.error = err ∧ err < 4096

/-- What requests do not change -/
structure Keeps (w w' : W) : Prop where
  sk : w'.sk = w.sk
  peers : w'.peers = w.peers
  family : w'.family = w.family
  mtus : w'.mtus = w.mtus
  queue : w'.queue = []

theorem Keeps.trans {w w1 w2 : W} (h : Keeps w w1) (h' : Keeps w1 w2) : Keeps w w2 :=
  ⟨h'.sk.trans h.sk, h'.peers.trans h.peers, h'.family.trans h.family, h'.mtus.trans h.mtus, h'.queue⟩

theorem Keeps.valid {w w' : W} (h : Keeps w w') (hv : Valid w) : Valid w' :=
  ⟨h.queue, by rw [h.family]; exact hv.2.1, by rw [h.family]; exact hv.2.2⟩

theorem bind_run {α β : Type} (m : M α) (f : α → M β) (w : W) :
    (m >>= f) w = match m w with | (.ok a, w') => f a w' | (.error e, w') => (.error e, w') := rfl

theorem pure_run {α : Type} (a : α) (w : W) : (pure a : M α) w = (.ok a, w) := rfl

/-- What holds after a computation -/
def Holds {α : Type} (m : M α) (w : W) (Q : Except Stop α → W → Prop) : Prop := Q (m w).1 (m w).2

theorem holds_bind {α β : Type} {m : M α} {f : α → M β} {w : W} {P : Except Stop α → W → Prop} {Q : Except Stop β → W → Prop}
    (h : Holds m w P) (ho : ∀ a w', P (.ok a) w' → Holds (f a) w' Q) (he : ∀ e w', P (.error e) w' → Q (.error e) w') :
    Holds (m >>= f) w Q := by
  unfold Holds at *
  rw [bind_run]
  cases e : m w with
  | mk r w' =>
    rw [e] at h
    cases r with
    | ok a => exact ho a w' h
    | error _ => exact he _ w' h

theorem Holds.imp {α : Type} {m : M α} {w : W} {P Q : Except Stop α → W → Prop} (h : Holds m w P) (hi : ∀ r w', P r w' → Q r w') :
    Holds m w Q := hi _ _ h

theorem holds_eq {α β : Type} {m : M α} {m' : M β} {w w1 : W} {Q : Except Stop α → W → Prop} {P : Except Stop β → W → Prop} (f : Except Stop β → Except Stop α)
    (e : m w = (f (m' w1).1, (m' w1).2)) (h : Holds m' w1 P) (hi : ∀ r w', P r w' → Q (f r) w') : Holds m w Q := by
  unfold Holds at *
  rw [e]
  exact hi _ _ h

/-- How a computation may end without a result -/
def Ended (e : Stop) : Prop := e = .exit ∨ e = .fuel

theorem doNlLoop_fuel {sys : Sys} {cb : Option Cb} {seq : Nat} {a : Ack} (hr : ∀ p, sys.recvError p = none)
    (rest : List Bytes) (data : List Msg) : ∀ (fuel : Nat) (buf : Bytes) (s : St) (w : W), fuel ≤ data.length →
    buf.length < 1073741824 → (∀ m ∈ data, DataOk cb seq buf.length m) → (encodeAck a).length ≤ buf.length →
    w.queue = data.map encode ++ (encodeAck a :: rest) →
    ∃ w', doNlLoop sys (runParseCb cb seq) fuel buf s w = (.error .fuel, w') := by
  induction data with
  | nil =>
    intro fuel buf s w hf hb _ hal hq
    cases fuel with
    | zero => exact ⟨w, rfl⟩
    | succ fuel => cases hf
  | cons m data ih =>
    intro fuel buf s w hf hb hd hal hq
    cases fuel with
    | zero => exact ⟨w, rfl⟩
    | succ fuel =>
      have hm := hd m (by simp)
      have hml := hm.size
      rw [doNlLoop_succ _ _ _ _ _ _ _ _ (hr _) (by rw [hq]; rfl) hml]
      have hrun : runParseCb cb seq (received buf (encode m)) (encode m).length s =
          .done 1 (match cb with | none => s | some c => m.attrs.foldl (upd c) s) :=
        (cbRun_data cb seq s hm.ok hm.type hm.flags hm.seq (by omega) (by have := Spec.Netlink.encode_length m; omega) hm.good).trans
          (by cases cb <;> rfl)
      rw [hrun]
      simp only [show (1 : Int) > 0 from by omega, if_true]
      have hl := received_length (buf := buf) (d := encode m) hml
      exact ih fuel _ _ _ (by simpa using hf) (by rw [hl]; exact hb) (fun x hx => by rw [hl]; exact hd x (by simp [hx]))
        (by rw [hl]; exact hal) rfl

theorem Answer.none {c : Cb} {seq size : Nat} {ds : List Bytes} {data : List Msg} {a : Ack} (h : Answer (some c) seq size ds data a) :
    Answer .none seq size ds data a :=
  ⟨h.eq, fun m hm => ⟨(h.data m hm).ok, (h.data m hm).type, (h.data m hm).flags, (h.data m hm).seq, (h.data m hm).size,
    fun _ hc => by cases hc⟩, h.ack, h.seq, h.size⟩

/-- The outcomes of a request -/
theorem doNl_cases {sys : Sys} {size : Nat} (hc : Conform sys size) {fuel : Nat} {req : Bytes → Option Bytes} {c : Cb} {cb : Option Cb}
    {family : Option Nat} {ifname : Bytes} {w : W} {st : Bytes} (hst : st.length = size) (hcb : cb = none ∨ cb = some c) {m : Bytes} {msg : Msg}
    (hm : Sends req ((w.seq + 1) % 4294967296) m msg) (hcc : (if msg.type = 16 then Cb.getFamily else .getIfname) = c) (hq : w.queue = []) :
    Holds (doNl sys fuel (req st) cb family ifname) w fun r w' =>
      match r with
      | .error e => e = .fuel
      | .ok (b, s) => Keeps w w' ∧
        ((b = true ∧ s.family = family ∧ s.ifname = ifname ∧ w'.log = w.log ∧ SendError sys) ∨
          ∃ data a ds, Answer cb ((w.seq + 1) % 4294967296) size ds data a ∧ w'.log = (m, ds) :: w.log ∧ b = decide (a.error = 0) ∧
            s = { seen cb data { errno := w.errno, family := family, ifname := ifname } with errno := a.error } ∧ w'.errno = a.error) := by
  obtain ⟨h1, h2, h3⟩ := hm
  have hf := h1 st (by rw [hst]; exact hc.room.1)
  unfold Holds
  cases ha : sys.answer w.pos m with
  | error e =>
    rw [doNl_error hf ha]
    exact ⟨⟨rfl, rfl, rfl, rfl, hq⟩, .inl ⟨rfl, rfl, rfl, rfl, _, _, _, ha⟩⟩
  | ok ds =>
    obtain ⟨data, a, han⟩ := hc.answer _ _ _ _ h2 ha
    rw [hcc, h3] at han
    have han' : Answer cb ((w.seq + 1) % 4294967296) size ds data a := by
      rcases hcb with rfl | rfl
      · exact han.none
      · exact han
    rcases Nat.lt_or_ge data.length fuel with hl | hl
    · have hsz := hc.stack w.pos
      rw [doNl_eq hc.recv (fun p => by rw [hc.stack]; exact hc.room.2) hf ha (by rw [hsz]; exact han') hq hl]
      exact ⟨⟨rfl, rfl, rfl, rfl, rfl⟩, .inr ⟨data, a, ds, han', rfl, rfl, rfl, rfl⟩⟩
    · have hsz := hc.stack w.pos
      obtain ⟨w', e⟩ := doNlLoop_fuel (cb := cb) (seq := (w.seq + 1) % 4294967296) (a := a) hc.recv [] data fuel (sys.stack w.pos)
        { errno := w.errno, family := family, ifname := ifname }
        { w with seq := (w.seq + 1) % 4294967296, pos := w.pos + 1, queue := w.queue ++ ds, log := (m, ds) :: w.log } hl
        (by rw [hsz]; exact hc.room.2) (by rw [hsz]; exact han'.data) (by rw [hsz]; exact han'.size) (by simp [hq, han'.eq])
      have : doNl sys fuel (req st) cb family ifname w = (.error .fuel, w') := by
        unfold doNl
        simp only [hf, ha]
        exact e
      rw [this]

/-- A request to the L2TP code, as it is made by all functions -/
theorem ask_cases {sys : Sys} {size : Nat} (hc : Conform sys size) {fuel : Nat} {req : Bytes → Nat → Option Bytes} {cb : Option Cb}
    {ifname : Bytes} {w : W} (hcb : cb = none ∨ cb = some .getIfname) {r : Req} (hv : Valid w)
    (hm : ∀ seq, seq < 4294967296 → ∃ m msg, Sends (fun st => req st w.family) seq m msg ∧ l2tp w.family msg = some r) :
    Holds (do let st ← stack sys; let f ← familyId; doNl sys fuel (req st f) cb none ifname) w fun x w' =>
      match x with
      | .error e => e = .fuel
      | .ok (b, s) => Keeps w w' ∧
        ((b = true ∧ s.ifname = ifname ∧ w'.log = w.log ∧ SendError sys) ∨
          ∃ e data err, w'.log = e :: w.log ∧ Entry w.family e r data err ∧ b = decide (err = 0) ∧
            s.ifname = (seen cb data { errno := 0, family := none, ifname := ifname }).ifname ∧ w'.errno = err) := by
  obtain ⟨m, msg, hs, hr⟩ := hm ((w.seq + 1) % 4294967296) (Nat.mod_lt _ (by decide))
  have hty : msg.type = w.family := by
    unfold l2tp at hr
    by_cases h : msg.type = w.family ∧ msg.flags = 5 ∧ msg.version = 1
    · exact h.1
    · rw [if_neg h] at hr; cases hr
  have h := doNl_cases hc (fuel := fuel) (req := fun st => req st w.family) (c := .getIfname) (cb := cb) (family := none) (ifname := ifname)
    (w := { w with pos := w.pos + 1 }) (st := sys.stack w.pos) (hc.stack _) hcb hs (by rw [hty, if_neg hv.2.2]) hv.1
  refine holds_eq id rfl h fun x w' hx => ?_
  cases x with
  | error e => exact hx
  | ok bs =>
    obtain ⟨b, s⟩ := bs
    obtain ⟨hk, hx⟩ := hx
    refine ⟨⟨hk.sk, hk.peers, hk.family, hk.mtus, hk.queue⟩, ?_⟩
    rcases hx with ⟨h1, _, h2, h3, h4⟩ | ⟨data, a, ds, h1, h2, h3, h4, h5⟩
    · exact .inl ⟨h1, h2, h3, h4⟩
    · refine .inr ⟨(m, ds), data, a.error, h2, ⟨msg, a, hs.2.1, hr, h1.eq, rfl, h1.ack.error⟩, h3, ?_, h5⟩
      rw [h4]
      rcases hcb with rfl | rfl
      · rfl
      · simp [seen, fold_ifname]

/-- The outcomes of a request without data in the answer -/
def Simple (sys : Sys) (w : W) (r : Req) (x : Except Stop Bool) (w' : W) : Prop :=
  match x with
  | .error e => e = .fuel
  | .ok b => Keeps w w' ∧
    ((b = true ∧ w'.log = w.log ∧ SendError sys) ∨
      ∃ e data err, w'.log = e :: w.log ∧ Entry w.family e r data err ∧ b = decide (err = 0) ∧ w'.errno = err)

theorem simple_of_ask {sys : Sys} {size : Nat} (hc : Conform sys size) {fuel : Nat} {req : Bytes → Nat → Option Bytes}
    {w : W} {r : Req} (hv : Valid w)
    (hm : ∀ seq, seq < 4294967296 → ∃ m msg, Sends (fun st => req st w.family) seq m msg ∧ l2tp w.family msg = some r) :
    Holds (do let st ← stack sys; let f ← familyId; let (r, _) ← doNl sys fuel (req st f) none none []; pure r) w (Simple sys w r) := by
  have h := ask_cases hc (fuel := fuel) (cb := none) (ifname := []) (.inl rfl) hv hm
  show Holds ((do let st ← stack sys; let f ← familyId; doNl sys fuel (req st f) none none []) >>= fun x => pure x.1) w (Simple sys w r)
  refine holds_bind h ?_ ?_
  · rintro ⟨b, s⟩ w' ⟨hk, hx⟩
    refine ⟨hk, ?_⟩
    rcases hx with ⟨h1, _, h2, h3⟩ | ⟨e, data, err, h1, h2, h3, _, h4⟩
    · exact .inl ⟨h1, h2, h3⟩
    · exact .inr ⟨e, data, err, h1, h2, h3, h4⟩
  · intro e w' he; exact he

theorem tunnelCreate_cases {sys : Sys} {size : Nat} (hc : Conform sys size) {fuel fd id : Nat} {w : W} (hv : Valid w)
    (hfd : fd < 4294967296) (hid : id < 4294967296) :
    Holds (tunnelCreate sys fuel fd id) w (Simple sys w (.tunnelCreate id 1 3 fd)) :=
  simple_of_ask hc (req := fun st f => tunnelCreateReq st f fd id) hv fun _ hs => sends_tunnelCreate hv.2.1 hfd hid hs

theorem sessionCreate_cases {sys : Sys} {size : Nat} (hc : Conform sys size) {fuel id : Nat} {ifname : Option Bytes} {w : W} (hv : Valid w)
    (hid : id < 4294967296) (hn : ∀ n, ifname = some n → 0 ∉ n ∧ n.length ≤ 15) :
    Holds (sessionCreate sys fuel id ifname) w (Simple sys w (.sessionCreate id 1 1 ifname)) :=
  simple_of_ask hc (req := fun st f => sessionCreateReq st f id ifname) hv fun _ hs => sends_sessionCreate hv.2.1 hid hs hn

theorem sessionDelete_cases {sys : Sys} {size : Nat} (hc : Conform sys size) {fuel id : Nat} {w : W} (hv : Valid w)
    (hid : id < 4294967296) : Holds (sessionDelete sys fuel id) w (Simple sys w (.sessionDelete id 1)) :=
  simple_of_ask hc (req := fun st f => sessionDeleteReq st f id) hv fun _ hs => sends_sessionDelete hv.2.1 hid hs

theorem sessionGetIfname_cases {sys : Sys} {size : Nat} (hc : Conform sys size) {fuel id : Nat} {w : W} (hv : Valid w)
    (hid : id < 4294967296) :
    Holds (sessionGetIfname sys fuel id) w fun x w' =>
      match x with
      | .error e => e = .fuel
      | .ok n => Keeps w w' ∧
        match n with
        | none => w'.log = w.log ∧ SendError sys ∨ ∃ e data err, w'.log = e :: w.log ∧ Entry w.family e (.sessionGet id 1) data err
        | some n => ∃ e data p, w'.log = e :: w.log ∧ Entry w.family e (.sessionGet id 1) data 0 ∧
            Spec.Netlink.attr (data.flatMap (·.attrs)) 8 = some p ∧ n = name16 p ∧ n.head? ≠ some 0 := by
  have h := ask_cases hc (fuel := fuel) (req := fun st f => sessionGetReq st f id) (cb := some .getIfname)
    (ifname := List.replicate 16 0) (.inr rfl) hv fun _ hs => sends_sessionGet hv.2.1 hid hs
  show Holds ((do let st ← stack sys; let f ← familyId; doNl sys fuel (sessionGetReq st f id) (some .getIfname) none (List.replicate 16 0)) >>=
    fun x => if x.1 then pure (if x.2.ifname.head? = some 0 then none else some x.2.ifname) else pure none) w _
  refine holds_bind h ?_ ?_
  · rintro ⟨b, s⟩ w' ⟨hk, hx⟩
    rcases hx with ⟨h1, h2, h3, h4⟩ | ⟨e, data, err, h1, h2, h3, h4, h5⟩
    · simp only [h1, h2, if_true]
      exact ⟨hk, .inl ⟨h3, h4⟩⟩
    · simp only [h3]
      by_cases h0 : err = 0
      · subst h0
        simp only [decide_true, if_true]
        by_cases hh : s.ifname.head? = some 0
        · rw [if_pos hh]
          exact ⟨hk, .inr ⟨e, data, 0, h1, h2⟩⟩
        · rw [if_neg hh]
          simp only [seen, fold_ifname] at h4
          cases ha : Spec.Netlink.attr (data.flatMap (·.attrs)) 8 with
          | none => rw [ha] at h4; rw [h4] at hh; exact absurd rfl hh
          | some p =>
            rw [ha] at h4
            exact ⟨hk, e, data, p, h1, h2, ha, h4, hh⟩
      · simp only [h0, decide_false, Bool.false_eq_true, if_false]
        exact ⟨hk, .inr ⟨e, data, err, h1, h2⟩⟩
  · intro e w' he; exact he

theorem newConnId_run (sys : Sys) (w : W) : ∃ id, newConnId sys w = (.ok id, { w with pos := w.pos + 1 + 1 }) ∧ id < 4294967296 := by
  refine ⟨_, rfl, ?_⟩
  exact Nat.xor_lt_two_pow (n := 32) (Nat.mod_lt _ (by decide)) (Nat.mod_lt _ (by decide))

/-- Looking for a connection ID -/
theorem tunnelLoop_cases {sys : Sys} {size : Nat} (hc : Conform sys size) {fuel fd : Nat} (hfd : fd < 4294967296) (n : Nat) :
    ∀ {w : W}, Valid w → Holds (tunnelLoop sys fuel fd n) w fun x w' =>
      match x with
      | .error e => e = .fuel
      | .ok x => Keeps w w' ∧ ∃ l, w'.log = l ++ w.log ∧
        match x with
        | none => ∃ e l' id data err, l = e :: l' ∧ Entry w.family e (.tunnelCreate id 1 3 fd) data err ∧ err ≠ 0 ∧
            ∀ e ∈ l', ∃ id data, Entry w.family e (.tunnelCreate id 1 3 fd) data 17
        | some id => 0 < id ∧ id < 4294967296 ∧
            ((SendError sys ∧ ∀ e ∈ l, ∃ id data, Entry w.family e (.tunnelCreate id 1 3 fd) data 17) ∨
              ∃ e l' data, l = e :: l' ∧ Entry w.family e (.tunnelCreate id 1 3 fd) data 0 ∧
                ∀ e ∈ l', ∃ id data, Entry w.family e (.tunnelCreate id 1 3 fd) data 17) := by
  induction n with
  | zero => intro w _; exact rfl
  | succ n ih =>
    intro w hv
    obtain ⟨id, he, hid⟩ := newConnId_run sys w
    unfold tunnelLoop
    refine holds_bind (P := fun r w' => r = .ok id ∧ w' = { w with pos := w.pos + 1 + 1 }) (by unfold Holds; rw [he]; exact ⟨rfl, rfl⟩) ?_
      (fun e w' h => by cases h.1)
    rintro _ _ ⟨h1, rfl⟩
    cases h1
    have hv1 : Valid { w with pos := w.pos + 1 + 1 } := hv
    by_cases h0 : id = 0
    · rw [if_pos h0]
      refine (ih hv1).imp fun x w' hx => ?_
      cases x with
      | error e => exact hx
      | ok x => exact ⟨⟨hx.1.sk, hx.1.peers, hx.1.family, hx.1.mtus, hx.1.queue⟩, hx.2⟩
    · rw [if_neg h0]
      refine holds_bind (tunnelCreate_cases hc (fuel := fuel) hv1 hfd hid) ?_ (fun e w' he => he)
      rintro b w1 ⟨hk, hx⟩
      have hk1 : Keeps w w1 := ⟨hk.sk, hk.peers, hk.family, hk.mtus, hk.queue⟩
      rcases hx with ⟨rfl, h2, h3⟩ | ⟨e, data, err, h1, h2, rfl, h4⟩
      · exact ⟨hk1, [], h2, Nat.pos_of_ne_zero h0, hid, .inl ⟨h3, fun _ h => by cases h⟩⟩
      · by_cases hz : err = 0
        · subst hz
          exact ⟨hk1, [e], h1, Nat.pos_of_ne_zero h0, hid, .inr ⟨e, [], data, rfl, h2, fun _ h => by cases h⟩⟩
        · simp only [hz, decide_false, Bool.false_eq_true, if_false]
          by_cases h17 : w1.errno = 17
          · have hstep : Entry w.family e (.tunnelCreate id 1 3 fd) data 17 := by rw [← h4.symm.trans h17]; exact h2
            refine holds_eq (fun r => r) (if_pos h17) (ih (hk1.valid hv)) fun x w' hx => ?_
            cases x with
            | error e => exact hx
            | ok x =>
              obtain ⟨hk2, l, hl, hx⟩ := hx
              rw [hk1.family] at hx
              refine ⟨hk1.trans hk2, l ++ [e], by rw [hl, h1]; simp, ?_⟩
              cases x with
              | none =>
                obtain ⟨e', l', id', d', r', rfl, g1, g2, g3⟩ := hx
                refine ⟨e', l' ++ [e], id', d', r', rfl, g1, g2, fun x hx => ?_⟩
                rcases List.mem_append.1 hx with hx | hx
                · exact g3 x hx
                · simp at hx; subst hx; exact ⟨id, data, hstep⟩
              | some id' =>
                obtain ⟨g1, g2, g3⟩ := hx
                refine ⟨g1, g2, ?_⟩
                rcases g3 with ⟨g3, g4⟩ | ⟨e', l', d', rfl, g3, g4⟩
                · refine .inl ⟨g3, fun x hx => ?_⟩
                  rcases List.mem_append.1 hx with hx | hx
                  · exact g4 x hx
                  · simp at hx; subst hx; exact ⟨id, data, hstep⟩
                · refine .inr ⟨e', l' ++ [e], d', rfl, g3, fun x hx => ?_⟩
                  rcases List.mem_append.1 hx with hx | hx
                  · exact g4 x hx
                  · simp at hx; subst hx; exact ⟨id, data, hstep⟩
          · show Holds (fun w => if w.errno = 17 then tunnelLoop sys fuel fd n w else (.ok none, w)) w1 _
            unfold Holds
            simp only [if_neg h17]
            exact ⟨hk1, [e], h1, e, [], id, data, err, rfl, h2, hz, fun _ h => by cases h⟩

/-! ## Sockets -/

theorem setup_fd {sys : Net.Sys} {b : Config.Exec.Bind} {early : Bool} {fd : Nat} {af : Net.Family} (k : Net.K) {fd' : Nat} {k' : Net.K}
    (h : Net.setup sys b early fd af k = (some (some fd'), k')) : fd' = fd := by
  have key : ∀ (cond : Bool) (f : Net.Sk → Net.Sk) (next : Net.M (Option Nat)), (∀ k k', next k = (some (some fd'), k') → fd' = fd) →
      ∀ k k', Net.opt sys cond fd f next k = (some (some fd'), k') → fd' = fd := by
    intro cond f next hn k k' h
    unfold Net.opt at h
    cases cond with
    | false => exact hn k k' h
    | true =>
      simp only [if_true] at h
      rw [Net.bind_eq] at h
      cases e : Net.call sys fd f k with
      | mk r k1 =>
        rw [e] at h
        cases r with
        | none => cases h
        | some ok =>
          cases ok with
          | true => exact hn k1 k' h
          | false => cases h
  unfold Net.setup at h
  refine key _ _ _ ?_ _ _ h
  intro k k' h
  have tail : ∀ k k', Net.opt sys (af = .inet6) fd (fun s => { s with pktinfo6 := true }) (
      Net.opt sys (sys.useBindToDevice && b.bindtodev.isSome && !Config.Exec.isV6LinkLocal b.addr) fd (fun s => { s with device := b.bindtodev }) <|
        Net.opt sys sys.usePmtu fd (fun s => { s with noPmtu := true }) <|
          Net.opt sys (sys.usePacketMark && sys.packetMark ≠ 0) fd (fun s => { s with mark := sys.packetMark }) <|
            match Net.bindAddr sys b af with
            | none => Net.failed fd
            | some a =>
              Net.opt sys (sys.offload && early) fd (fun s => { s with reuse := true }) <|
                Net.opt sys true fd (fun s => { s with bound := some a }) <|
                  Net.opt sys (sys.offload && !early) fd (fun s => { s with reuse := true }) <|
                    pure (some fd)) k = (some (some fd'), k') → fd' = fd := by
    refine key _ _ _ (key _ _ _ (key _ _ _ (key _ _ _ ?_)))
    cases Net.bindAddr sys b af with
    | none => intro k k' h; cases h
    | some a => exact key _ _ _ (key _ _ _ (key _ _ _ fun k k' h => by cases h; rfl))
  by_cases hf : sys.useFreebind = true
  · rw [if_pos hf] at h
    rw [Net.bind_eq] at h
    cases e : Net.call sys fd (fun s => { s with freebind := true }) k with
    | mk r k1 =>
      rw [e] at h
      cases r with
      | none => cases h
      | some _ => exact tail _ _ h
  · rw [if_neg hf] at h
    exact tail _ _ h

end Fastd.L2tp
