import Verif.Offload.Answer

/-!
# L2TP offload: lemmas about requests and answers
-/

namespace Fastd.L2tp

open Fastd.Netlink
open Fastd.Spec.Netlink (Attr Msg Ack encAttr encAttrs encode encodeAck name16 padding num AttrOk MsgOk)

/-- What the callback sees of the answers -/
def seen (cb : Option Cb) (data : List Msg) (s : St) : St :=
  match cb with
  | none => s
  | some c => (data.flatMap (·.attrs)).foldl (upd c) s

/-- A data message that can be read -/
structure DataOk (cb : Option Cb) (seq size : Nat) (m : Msg) : Prop where
  ok : MsgOk m
  type : 16 ≤ m.type
  flags : m.flags / 16 % 2 = 0
  seq : m.seq = seq
  size : (encode m).length ≤ size
  good : ∀ c, cb = some c → ∀ a ∈ m.attrs, good c a

theorem received_length {buf d : Bytes} (h : d.length ≤ buf.length) : (received buf d).length = buf.length := by
  simp [received]; omega

theorem doNlLoop_succ (sys : Sys) (run : Bytes → Nat → St → Out) (fuel : Nat) (buf d : Bytes) (q : List Bytes) (s : St) (w : W)
    (hr : sys.recvError w.pos = none) (hq : w.queue = d :: q) (hd : d.length ≤ buf.length) :
    doNlLoop sys run (fuel + 1) buf s w =
      match run (received buf d) d.length s with
      | .oob => (.error .oob, { w with pos := w.pos + 1, queue := q })
      | .fuel => (.error .fuel, { w with pos := w.pos + 1, queue := q })
      | .done ret s =>
        if ret > 0 then doNlLoop sys run fuel (received buf d) s { w with pos := w.pos + 1, queue := q }
        else (.ok (decide (ret ≠ -1), s), { w with pos := w.pos + 1, queue := q, errno := s.errno }) := by
  rw [doNlLoop]
  simp only [hr, hq]
  rw [if_neg (Nat.not_lt.2 hd)]
  cases run (received buf d) d.length s <;> rfl

theorem doNlLoop_eq {sys : Sys} {cb : Option Cb} {seq : Nat} {a : Ack} (hr : ∀ p, sys.recvError p = none) (ha : AckOk a)
    (hs : a.seq = seq) (rest : List Bytes) (data : List Msg) : ∀ (fuel : Nat) (buf : Bytes) (s : St) (w : W), data.length < fuel →
    buf.length < 1073741824 → (∀ m ∈ data, DataOk cb seq buf.length m) → (encodeAck a).length ≤ buf.length →
    w.queue = data.map encode ++ (encodeAck a :: rest) →
    doNlLoop sys (runParseCb cb seq) fuel buf s w =
      (.ok (decide (a.error = 0), { seen cb data s with errno := a.error }),
        { w with pos := w.pos + data.length + 1, queue := rest, errno := a.error }) := by
  induction data with
  | nil =>
    intro fuel buf s w hf hb _ hal hq
    cases fuel with
    | zero => cases hf
    | succ fuel =>
      rw [doNlLoop_succ _ _ _ _ _ _ _ _ (hr _) (by rw [hq]; rfl) hal]
      subst hs
      have hrun : runParseCb cb a.seq (received buf (encodeAck a)) (encodeAck a).length s =
          .done (if a.error = 0 then 0 else -1) { s with errno := a.error } := cbRun_ack cb s ha (by omega) (by omega)
      rw [hrun]
      simp only [List.length_nil, Nat.add_zero]
      by_cases h0 : a.error = 0
      · cases cb <;> simp [h0, seen]
      · cases cb <;> simp [h0, seen]
  | cons m data ih =>
    intro fuel buf s w hf hb hd hal hq
    cases fuel with
    | zero => cases hf
    | succ fuel =>
      have hm := hd m (by simp)
      have hml := hm.size
      rw [doNlLoop_succ _ _ _ _ _ _ _ _ (hr _) (by rw [hq]; rfl) hml]
      have hrun : runParseCb cb seq (received buf (encode m)) (encode m).length s =
          .done 1 (match cb with | none => s | some c => m.attrs.foldl (upd c) s) :=
        (cbRun_data cb seq s hm.ok hm.type hm.flags hm.seq (by omega) (by have := Spec.Netlink.encode_length m; omega) hm.good).trans
          (by cases cb <;> rfl)
      rw [hrun]
      simp only [show (1 : Int) > 0 from by omega, if_true]
      have hl := received_length (buf := buf) (d := encode m) hml
      rw [ih fuel _ _ _ (by simpa using hf) (by rw [hl]; exact hb) (fun x hx => by rw [hl]; exact hd x (by simp [hx]))
        (by rw [hl]; exact hal) rfl]
      simp only [List.length_cons]
      have hpos : w.pos + 1 + data.length + 1 = w.pos + (data.length + 1) + 1 := by omega
      rw [hpos]
      cases cb with
      | none => rfl
      | some c => simp [seen]

/-- What the kernel answers to a request: any number of data messages, and an acknowledgement -/
structure Answer (cb : Option Cb) (seq size : Nat) (ds : List Bytes) (data : List Msg) (a : Ack) : Prop where
  eq : ds = data.map encode ++ [encodeAck a]
  data : ∀ m ∈ data, DataOk cb seq size m
  ack : AckOk a
  seq : a.seq = seq
  size : (encodeAck a).length ≤ size

theorem doNl_eq {sys : Sys} {fuel : Nat} {req : Option Bytes} {cb : Option Cb} {family : Option Nat} {ifname : Bytes} {w : W} {m : Bytes}
    {ds : List Bytes} {data : List Msg} {a : Ack} (hr : ∀ p, sys.recvError p = none) (hst : ∀ p, (sys.stack p).length < 1073741824)
    (hm : finish req ((w.seq + 1) % 4294967296) = some m) (hans : sys.answer w.pos m = .ok ds)
    (ha : Answer cb ((w.seq + 1) % 4294967296) (sys.stack w.pos).length ds data a) (hq : w.queue = []) (hf : data.length < fuel) :
    doNl sys fuel req cb family ifname w =
      (.ok (decide (a.error = 0), { seen cb data { errno := w.errno, family := family, ifname := ifname } with errno := a.error }),
        { w with seq := (w.seq + 1) % 4294967296, pos := w.pos + 1 + data.length + 1, queue := [], errno := a.error
                 log := (m, ds) :: w.log }) := by
  unfold doNl
  simp only [hm, hans]
  rw [doNlLoop_eq hr ha.ack ha.seq [] data fuel _ _ _ hf (hst _) ha.data ha.size (by simp [hq, ha.eq])]

theorem doNl_error {sys : Sys} {fuel : Nat} {req : Option Bytes} {cb : Option Cb} {family : Option Nat} {ifname : Bytes} {w : W} {m : Bytes}
    {e : Nat} (hm : finish req ((w.seq + 1) % 4294967296) = some m) (hans : sys.answer w.pos m = .error e) :
    doNl sys fuel req cb family ifname w =
      (.ok (true, { errno := e, family := family, ifname := ifname }),
        { w with seq := (w.seq + 1) % 4294967296, pos := w.pos + 1, errno := e }) := by
  unfold doNl
  simp only [hm, hans]

theorem doNl_oob {sys : Sys} {fuel : Nat} {req : Option Bytes} {cb : Option Cb} {family : Option Nat} {ifname : Bytes} {w : W}
    (hm : finish req ((w.seq + 1) % 4294967296) = none) :
    doNl sys fuel req cb family ifname w = (.error .oob, { w with seq := (w.seq + 1) % 4294967296 }) := by
  unfold doNl
  simp only [hm]

end Fastd.L2tp
