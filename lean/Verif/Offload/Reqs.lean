import Verif.Offload.Decode

/-!
# L2TP offload: lemmas about the requests
-/

namespace Fastd.L2tp

open Fastd.Netlink
open Fastd.Spec.Netlink (Attr Msg Req decode l2tp attr attrNum attrStr num AttrOk MsgOk)

/-- A message that is sent, whatever the buffer contains at first -/
def Sends (req : Bytes → Option Bytes) (seq : Nat) (m : Bytes) (msg : Msg) : Prop :=
  (∀ stack, 80 ≤ stack.length → finish (req stack) seq = some m) ∧ decode m = some msg ∧ msg.seq = seq

theorem sends {req : Bytes → Option Bytes} (l : List Attr) (type cmd version : Nat) {seq : Nat}
    (he : ∀ stack, req stack = (start stack type cmd version).bind (puts l))
    (hl : ∀ a ∈ l, AttrOk a) (hr : room l ≤ 60) (ht : type < 65536) (hc : cmd < 256) (hv : version < 256) (hs : seq < 4294967296) :
    ∃ m, Sends req seq m { type := type, flags := 5, seq := seq, pid := 0, cmd := cmd, version := version, attrs := l } := by
  refine ⟨Spec.Netlink.encode _, fun stack h => ?_, Spec.Netlink.decode_encode ?_, rfl⟩
  · rw [he, req_eq l type cmd version seq (fun a ha => (hl a ha).2) (by omega) (by omega)]
  · have hlen : ∀ l, (Spec.Netlink.encAttrs l).length = room l := by
      intro l
      induction l with
      | nil => rfl
      | cons a l ih =>
        rw [show Spec.Netlink.encAttrs (a :: l) = Spec.Netlink.encAttr a ++ Spec.Netlink.encAttrs l from by simp [Spec.Netlink.encAttrs]]
        rw [List.length_append, ih, encAttr_length]; rfl
    exact ⟨ht, (by decide : 5 < 65536), hs, (by decide : 0 < 4294967296), hc, hv, hl, by rw [hlen]; show 20 + room l < _; omega⟩

theorem num_le16 {n : Nat} (h : n < 65536) : num (le16 n) = n := by
  rw [← bytes2]; exact Spec.Netlink.num_bytes 2 n h

theorem num_le32 {n : Nat} (h : n < 4294967296) : num (le32 n) = n := by
  rw [← bytes4]; exact Spec.Netlink.num_bytes 4 n h

theorem sends_getFamily {name : Bytes} {seq : Nat} (h0 : 0 ∉ name) (hn : name.length ≤ 15) (hs : seq < 4294967296) :
    ∃ m msg, Sends (fun stack => getFamilyReq stack name) seq m msg ∧ Spec.Netlink.control msg = some (.getFamily name) := by
  obtain ⟨m, h⟩ := sends (req := fun stack => getFamilyReq stack name) [⟨2, name ++ [0]⟩] 16 3 1 (seq := seq)
    (fun stack => by simp [getFamilyReq, puts, attrPutStrz])
    (by intro a ha; simp at ha; subst ha; exact ⟨by simp, by simp; omega⟩)
    (by simp [room, Spec.Netlink.padding]; omega) (by decide) (by decide) (by decide) hs
  exact ⟨m, _, h, by simp [Spec.Netlink.control, attrStr, attr, h0]⟩

theorem sends_tunnelCreate {family fd id seq : Nat} (hf : family < 65536) (hfd : fd < 4294967296) (hid : id < 4294967296)
    (hs : seq < 4294967296) :
    ∃ m msg, Sends (fun stack => tunnelCreateReq stack family fd id) seq m msg ∧ l2tp family msg = some (.tunnelCreate id 1 3 fd) := by
  obtain ⟨m, h⟩ := sends (req := fun stack => tunnelCreateReq stack family fd id)
    [⟨9, le32 id⟩, ⟨10, le32 1⟩, ⟨7, [UInt8.ofNat 3]⟩, ⟨2, le16 0⟩, ⟨23, le32 fd⟩] family 1 1 (seq := seq)
    (fun stack => by simp [tunnelCreateReq, puts, attrPutU32, attrPutU16, attrPutU8])
    (by intro a ha; simp at ha; rcases ha with rfl | rfl | rfl | rfl | rfl <;> exact ⟨by simp, by simp [le32_length, le16_length]⟩)
    (by simp [room, Spec.Netlink.padding, le32_length, le16_length]) hf (by decide) (by decide) hs
  refine ⟨m, _, h, ?_⟩
  simp [l2tp, attrNum, attr, le32_length, le16_length, num_le32 hfd, num_le32 hid, num_le32 (show 1 < 4294967296 by decide),
    num_le16 (show 0 < 65536 by decide)]
  decide

theorem sends_sessionCreate {family id seq : Nat} {ifname : Option Bytes} (hf : family < 65536) (hid : id < 4294967296)
    (hs : seq < 4294967296) (hn : ∀ n, ifname = some n → 0 ∉ n ∧ n.length ≤ 15) :
    ∃ m msg, Sends (fun stack => sessionCreateReq stack family id ifname) seq m msg ∧
      l2tp family msg = some (.sessionCreate id 1 1 ifname) := by
  cases ifname with
  | none =>
    obtain ⟨m, h⟩ := sends (req := fun stack => sessionCreateReq stack family id none)
      [⟨9, le32 id⟩, ⟨11, le32 1⟩, ⟨12, le32 1⟩, ⟨1, le16 5⟩, ⟨5, [UInt8.ofNat 0]⟩] family 5 1 (seq := seq)
      (fun stack => by simp [sessionCreateReq, puts, attrPutU32, attrPutU16, attrPutU8])
      (by intro a ha; simp at ha; rcases ha with rfl | rfl | rfl | rfl | rfl <;> exact ⟨by simp, by simp [le32_length, le16_length]⟩)
      (by simp [room, Spec.Netlink.padding, le32_length, le16_length]) hf (by decide) (by decide) hs
    refine ⟨m, _, h, ?_⟩
    simp [l2tp, attrNum, attr, le32_length, le16_length, num_le32 hid, num_le32 (show 1 < 4294967296 by decide),
      num_le16 (show 5 < 65536 by decide), num]
  | some n =>
    obtain ⟨h0, hl⟩ := hn n rfl
    obtain ⟨m, h⟩ := sends (req := fun stack => sessionCreateReq stack family id (some n))
      [⟨9, le32 id⟩, ⟨11, le32 1⟩, ⟨12, le32 1⟩, ⟨1, le16 5⟩, ⟨5, [UInt8.ofNat 0]⟩, ⟨8, n ++ [0]⟩] family 5 1 (seq := seq)
      (fun stack => by simp [sessionCreateReq, puts, attrPutU32, attrPutU16, attrPutU8, attrPutStrz])
      (by
        intro a ha; simp at ha
        rcases ha with rfl | rfl | rfl | rfl | rfl | rfl <;> exact ⟨by simp, by simp [le32_length, le16_length] <;> omega⟩)
      (by simp [room, Spec.Netlink.padding, le32_length, le16_length]; omega) hf (by decide) (by decide) hs
    refine ⟨m, _, h, ?_⟩
    simp [l2tp, attrNum, attr, attrStr, le32_length, le16_length, num_le32 hid, num_le32 (show 1 < 4294967296 by decide),
      num_le16 (show 5 < 65536 by decide), num, h0]

theorem sends_sessionGet {family id seq : Nat} (hf : family < 65536) (hid : id < 4294967296) (hs : seq < 4294967296) :
    ∃ m msg, Sends (fun stack => sessionGetReq stack family id) seq m msg ∧ l2tp family msg = some (.sessionGet id 1) := by
  obtain ⟨m, h⟩ := sends (req := fun stack => sessionGetReq stack family id)
    [⟨9, le32 id⟩, ⟨11, le32 1⟩] family 8 1 (seq := seq)
    (fun stack => by simp [sessionGetReq, puts, attrPutU32])
    (by intro a ha; simp at ha; rcases ha with rfl | rfl <;> exact ⟨by simp, by simp [le32_length]⟩)
    (by simp [room, Spec.Netlink.padding, le32_length]) hf (by decide) (by decide) hs
  refine ⟨m, _, h, ?_⟩
  simp [l2tp, attrNum, attr, le32_length, num_le32 hid, num_le32 (show 1 < 4294967296 by decide)]

theorem sends_sessionDelete {family id seq : Nat} (hf : family < 65536) (hid : id < 4294967296) (hs : seq < 4294967296) :
    ∃ m msg, Sends (fun stack => sessionDeleteReq stack family id) seq m msg ∧ l2tp family msg = some (.sessionDelete id 1) := by
  obtain ⟨m, h⟩ := sends (req := fun stack => sessionDeleteReq stack family id)
    [⟨9, le32 id⟩, ⟨11, le32 1⟩] family 6 1 (seq := seq)
    (fun stack => by simp [sessionDeleteReq, puts, attrPutU32])
    (by intro a ha; simp at ha; rcases ha with rfl | rfl <;> exact ⟨by simp, by simp [le32_length]⟩)
    (by simp [room, Spec.Netlink.padding, le32_length]) hf (by decide) (by decide) hs
  refine ⟨m, _, h, ?_⟩
  simp [l2tp, attrNum, attr, le32_length, num_le32 hid, num_le32 (show 1 < 4294967296 by decide)]

end Fastd.L2tp
