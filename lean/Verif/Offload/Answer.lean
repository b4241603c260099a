import Verif.Offload.Parse

/-!
# Netlink: lemmas about reading well-formed messages
-/

namespace Fastd.Netlink

open Fastd.Spec.Netlink (Attr Msg Ack encAttr encAttrs encode encodeAck name16 padding num AttrOk MsgOk bytes)
open Fastd.L2tp (bytes2 bytes4 bytes1 le16_length le32_length encAttr_length encAttrs_length4 encAttr_length4)

theorem rd8_shift (pre l : Bytes) (i : Nat) : rd8 (pre ++ l) (pre.length + i) = rd8 l i := by
  unfold rd8
  rw [List.getElem?_append_right (by omega), Nat.add_sub_cancel_left]

theorem rd16_shift (pre l : Bytes) (i : Nat) : rd16 (pre ++ l) (pre.length + i) = rd16 l i := by
  unfold rd16
  rw [Nat.add_assoc, rd8_shift, rd8_shift]

theorem rd32_shift (pre l : Bytes) (i : Nat) : rd32 (pre ++ l) (pre.length + i) = rd32 l i := by
  unfold rd32
  rw [Nat.add_assoc, rd16_shift, rd16_shift]

theorem rd16_le16 (n : Nat) (l : Bytes) (h : n < 65536) : rd16 (le16 n ++ l) 0 = some n := by
  simp [rd16, rd8, le16]
  omega

/-- Reading in the middle of a buffer -/
theorem rd16_at {pre l : Bytes} {off n : Nat} (ho : off = pre.length) (h : n < 65536) : rd16 (pre ++ (le16 n ++ l)) off = some n := by
  subst ho
  have := rd16_shift pre (le16 n ++ l) 0
  rw [Nat.add_zero] at this
  rw [this, rd16_le16 _ _ h]

theorem rd32_at {pre l : Bytes} {off n : Nat} (ho : off = pre.length) (h : n < 4294967296) : rd32 (pre ++ (le32 n ++ l)) off = some n := by
  subst ho
  have := rd32_shift pre (le32 n ++ l) 0
  rw [Nat.add_zero] at this
  rw [this, L2tp.rd32_le32 _ _ h]

theorem strncpy_eq (n : Nat) : ∀ (pre p post : Bytes) (off : Nat), off = pre.length → 0 ∈ p →
    strncpy (pre ++ (p ++ post)) off n =
      some ((p.takeWhile (· ≠ 0)).take n ++ List.replicate (n - ((p.takeWhile (· ≠ 0)).take n).length) 0) := by
  induction n with
  | zero => intro pre p post off _ _; simp [strncpy]
  | succ n ih =>
    rintro pre p post off rfl h0
    cases p with
    | nil => cases h0
    | cons c p =>
      unfold strncpy
      rw [List.getElem?_append_right (Nat.le_refl _), Nat.sub_self]
      simp only [List.cons_append, List.getElem?_cons_zero]
      by_cases hc : c = 0
      · subst hc; simp
      · rw [if_neg hc]
        have hp : (0 : UInt8) ∈ p := by
          rcases List.mem_cons.1 h0 with h | h
          · exact absurd h.symm hc
          · exact h
        have := ih (pre ++ [c]) p post (pre.length + 1) (by simp) hp
        rw [List.append_assoc, List.singleton_append] at this
        rw [this]
        simp [hc]

/-- What the callbacks accept -/
def good (cb : Cb) (a : Attr) : Prop :=
  match cb with
  | .getFamily => a.type % 16384 = 1 → a.payload.length = 2
  | .getIfname => a.type % 16384 = 8 → a.payload.getLast? = some 0

/-- What the callbacks do -/
def upd (cb : Cb) (s : St) (a : Attr) : St :=
  match cb with
  | .getFamily => if a.type % 16384 = 1 then { s with family := some (num a.payload) } else s
  | .getIfname => if a.type % 16384 = 8 then { s with ifname := name16 a.payload } else s

theorem attrCb_enc {pre post : Bytes} {off : Nat} (ho : off = pre.length) (cb : Cb) (s : St) {a : Attr} (ha : AttrOk a) (hg : good cb a) :
    rd16 (pre ++ (encAttr a ++ post)) off = some (4 + a.payload.length) ∧
      attrCb cb (pre ++ (encAttr a ++ post)) off s = some (1, upd cb s a) := by
  obtain ⟨ht, hp⟩ := ha
  have e : pre ++ (encAttr a ++ post) =
      pre ++ (le16 (4 + a.payload.length) ++ (le16 a.type ++ (a.payload ++ (List.replicate (padding a.payload.length) 0 ++ post)))) := by
    simp [encAttr, bytes2]
  have h1 : rd16 (pre ++ (encAttr a ++ post)) off = some (4 + a.payload.length) := by rw [e]; exact rd16_at ho hp
  have h2 : rd16 (pre ++ (encAttr a ++ post)) (off + 2) = some a.type := by
    rw [e, ← List.append_assoc]; exact rd16_at (by simp [le16_length, ho]) ht
  have hty : attrType (pre ++ (encAttr a ++ post)) off = some (a.type % 16384) := by unfold attrType; rw [h2]; rfl
  have hpl : attrPayloadLen (pre ++ (encAttr a ++ post)) off = some a.payload.length := by
    unfold attrPayloadLen
    rw [h1]
    simp only [Option.bind_eq_bind, Option.bind_some, Option.some.injEq]
    omega
  have e3 : pre ++ (encAttr a ++ post) = (pre ++ (le16 (4 + a.payload.length) ++ le16 a.type)) ++ (a.payload ++ (List.replicate (padding a.payload.length) 0 ++ post)) := by
    rw [e]; simp
  have hl3 : (pre ++ (le16 (4 + a.payload.length) ++ le16 a.type)).length = off + 4 := by simp [le16_length, ho]
  refine ⟨h1, ?_⟩
  unfold attrCb
  rw [hty]
  simp only [Option.bind_eq_bind, Option.bind_some]
  cases cb with
  | getFamily =>
    dsimp only
    by_cases hy : a.type % 16384 = 1
    · have hlen := hg hy
      rw [if_pos hy]
      unfold validateU16
      rw [hpl]
      simp only [Option.bind_eq_bind, Option.bind_some]
      rw [if_neg (by omega), if_neg (by omega)]
      simp only [Option.bind_some]
      have hv : rd16 (pre ++ (encAttr a ++ post)) (off + 4) = some (num a.payload) := by
        rw [e3, ← hl3]
        have := rd16_shift (pre ++ (le16 (4 + a.payload.length) ++ le16 a.type)) (a.payload ++ (List.replicate (padding a.payload.length) 0 ++ post)) 0
        rw [Nat.add_zero] at this
        rw [this]
        match hq : a.payload, hlen with
        | [x, y], _ => simp [rd16, rd8, num]
      rw [hv]
      simp [upd, hy]
    · rw [if_neg hy]; simp [upd, hy]
  | getIfname =>
    dsimp only
    by_cases hy : a.type % 16384 = 8
    · have hlast := hg hy
      rw [if_pos hy]
      have hne : a.payload ≠ [] := by intro h; rw [h] at hlast; cases hlast
      have hpos : 0 < a.payload.length := List.length_pos_iff.2 hne
      unfold validateNulString
      rw [hpl]
      simp only [Option.bind_eq_bind, Option.bind_some]
      rw [if_neg (by omega)]
      have hc : rd8 (pre ++ (encAttr a ++ post)) (off + 4 + (a.payload.length - 1)) = some 0 := by
        rw [e3, ← hl3, rd8_shift]
        unfold rd8
        rw [List.getElem?_append_left (by omega)]
        rw [List.getLast?_eq_getElem?] at hlast
        rw [hlast]
        rfl
      rw [hc]
      simp only [Option.bind_some]
      rw [if_neg (by simp)]
      simp only [Option.bind_some]
      have h0 : (0 : UInt8) ∈ a.payload := List.mem_of_getLast? hlast
      rw [e3, strncpy_eq 15 _ _ _ _ hl3.symm h0]
      simp only [Option.bind_some, upd, hy, if_true, Option.some.injEq, Prod.mk.injEq, true_and]
      congr 1
      unfold name16
      simp only []
      rw [List.append_assoc, show [(0 : UInt8)] = List.replicate 1 0 from rfl, List.replicate_append_replicate]
      congr 2
      have : ((a.payload.takeWhile (· ≠ 0)).take 15).length ≤ 15 := by simp; omega
      omega
    · rw [if_neg hy]; simp [upd, hy]

theorem attrLoop_enc (cb : Cb) (as : List Attr) : ∀ (pre post : Bytes) (off tail : Nat) (ret : Int) (s : St), off = pre.length →
    (∀ a ∈ as, AttrOk a) → (∀ a ∈ as, good cb a) → tail = pre.length + (encAttrs as).length → tail < 1073741824 → (as = [] → ret = 1) →
    attrLoop cb (pre ++ (encAttrs as ++ post)) tail off ret s = .done 1 (as.foldl (upd cb) s) := by
  induction as with
  | nil =>
    rintro pre post off tail ret s rfl - - rfl hlt hr
    unfold attrLoop
    simp only [encAttrs, List.flatMap_nil, List.length_nil, Nat.add_zero]
    rw [int32_eq (by omega) (by omega), if_neg (by omega), hr rfl]
    rfl
  | cons a as ih =>
    rintro pre post off tail ret s rfl hok hg rfl hlt -
    have hea : encAttrs (a :: as) = encAttr a ++ encAttrs as := by simp [encAttrs]
    have hlen := encAttr_length a
    rw [hea] at hlt ⊢
    rw [List.length_append] at hlt ⊢
    rw [List.append_assoc (encAttr a)]
    obtain ⟨h1, h2⟩ := attrCb_enc (pre := pre) (post := encAttrs as ++ post) rfl cb s (hok a (by simp)) (hg a (by simp))
    unfold attrLoop
    simp only []
    rw [int32_eq (by omega) (by omega), if_pos (by omega)]
    split
    · rename_i h; rw [h1] at h; cases h
    · rename_i n h
      rw [h1] at h
      cases h
      rw [if_pos (by omega), h2]
      dsimp only
      rw [if_neg (by omega)]
      have := ih (pre ++ encAttr a) post (pre.length + align (4 + a.payload.length)) (pre.length + ((encAttr a).length + (encAttrs as).length)) 1 (upd cb s a)
        (by rw [List.length_append, hlen, L2tp.attr_pad]) (fun b hb => hok b (by simp [hb])) (fun b hb => hg b (by simp [hb]))
        (by rw [List.length_append]; omega) hlt (fun _ => rfl)
      rw [List.append_assoc] at this
      rw [this]
      rfl

/-- The attributes of a well-formed answer -/
theorem cbRun_data {m : Msg} {post : Bytes} {fuel : Nat} (cb : Option Cb) (seq : Nat) (s : St) (hm : MsgOk m)
    (ht : 16 ≤ m.type) (hf : m.flags / 16 % 2 = 0) (hs : m.seq = seq) (hsz : (encode m).length < 1073741824) (hfu : 2 ≤ fuel)
    (hg : ∀ c, cb = some c → ∀ a ∈ m.attrs, good c a) :
    cbRun cb (encode m ++ post) (encode m).length seq 0 fuel s =
      .done 1 (match cb with | none => s | some c => m.attrs.foldl (upd c) s) := by
  obtain ⟨fuel, rfl⟩ : ∃ k, fuel = k + 2 := ⟨fuel - 2, by omega⟩
  have hlen := Spec.Netlink.encode_length m
  have h4 := encAttrs_length4 m.attrs
  have e : encode m ++ post = le32 (20 + (encAttrs m.attrs).length) ++ (le16 m.type ++ (le16 m.flags ++ (le32 m.seq ++ (le32 m.pid
      ++ ([UInt8.ofNat m.cmd] ++ ([UInt8.ofNat m.version] ++ (le16 0 ++ (encAttrs m.attrs ++ post)))))))) := by
    simp [encode, bytes2, bytes4, bytes1]
  have h0 : rd32 (encode m ++ post) 0 = some (encode m).length := by
    rw [e, hlen]; exact L2tp.rd32_le32 _ _ (by omega)
  have h4' : rd16 (encode m ++ post) (0 + 4) = some m.type := by rw [e]; exact rd16_at rfl hm.type
  have h6 : rd16 (encode m ++ post) (0 + 6) = some m.flags := by rw [e, ← List.append_assoc]; exact rd16_at rfl hm.flags
  have h8 : rd32 (encode m ++ post) (0 + 8) = some m.seq := by rw [e, ← List.append_assoc, ← List.append_assoc]; exact rd32_at rfl hm.seq
  have h12 : rd32 (encode m ++ post) (0 + 12) = some m.pid := by
    rw [e, ← List.append_assoc, ← List.append_assoc, ← List.append_assoc]; exact rd32_at rfl hm.pid
  have ha : align32 (encode m).length = (encode m).length := by unfold align32; omega
  unfold cbRun
  rw [int32_eq (by omega) (by omega)]
  unfold cbLoop
  rw [if_pos (by omega), h0]
  dsimp only
  rw [int32_eq (by omega) (by omega), if_pos (by omega), h12, h8, h6, h4']
  dsimp only
  rw [if_neg (by omega), if_neg (by omega), if_neg (by omega)]
  have hend : ∀ (s : St), cbLoop cb (encode m ++ post) seq 0 (fuel + 1) (0 + (encode m).length)
      (int32 (((encode m).length : Int) - (encode m).length)) 1 s = .done 1 s := by
    intro s
    rw [int32_eq (by omega) (by omega)]
    unfold cbLoop
    rw [if_neg (by omega)]
  rw [ha]
  unfold message
  rw [if_pos ht]
  cases cb with
  | none =>
    simp only [Option.map_none]
    exact hend s
  | some c =>
    simp only [Option.map_some]
    unfold attrParse
    rw [h0]
    dsimp only
    rw [ha]
    have e2 : encode m ++ post = (le32 (20 + (encAttrs m.attrs).length) ++ le16 m.type ++ le16 m.flags ++ le32 m.seq ++ le32 m.pid
      ++ [UInt8.ofNat m.cmd] ++ [UInt8.ofNat m.version] ++ le16 0) ++ (encAttrs m.attrs ++ post) := by rw [e]; simp
    have := attrLoop_enc c m.attrs (le32 (20 + (encAttrs m.attrs).length) ++ le16 m.type ++ le16 m.flags ++ le32 m.seq ++ le32 m.pid
      ++ [UInt8.ofNat m.cmd] ++ [UInt8.ofNat m.version] ++ le16 0) post (0 + 16 + align 4) (0 + (encode m).length) 1 s rfl hm.attrs (hg c rfl)
      (by rw [hlen]; simp [le32_length, le16_length]) (by omega) (fun _ => rfl)
    rw [e2, this]
    dsimp only
    rw [if_neg (by omega), ← e2]
    exact hend _

theorem int32_neg (e : Nat) (h : e < 4096) : (int32 ((4294967296 - e : Nat) : Int)).natAbs = e := by
  have hcast : ((4294967296 - e : Nat) : Int) = -(e : Int) + ((4294967296 : Nat) : Int) := by omega
  have h1 : int32 (-(e : Int) + ((4294967296 : Nat) : Int)) = int32 (-(e : Int)) := Int.add_bmod_right _ _
  rw [hcast, h1, int32_eq (by omega) (by omega)]
  omega

/-- Acknowledgements that can be written -/
structure AckOk (a : Ack) : Prop where
  flags : a.flags < 65536 ∧ a.flags / 16 % 2 = 0
  seq : a.seq < 4294967296
  pid : a.pid < 4294967296
  error : a.error < 4096
  orig : 16 ≤ a.orig.length

/-- The error code of an answer -/
theorem cbRun_ack {a : Ack} {post : Bytes} {fuel : Nat} (cb : Option Cb) (s : St) (h : AckOk a)
    (hsz : (encodeAck a).length < 1073741824) (hfu : 1 ≤ fuel) :
    cbRun cb (encodeAck a ++ post) (encodeAck a).length a.seq 0 fuel s =
      .done (if a.error = 0 then 0 else -1) { s with errno := a.error } := by
  obtain ⟨fuel, rfl⟩ : ∃ k, fuel = k + 1 := ⟨fuel - 1, by omega⟩
  have hlen : (encodeAck a).length = 20 + a.orig.length := by simp [encodeAck, bytes2, bytes4, le16_length, le32_length]; omega
  have h16 := h.orig
  have e : encodeAck a ++ post = le32 (20 + a.orig.length) ++ (le16 2 ++ (le16 a.flags ++ (le32 a.seq ++ (le32 a.pid
      ++ (le32 (4294967296 - a.error) ++ (a.orig ++ post)))))) := by
    simp [encodeAck, bytes2, bytes4]
  have h0 : rd32 (encodeAck a ++ post) 0 = some (encodeAck a).length := by
    rw [e, hlen]; exact L2tp.rd32_le32 _ _ (by omega)
  have h4' : rd16 (encodeAck a ++ post) (0 + 4) = some 2 := by rw [e]; exact rd16_at rfl (by omega)
  have h6 : rd16 (encodeAck a ++ post) (0 + 6) = some a.flags := by rw [e, ← List.append_assoc]; exact rd16_at rfl h.flags.1
  have h8 : rd32 (encodeAck a ++ post) (0 + 8) = some a.seq := by rw [e, ← List.append_assoc, ← List.append_assoc]; exact rd32_at rfl h.seq
  have h12 : rd32 (encodeAck a ++ post) (0 + 12) = some a.pid := by
    rw [e, ← List.append_assoc, ← List.append_assoc, ← List.append_assoc]; exact rd32_at rfl h.pid
  have h16' : rd32 (encodeAck a ++ post) (0 + 16) = some ((4294967296 - a.error) % 4294967296) := by
    have hle : le32 (4294967296 - a.error) = le32 ((4294967296 - a.error) % 4294967296) := by
      by_cases h0 : a.error = 0
      · rw [h0]; rfl
      · rw [Nat.mod_eq_of_lt (by omega)]
    rw [e, hle, ← List.append_assoc, ← List.append_assoc, ← List.append_assoc, ← List.append_assoc]
    exact rd32_at rfl (by omega)
  have he := h.error
  have hf := h.flags.2
  unfold cbRun
  rw [int32_eq (by omega) (by omega)]
  unfold cbLoop
  rw [if_pos (by omega), h0]
  dsimp only
  rw [int32_eq (by omega) (by omega), if_pos (by omega), h12, h8, h6, h4']
  dsimp only
  rw [if_neg (by omega), if_neg (by omega), if_neg (by omega)]
  simp only [message, show ¬ (2 : Nat) ≥ 16 by omega, show ¬ (2 : Nat) = 1 by omega, if_false, if_true]
  unfold cbError
  rw [h0]
  dsimp only
  rw [if_neg (by omega), h16']
  dsimp only
  by_cases h0 : a.error = 0
  · simp [h0]
  · rw [Nat.mod_eq_of_lt (by omega), if_neg (by omega), if_neg h0]
    dsimp only
    rw [if_pos (by omega)]
    rw [int32_neg _ h.error]

theorem fold_family (as : List Attr) (s : St) :
    as.foldl (upd .getFamily) s = { s with family := ((Spec.Netlink.attr as 1).map num).or s.family } := by
  induction as generalizing s with
  | nil => simp [Spec.Netlink.attr]
  | cons a as ih =>
    rw [List.foldl_cons, ih]
    simp only [Spec.Netlink.attr, List.reverse_cons, List.find?_append, List.find?_cons, List.find?_nil, upd]
    cases as.reverse.find? (fun a => decide (a.type % 16384 = 1)) with
    | some x => by_cases hy : a.type % 16384 = 1 <;> simp [hy]
    | none => by_cases hy : a.type % 16384 = 1 <;> simp [hy]

theorem fold_ifname (as : List Attr) (s : St) :
    as.foldl (upd .getIfname) s = { s with ifname := ((Spec.Netlink.attr as 8).map name16).getD s.ifname } := by
  induction as generalizing s with
  | nil => simp [Spec.Netlink.attr]
  | cons a as ih =>
    rw [List.foldl_cons, ih]
    simp only [Spec.Netlink.attr, List.reverse_cons, List.find?_append, List.find?_cons, List.find?_nil, upd]
    cases as.reverse.find? (fun a => decide (a.type % 16384 = 8)) with
    | some x => by_cases hy : a.type % 16384 = 8 <;> simp [hy]
    | none => by_cases hy : a.type % 16384 = 8 <;> simp [hy]

end Fastd.Netlink
