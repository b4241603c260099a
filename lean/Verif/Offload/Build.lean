import Verif.Offload.L2tp
import Verif.Spec.Netlink

/-!
# Netlink: lemmas about building messages
-/

namespace Fastd.L2tp

open Fastd.Netlink

theorem wr_mid {a b c d : Bytes} {off : Nat} (ho : off = a.length) (h : b.length = d.length) :
    wr (a ++ (b ++ c)) off d = some (a ++ (d ++ c)) := by
  subst ho
  unfold wr
  rw [if_pos (by simp; omega)]
  congr 1
  rw [List.take_left, ← List.append_assoc a b c, ← List.append_assoc a d c]
  congr 1
  rw [List.drop_left' (by simp [h])]

theorem ofNat_mod (n : Nat) : UInt8.ofNat (n % 256) = UInt8.ofNat n := by
  apply UInt8.toNat_inj.1
  simp

theorem bytes2 (n : Nat) : Spec.Netlink.bytes 2 n = le16 n := by
  simp [Spec.Netlink.bytes, le16, ofNat_mod]

theorem bytes4 (n : Nat) : Spec.Netlink.bytes 4 n = le32 n := by
  simp [Spec.Netlink.bytes, le32, Nat.div_div_eq_div_mul, ofNat_mod]

theorem bytes1 (n : Nat) : Spec.Netlink.bytes 1 n = [UInt8.ofNat n] := by
  simp [Spec.Netlink.bytes, ofNat_mod]

theorem le16_length (n : Nat) : (le16 n).length = 2 := rfl
theorem le32_length (n : Nat) : (le32 n).length = 4 := rfl

theorem rd32_le32 (n : Nat) (l : Bytes) (h : n < 4294967296) : rd32 (le32 n ++ l) 0 = some n := by
  simp [rd32, rd16, rd8, le32]
  omega

/-- The message up to the extra header -/
def hdr (type seq cmd version : Nat) : Bytes :=
  le16 type ++ le16 5 ++ le32 seq ++ le32 0 ++ [UInt8.ofNat cmd, UInt8.ofNat version, 0, 0]

/-- A buffer with a message -/
def buffer (body : Bytes) (k : Nat) : Bytes := le32 (4 + body.length) ++ (body ++ List.replicate k 0)

theorem start_eq {stack : Bytes} (type cmd version : Nat) (h : 20 ≤ stack.length) :
    start stack type cmd version = some (buffer (hdr type 0 cmd version) (stack.length - 20)) := by
  obtain ⟨k, hk⟩ : ∃ k, stack.length = 20 + k := ⟨stack.length - 20, by omega⟩
  unfold start
  rw [hk, Nat.add_sub_cancel_left]
  have e : List.replicate (20 + k) (0 : UInt8) = List.replicate 20 0 ++ List.replicate k 0 := by
    rw [List.replicate_append_replicate]
  rw [e]
  simp [putHeader, putExtraHeader, wr, rd32, rd16, rd8, le32, le16, align, buffer, hdr, List.replicate_succ]

theorem attr_pad (n : Nat) : align (4 + n) = 4 + n + Spec.Netlink.padding n := by
  unfold align Spec.Netlink.padding
  omega

theorem attrPut_eq {body : Bytes} {k : Nat} (type : Nat) {data : Bytes} (h4 : body.length % 4 = 0)
    (hd : 4 + data.length < 65536) (hl : 4 + body.length + (4 + data.length + Spec.Netlink.padding data.length) < 4294967296)
    (hk : 4 + data.length + Spec.Netlink.padding data.length ≤ k) :
    attrPut (buffer body k) type data =
      some (buffer (body ++ Spec.Netlink.encAttr ⟨type, data⟩) (k - (4 + data.length + Spec.Netlink.padding data.length))) := by
  obtain ⟨r, rfl⟩ : ∃ r, k = 2 + (2 + (data.length + (Spec.Netlink.padding data.length + r))) :=
    ⟨k - (4 + data.length + Spec.Netlink.padding data.length), by omega⟩
  have hpad : Spec.Netlink.padding data.length < 4 := by unfold Spec.Netlink.padding; omega
  unfold attrPut
  have ha : align32 (4 + body.length) = 4 + body.length := by unfold align32; omega
  unfold buffer
  rw [rd32_le32 _ _ (by omega)]
  simp only [Option.bind_eq_bind, Option.bind_some, ha]
  rw [show (4 + data.length) % 65536 = 4 + data.length from Nat.mod_eq_of_lt hd]
  have e : ∀ m n, List.replicate (m + n) (0 : UInt8) = List.replicate m 0 ++ List.replicate n 0 := fun m n => by
    rw [List.replicate_append_replicate]
  rw [e 2, e 2, e data.length]
  rw [← List.append_assoc body, ← List.append_assoc (le32 _),
    wr_mid (by simp [le32_length, Nat.add_assoc]) (by simp [le16_length])]
  simp only [Option.bind_some, List.append_assoc]
  rw [← List.append_assoc (le32 _), wr_mid (by simp [le32_length]) (by simp [le16_length])]
  simp only [Option.bind_some, List.append_assoc]
  rw [← List.append_assoc (le16 _) (le16 _), ← List.append_assoc body, ← List.append_assoc (le32 _),
    wr_mid (by simp [le32_length, le16_length]; omega) (by simp)]
  simp only [Option.bind_some, List.append_assoc]
  rw [rd32_le32 _ _ (by omega)]
  simp only [Option.bind_some]
  rw [← List.nil_append (le32 (4 + body.length) ++ _), wr_mid (a := []) (off := 0) rfl (by simp [le32_length])]
  simp only [List.nil_append, Option.some.injEq]
  rw [attr_pad, e (Spec.Netlink.padding data.length)]
  simp only [Spec.Netlink.encAttr, bytes2, List.length_append, le16_length, List.length_replicate, List.append_assoc]
  congr 2
  · omega
  · simp
    omega

theorem hdr_length (type seq cmd version : Nat) : (hdr type seq cmd version).length = 16 := rfl

theorem finish_eq {as : Bytes} {type cmd version k : Nat} (seq : Nat) (h : 20 + as.length < 4294967296) :
    finish (some (buffer (hdr type 0 cmd version ++ as) k)) seq =
      some (le32 (20 + as.length) ++ (hdr type seq cmd version ++ as)) := by
  unfold finish buffer
  have e1 : le32 (4 + (hdr type 0 cmd version ++ as).length) ++ (hdr type 0 cmd version ++ as ++ List.replicate k 0) =
      (le32 (20 + as.length) ++ (le16 type ++ le16 5)) ++ (le32 0 ++ (le32 0 ++ ([UInt8.ofNat cmd, UInt8.ofNat version, 0, 0] ++ (as ++ List.replicate k 0)))) := by
    rw [List.length_append, hdr_length]
    simp only [hdr, List.append_assoc]
    congr 2
    omega
  simp only [Option.bind_eq_bind, Option.bind_some]
  rw [e1, wr_mid (by rfl) (by rfl)]
  simp only [Option.bind_some, List.append_assoc]
  rw [rd32_le32 _ _ h]
  simp only [Option.bind_some]
  rw [if_neg (by simp [le32_length, le16_length]; omega)]
  have e2 : le32 (20 + as.length) ++ (le16 type ++ (le16 5 ++ (le32 seq ++ (le32 0 ++ ([UInt8.ofNat cmd, UInt8.ofNat version, 0, 0] ++ (as ++ List.replicate k 0)))))) =
      (le32 (20 + as.length) ++ (hdr type seq cmd version ++ as)) ++ List.replicate k 0 := by
    simp [hdr, List.append_assoc]
  rw [e2, List.take_left' (by simp [le32_length, hdr_length]; omega)]

theorem encode_eq (type seq cmd version : Nat) (as : List Spec.Netlink.Attr) :
    Spec.Netlink.encode { type := type, flags := 5, seq := seq, pid := 0, cmd := cmd, version := version, attrs := as } =
      le32 (20 + (Spec.Netlink.encAttrs as).length) ++ (hdr type seq cmd version ++ Spec.Netlink.encAttrs as) := by
  simp only [Spec.Netlink.encode, bytes4, bytes2, bytes1, hdr, List.append_assoc]
  rfl

theorem encAttr_length (a : Spec.Netlink.Attr) : (Spec.Netlink.encAttr a).length = 4 + a.payload.length + Spec.Netlink.padding a.payload.length := by
  simp [Spec.Netlink.encAttr, bytes2, le16_length]
  omega

theorem encAttr_length4 (a : Spec.Netlink.Attr) : (Spec.Netlink.encAttr a).length % 4 = 0 := by
  rw [encAttr_length]; unfold Spec.Netlink.padding; omega

theorem encAttrs_length4 (l : List Spec.Netlink.Attr) : (Spec.Netlink.encAttrs l).length % 4 = 0 := by
  induction l with
  | nil => rfl
  | cons a l ih =>
    have := encAttr_length4 a
    simp only [Spec.Netlink.encAttrs, List.flatMap_cons, List.length_append] at ih ⊢
    omega

theorem encAttrs_append (l m : List Spec.Netlink.Attr) :
    Spec.Netlink.encAttrs (l ++ m) = Spec.Netlink.encAttrs l ++ Spec.Netlink.encAttrs m := by
  simp [Spec.Netlink.encAttrs]

/-- Room in the buffer that attributes need -/
def room : List Spec.Netlink.Attr → Nat
  | [] => 0
  | a :: l => 4 + a.payload.length + Spec.Netlink.padding a.payload.length + room l

/-- Adding attributes one after another -/
def puts : List Spec.Netlink.Attr → Bytes → Option Bytes
  | [], b => some b
  | a :: l, b => (attrPut b a.type a.payload).bind (puts l)

theorem puts_eq (l done : List Spec.Netlink.Attr) (type cmd version k : Nat) (hl : ∀ a ∈ l, 4 + a.payload.length < 65536)
    (hs : 20 + (Spec.Netlink.encAttrs done).length + room l < 4294967296) (hk : room l ≤ k) :
    puts l (buffer (hdr type 0 cmd version ++ Spec.Netlink.encAttrs done) k) =
      some (buffer (hdr type 0 cmd version ++ Spec.Netlink.encAttrs (done ++ l)) (k - room l)) := by
  induction l generalizing done k with
  | nil => simp [puts, room]
  | cons a l ih =>
    simp only [room] at hs hk
    have h4 := encAttrs_length4 done
    unfold puts
    rw [attrPut_eq a.type (by simp only [List.length_append, hdr_length]; omega) (hl a (by simp))
      (by simp only [List.length_append, hdr_length]; omega) (by omega)]
    simp only [Option.bind_some]
    have e : hdr type 0 cmd version ++ Spec.Netlink.encAttrs done ++ Spec.Netlink.encAttr ⟨a.type, a.payload⟩ =
        hdr type 0 cmd version ++ Spec.Netlink.encAttrs (done ++ [a]) := by
      rw [encAttrs_append]; simp [Spec.Netlink.encAttrs]
    have hlen : (Spec.Netlink.encAttrs (done ++ [a])).length =
        (Spec.Netlink.encAttrs done).length + (4 + a.payload.length + Spec.Netlink.padding a.payload.length) := by
      rw [encAttrs_append]; simp [Spec.Netlink.encAttrs, encAttr_length]
    rw [e, ih (done ++ [a]) _ (fun b hb => hl b (by simp [hb])) (by rw [hlen]; omega) (by omega)]
    simp only [List.append_assoc, List.singleton_append, room]
    congr 2
    omega

/-- A request: the message that is sent, for any contents of the stack -/
theorem req_eq {stack : Bytes} (l : List Spec.Netlink.Attr) (type cmd version seq : Nat) (hl : ∀ a ∈ l, 4 + a.payload.length < 65536)
    (hs : 20 + room l ≤ stack.length) (hb : 20 + room l < 4294967296) :
    finish ((start stack type cmd version).bind (puts l)) seq =
      some (Spec.Netlink.encode { type := type, flags := 5, seq := seq, pid := 0, cmd := cmd, version := version, attrs := l }) := by
  rw [start_eq _ _ _ (by omega), Option.bind_some]
  have h := puts_eq l [] type cmd version (stack.length - 20) hl (by simp [Spec.Netlink.encAttrs]; omega) (by omega)
  have hlen : ∀ l, (Spec.Netlink.encAttrs l).length = room l := by
    intro l
    induction l with
    | nil => rfl
    | cons a l ih =>
      rw [show Spec.Netlink.encAttrs (a :: l) = Spec.Netlink.encAttr a ++ Spec.Netlink.encAttrs l from by simp [Spec.Netlink.encAttrs]]
      rw [List.length_append, ih, encAttr_length]; rfl
  have e0 : hdr type 0 cmd version ++ Spec.Netlink.encAttrs [] = hdr type 0 cmd version := by simp [Spec.Netlink.encAttrs]
  rw [e0] at h
  rw [h, List.nil_append, finish_eq seq (by rw [hlen]; omega), encode_eq]

end Fastd.L2tp
