import Verif.Offload.Build

/-!
# Netlink: lemmas about the specification
-/

namespace Fastd.Spec.Netlink

theorem bytes_length (k n : Nat) : (bytes k n).length = k := by
  induction k generalizing n with
  | zero => rfl
  | succ k ih => simp [bytes, ih]

theorem num_bytes (k n : Nat) (h : n < 256 ^ k) : num (bytes k n) = n := by
  induction k generalizing n with
  | zero => simp at h; subst h; rfl
  | succ k ih =>
    rw [bytes, num, ih _ (by rw [Nat.pow_succ] at h; omega)]
    simp
    omega

theorem take_bytes (k n : Nat) (l : Bytes) : (bytes k n ++ l).take k = bytes k n := by
  rw [List.take_left' (bytes_length k n)]

theorem drop_bytes (k n : Nat) (l : Bytes) : (bytes k n ++ l).drop k = l := by
  rw [List.drop_left' (bytes_length k n)]

/-- Attributes that can be written -/
def AttrOk (a : Attr) : Prop := a.type < 65536 ∧ 4 + a.payload.length < 65536

theorem attrs_cons (a : Attr) (l : Bytes) (as : List Attr) (ha : AttrOk a) (h : attrs l = some as) :
    attrs (encAttr a ++ l) = some (a :: as) := by
  obtain ⟨ht, hp⟩ := ha
  have hlen : (encAttr a).length = 4 + a.payload.length + padding a.payload.length := L2tp.encAttr_length a
  rw [attrs]
  have e : encAttr a ++ l = bytes 2 (4 + a.payload.length) ++ (bytes 2 a.type ++ (a.payload ++ (List.replicate (padding a.payload.length) 0 ++ l))) := by
    simp [encAttr]
  rw [dif_neg (by intro h; have := congrArg List.length h; simp [hlen] at this)]
  have hn : num ((encAttr a ++ l).take 2) = 4 + a.payload.length := by
    rw [e, take_bytes, num_bytes _ _ (by omega)]
  simp only [hn]
  rw [if_neg (by simp only [List.length_append, hlen]; omega)]
  have hpad : 4 + a.payload.length + padding (4 + a.payload.length) = (encAttr a).length := by
    rw [hlen]; unfold padding; omega
  rw [hpad, List.drop_left, h]
  have ht' : num (((encAttr a ++ l).drop 2).take 2) = a.type := by
    rw [e, drop_bytes, take_bytes, num_bytes _ _ (by omega)]
  have hp' : ((encAttr a ++ l).take (4 + a.payload.length)).drop 4 = a.payload := by
    rw [List.drop_take, Nat.add_sub_cancel_left, e, ← List.append_assoc, List.drop_left' (by simp [bytes_length]),
      List.take_left]
  simp only [ht', hp']

theorem attrs_encAttrs (l : List Attr) (h : ∀ a ∈ l, AttrOk a) : attrs (encAttrs l) = some l := by
  induction l with
  | nil => rw [attrs]; rfl
  | cons a l ih =>
    rw [show encAttrs (a :: l) = encAttr a ++ encAttrs l from by simp [encAttrs]]
    exact attrs_cons a _ _ (h a (by simp)) (ih fun b hb => h b (by simp [hb]))

/-- Messages that can be written -/
structure MsgOk (m : Msg) : Prop where
  type : m.type < 65536
  flags : m.flags < 65536
  seq : m.seq < 4294967296
  pid : m.pid < 4294967296
  cmd : m.cmd < 256
  version : m.version < 256
  attrs : ∀ a ∈ m.attrs, AttrOk a
  size : 20 + (encAttrs m.attrs).length < 4294967296

theorem encode_length (m : Msg) : (encode m).length = 20 + (encAttrs m.attrs).length := by
  simp [encode, bytes_length]
  omega

theorem decode_encode {m : Msg} (h : MsgOk m) : decode (encode m) = some m := by
  have hlen := encode_length m
  have e : encode m = bytes 4 (20 + (encAttrs m.attrs).length) ++ (bytes 2 m.type ++ (bytes 2 m.flags ++ (bytes 4 m.seq ++ (bytes 4 m.pid
    ++ (bytes 1 m.cmd ++ (bytes 1 m.version ++ (bytes 2 0 ++ encAttrs m.attrs))))))) := by simp [encode]
  unfold decode
  have d4 : (encode m).drop 4 = bytes 2 m.type ++ (bytes 2 m.flags ++ (bytes 4 m.seq ++ (bytes 4 m.pid
    ++ (bytes 1 m.cmd ++ (bytes 1 m.version ++ (bytes 2 0 ++ encAttrs m.attrs)))))) := by rw [e, drop_bytes]
  have d6 : (encode m).drop 6 = bytes 2 m.flags ++ (bytes 4 m.seq ++ (bytes 4 m.pid
    ++ (bytes 1 m.cmd ++ (bytes 1 m.version ++ (bytes 2 0 ++ encAttrs m.attrs))))) := by
    rw [show 6 = 4 + 2 from rfl, ← List.drop_drop, d4, drop_bytes]
  have d8 : (encode m).drop 8 = bytes 4 m.seq ++ (bytes 4 m.pid
    ++ (bytes 1 m.cmd ++ (bytes 1 m.version ++ (bytes 2 0 ++ encAttrs m.attrs)))) := by
    rw [show 8 = 6 + 2 from rfl, ← List.drop_drop, d6, drop_bytes]
  have d12 : (encode m).drop 12 = bytes 4 m.pid
    ++ (bytes 1 m.cmd ++ (bytes 1 m.version ++ (bytes 2 0 ++ encAttrs m.attrs))) := by
    rw [show 12 = 8 + 4 from rfl, ← List.drop_drop, d8, drop_bytes]
  have d16 : (encode m).drop 16 = bytes 1 m.cmd ++ (bytes 1 m.version ++ (bytes 2 0 ++ encAttrs m.attrs)) := by
    rw [show 16 = 12 + 4 from rfl, ← List.drop_drop, d12, drop_bytes]
  have d17 : (encode m).drop 17 = bytes 1 m.version ++ (bytes 2 0 ++ encAttrs m.attrs) := by
    rw [show 17 = 16 + 1 from rfl, ← List.drop_drop, d16, drop_bytes]
  have d18 : (encode m).drop 18 = bytes 2 0 ++ encAttrs m.attrs := by
    rw [show 18 = 17 + 1 from rfl, ← List.drop_drop, d17, drop_bytes]
  have d20 : (encode m).drop 20 = encAttrs m.attrs := by
    rw [show 20 = 18 + 2 from rfl, ← List.drop_drop, d18, drop_bytes]
  have t4 : num ((encode m).take 4) = (encode m).length := by
    rw [hlen, e, take_bytes, num_bytes _ _ (by have := h.size; omega)]
  rw [if_neg (by rw [hlen] at *; omega), d20, attrs_encAttrs _ h.attrs]
  simp only [d4, d6, d8, d12, d16, d17, take_bytes]
  rw [num_bytes _ _ (by have := h.type; omega), num_bytes _ _ (by have := h.flags; omega), num_bytes _ _ (by have := h.seq; omega),
    num_bytes _ _ (by have := h.pid; omega), num_bytes _ _ (by have := h.cmd; omega), num_bytes _ _ (by have := h.version; omega)]

end Fastd.Spec.Netlink
