import Verif.Method.Aead
import Verif.Method.CommonLemmas
import Verif.Spec.Aead
import Verif.Buffer.Slice
import Verif.Props.Poly1305

/-! Helper lemmas for the payload methods. -/

namespace Fastd.Method

open Fastd.Buffer Fastd.Spec

/-- `crypt` is the stream cipher with key stream `ks` for IVs of `ivLen` bytes, on whole blocks of not more than `maxLen` bytes. -/
def CipherIs (maxLen ivLen : Nat) (crypt : Crypt) (ks : KeyStream) : Prop :=
  ∀ iv x, iv.length = ivLen → x.length % 16 = 0 → x.length ≤ maxLen → crypt iv x = some (stream ks iv x)

/-- `digest` is `mac` on zero padded messages of not more than `maxLen` bytes, with 16-byte results. -/
def MacIs (maxLen : Nat) (digest : Digest) (mac : Spec.Bytes → Nat → Spec.Bytes) : Prop :=
  ∀ m, m.length ≤ maxLen → digest (pad16 m) m.length = some (mac (pad16 m) m.length) ∧ (mac (pad16 m) m.length).length = 16

@[simp] theorem expandNonce_length (n : Nonce) (len : Nat) : (expandNonce n len).length = len := by
  unfold expandNonce
  split
  · next h => rw [h]; rfl
  · simp

/-! ### Byte strings -/

@[simp] theorem stream_length (ks : KeyStream) (iv l) : (stream ks iv l).length = l.length := by
  simp [stream]

theorem stream_take (ks : KeyStream) (iv l n) : (stream ks iv l).take n = stream ks iv (l.take n) := by
  unfold stream
  apply List.ext_getElem?
  intro i
  by_cases h : i < n <;> simp [h]

theorem stream_stream (ks : KeyStream) (iv l) : stream ks iv (stream ks iv l) = l := by
  unfold stream
  apply List.ext_getElem?
  intro i
  rw [List.getElem?_mapIdx, List.getElem?_mapIdx]
  cases l[i]? with
  | none => rfl
  | some x => simp [UInt8.xor_assoc]

/-- The key stream is used position by position. -/
theorem stream_drop_congr (ks : KeyStream) (iv a b l) (h : a.length = b.length) :
    (stream ks iv (a ++ l)).drop a.length = (stream ks iv (b ++ l)).drop a.length := by
  unfold stream
  apply List.ext_getElem?
  intro i
  rw [List.getElem?_drop, List.getElem?_drop, List.getElem?_mapIdx, List.getElem?_mapIdx,
    List.getElem?_append_right (by omega), List.getElem?_append_right (by omega)]
  rw [h]

theorem xor_length (a b : Spec.Bytes) : (Spec.xor a b).length = min a.length b.length := by
  simp [Spec.xor]

/-- Unmasking: if `t` is masked key stream and we xor, we get back the mask's argument. -/
theorem stream_unmask (ks : KeyStream) (iv) (t m : Spec.Bytes) (n : Nat) (hm : m.length = n)
    (ht : t = Spec.xor (stream ks iv (List.replicate n 0)) m) : stream ks iv t = m := by
  subst ht
  unfold stream Spec.xor
  apply List.ext_getElem?
  intro i
  simp only [List.getElem?_mapIdx, List.getElem?_zipWith, List.getElem?_replicate]
  by_cases hi : i < n
  · have : m[i]? = some (m[i]'(by omega)) := List.getElem?_eq_getElem _
    rw [this]
    simp [hi, UInt8.xor_comm (ks iv i), UInt8.xor_assoc]
  · have : m[i]? = none := List.getElem?_eq_none (by omega)
    rw [this]
    simp [hi]

theorem stream_append_take (ks : KeyStream) (iv a b) :
    (stream ks iv (a ++ b)).take a.length = stream ks iv a := by
  rw [stream_take]; simp

theorem stream_append (ks : KeyStream) (iv a b) :
    stream ks iv (a ++ b) = stream ks iv a ++ (stream ks iv (a ++ b)).drop a.length := by
  conv => lhs; rw [← List.take_append_drop a.length (stream ks iv (a ++ b))]
  rw [stream_append_take]

/-! ### Soundness of the specifications -/

theorem generic_sound (ks : KeyStream) (iv mac) (hm : ∀ x n, (mac x n).length = 16) :
    (generic ks iv mac).Sound := by
  intro n p
  simp only [generic]
  set c := stream ks (iv n) (List.replicate 16 0 ++ p) with hc
  have hcl : c.length = 16 + p.length := by
    rw [hc]; simp only [stream_length, List.length_append, List.length_replicate]
  set t := Spec.xor (c.take 16) (mac (pad16 (c.drop 16)) p.length) with ht
  have htl : t.length = 16 := by rw [ht, xor_length, hm]; simp; omega
  have h1 : (t ++ c.drop 16).length = 16 + p.length := by simp [htl]; omega
  have h2 : (t ++ c.drop 16).drop 16 = c.drop 16 := by
    rw [List.drop_append_of_le_length (by omega), ← htl, List.drop_length]; rfl
  rw [if_neg (by omega), h2]
  have h3 : (stream ks (iv n) (t ++ c.drop 16)).take 16 = mac (pad16 (c.drop 16)) p.length := by
    rw [stream_take, List.take_append_of_le_length (by omega), List.take_of_length_le (by omega)]
    apply stream_unmask ks (iv n) t _ 16 (hm _ _)
    rw [ht, hc, stream_take]
    congr 2
  rw [h1, show 16 + p.length - 16 = p.length by omega, if_pos h3]
  have h4 : (stream ks (iv n) (t ++ c.drop 16)).drop 16 = p := by
    have e := stream_drop_congr ks (iv n) t (c.take 16) (c.drop 16) (by simp; omega)
    rw [htl, List.take_append_drop] at e
    rw [e, hc, stream_stream]
    simp
  rw [h4]

theorem composed_sound (ks ksm : KeyStream) (iv ivm mac) (hm : ∀ x n, (mac x n).length = 16) :
    (composed ks ksm iv ivm mac).Sound := by
  intro n p
  simp only [composed]
  set c := stream ks (iv n) p with hc
  have hcl : c.length = p.length := by simp [hc]
  set t := Spec.xor (stream ksm (ivm n) (List.replicate 16 0)) (mac (pad16 c) p.length) with ht
  have htl : t.length = 16 := by rw [ht, xor_length, hm]; simp
  have h1 : (t ++ c).length = 16 + p.length := by simp [htl]; omega
  have h2 : (t ++ c).drop 16 = c := by
    rw [List.drop_append_of_le_length (by omega), ← htl, List.drop_length]; rfl
  have h3 : (t ++ c).take 16 = t := by
    rw [List.take_append_of_le_length (by omega), List.take_of_length_le (by omega)]
  rw [if_neg (by omega), h2, h3, h1, show 16 + p.length - 16 = p.length by omega,
    stream_unmask ksm (ivm n) t _ 16 (hm _ _) ht, if_pos rfl, hc, stream_stream]

theorem poly_sound (ks : KeyStream) (iv auth) (hm : ∀ k x, (auth k x).length = 16) :
    (Spec.poly1305 ks iv auth).Sound := by
  intro n p
  simp only [Spec.poly1305]
  set c := stream ks (iv n) (List.replicate 32 0 ++ p) with hc
  have hcl : c.length = 32 + p.length := by
    rw [hc]; simp only [stream_length, List.length_append, List.length_replicate]
  set t := auth (c.take 32) (c.drop 32) with ht
  have htl : t.length = 16 := hm _ _
  have h1 : (t ++ c.drop 32).length = 16 + p.length := by simp [htl]; omega
  have h2 : (t ++ c.drop 32).drop 16 = c.drop 32 := by
    rw [List.drop_append_of_le_length (by omega), ← htl, List.drop_length]; rfl
  have h3 : (t ++ c.drop 32).take 16 = t := by
    rw [List.take_append_of_le_length (by omega), List.take_of_length_le (by omega)]
  have h4 : (stream ks (iv n) (List.replicate 32 0 ++ c.drop 32)).take 32 = c.take 32 := by
    rw [hc, stream_take, stream_take]; simp
  have h5 : (stream ks (iv n) (List.replicate 32 0 ++ c.drop 32)).drop 32 = p := by
    have e := stream_drop_congr ks (iv n) (List.replicate 32 0) (c.take 32) (c.drop 32)
      (by simp; omega)
    rw [List.length_replicate, List.take_append_drop] at e
    rw [e, hc, stream_stream]; simp
  rw [if_neg (by omega), h2, h3, h4, h5, if_pos ht.symm]

theorem cipherTest_sound (ks : KeyStream) (iv) : (cipherTest ks iv).Sound := by
  intro n p; simp [cipherTest, stream_stream]

/-! ### Encryption -/

theorem putHeaderBuf_ok (s : Common) (b : Buf) (hw : b.WF) (ho : 8 ≤ b.off) :
    ∃ b', putHeaderBuf s b = .ok (b', { s with sendNonce := incrNonce s.sendNonce }) ∧ b'.WF ∧
      b'.data = packetType s.compat :: 0 :: (s.sendNonce.toList ++ b.data) ∧ b'.off + 8 = b.off ∧
      b'.base.length = b.base.length := by
  have hn : s.sendNonce.toList.length = 6 := by simp
  obtain ⟨b1, e1, w1, l1, d1, o1, _⟩ := pushFrom_ok b s.sendNonce.toList hw (by omega)
  obtain ⟨b2, e2, w2, l2, d2, o2, _⟩ := pushFrom_ok b1 [0] w1 (by simp; omega)
  have o2' : b2.off + 1 = b1.off := o2
  obtain ⟨b3, e3, w3, l3, d3, o3, _⟩ := pushFrom_ok b2 [packetType s.compat] w2 (by simp; omega)
  have o3' : b3.off + 1 = b2.off := o3
  refine ⟨b3, ?_, w3, ?_, by omega, by omega⟩
  · unfold putHeaderBuf
    rw [e1, bind_ok, e2, bind_ok, e3, bind_ok]; rfl
  · rw [d3, d2, d1]; simp

theorem pad16_eq (l : Spec.Bytes) : pad16 l = l ++ List.replicate (padLen l.length) 0 := by
  unfold pad16 padLen blockCount
  congr 2
  omega

/-- Zero padding a buffer makes the blocks behind an aligned prefix the padded message. -/
theorem zeroPad_slice (b : Buf) (k : Nat) (hw : b.WF) (hl : b.base.length % 16 = 0) (hk : k ≤ b.len)
    (ha : (b.off + k) % 16 = 0) :
    ∃ m, zeroPad b = .ok { b with base := m } ∧ m.length = b.base.length ∧
      slice m b.off b.len = slice b.base b.off b.len ∧
      slice m (b.off + k) (blockCount (b.len - k) 16 * 16) =
        pad16 (slice b.base (b.off + k) (b.len - k)) := by
  have hw' := hw
  unfold Buf.WF at hw'
  obtain ⟨b', e, w, d, o, l, z⟩ := C08_zero_pad b hw hl
  have : ∃ m, zeroPad b = .ok { b with base := m } := by
    unfold zeroPad
    obtain ⟨m, h1, _⟩ := write_eq (m := b.base) (off := b.off + b.len)
      (d := List.replicate (alignto (b.off + b.len) 16 - (b.off + b.len)) 0)
      (by have := alignto_spec (b.off + b.len); simp; omega)
    exact ⟨m, by simp only []; rw [h1]; rfl⟩
  obtain ⟨m, hm⟩ := this
  rw [hm] at e
  cases e
  simp only at l d z
  refine ⟨m, hm, l, d, ?_⟩
  have hb := blockCount_bounds (b.len - k)
  have ha' := alignto_spec (b.off + b.len)
  have e1 : blockCount (b.len - k) 16 * 16 = (b.len - k) + padLen (b.len - k) := by
    unfold padLen; omega
  rw [e1, slice_add]
  have e2 : slice m (b.off + k) (b.len - k) = slice b.base (b.off + k) (b.len - k) := by
    have h1 : slice m b.off b.len = slice b.base b.off b.len := d
    have h2 : b.len = k + (b.len - k) := by omega
    rw [h2, slice_add, slice_add] at h1
    have := List.append_inj_right h1 (by rw [slice_length (by omega), slice_length (by omega)])
    rw [h2]
    simpa using this
  rw [e2, pad16_eq, slice_length (by omega)]
  congr 1
  apply replicate_slice
  intro i hi1 hi2
  apply z i (by omega)
  have : blockCount (b.len - k) 16 * 16 % 16 = 0 := by omega
  unfold padLen at hi2
  omega

theorem xor_eq (a b : List UInt8) : xorBytes a b = Spec.xor a b := rfl

/-- The common end of encryption. -/
theorem sealEnd_ok (digest : Digest) (mac) {maxLen : Nat} (hmac : MacIs maxLen digest mac) (s : Common) (out : Buf)
    (t c : Spec.Bytes) (hcl : c.length ≤ maxLen) (hw : out.WF) (hl : out.base.length % 16 = 0) (hal : out.off % 16 = 0)
    (ho : 8 ≤ out.off) (ht : t.length = 16) (hd : out.data = t ++ c) :
    ∃ out', sealEnd digest s out = .ok (some (out', { s with sendNonce := incrNonce s.sendNonce })) ∧
      out'.WF ∧ out'.data = packetType s.compat :: 0 :: (s.sendNonce.toList ++
        (Spec.xor t (mac (pad16 c) c.length) ++ c)) ∧ out'.off + 8 = out.off ∧
      out'.base.length = out.base.length := by
  have hlen : out.len = 16 + c.length := by rw [← data_length out hw, hd]; simp [ht]
  have hw' := hw
  unfold Buf.WF at hw'
  obtain ⟨m, e, lm, d, z⟩ := zeroPad_slice out 16 hw hl (by omega) (by omega)
  have hb := blockCount_bounds (out.len - 16)
  have hdat : slice out.base out.off 16 = t ∧ slice out.base (out.off + 16) (out.len - 16) = c := by
    rw [data_slice, hlen, slice_add] at hd
    have := List.append_inj hd (by rw [slice_length (by omega), ht])
    rw [hlen]; simpa using this
  have hdatm : slice m out.off 16 = t ∧ slice m (out.off + 16) (out.len - 16) = c := by
    have hd' : slice m out.off out.len = t ++ c := by rw [d]; exact hd
    rw [hlen, slice_add] at hd'
    have := List.append_inj hd' (by rw [slice_length (by omega), ht])
    rw [hlen]; simpa using this
  have hx : (xorBytes t (mac (pad16 c) c.length)).length = 16 := by
    rw [xor_eq, xor_length, (hmac _ hcl).2, ht]; rfl
  obtain ⟨m2, e2, lm2, d2, a2, _, _⟩ := write_eq (m := m) (off := out.off)
    (d := xorBytes t (mac (pad16 c) c.length)) (by omega)
  have hadd : addTag digest out = .ok (some { out with base := m2 }) := by
    unfold addTag
    rw [e, bind_ok]
    simp only []
    rw [read_eq (by omega), bind_ok, z, hdat.2, show out.len - 16 = c.length by omega, (hmac _ hcl).1]
    simp only []
    rw [read_eq (by omega), bind_ok, hdatm.1, e2]
    rfl
  have hw2 : ({ out with base := m2 } : Buf).WF := by unfold Buf.WF; simp only []; omega
  obtain ⟨b', h1, h2, h3, h4, h5⟩ := putHeaderBuf_ok s { out with base := m2 } hw2 ho
  refine ⟨b', ?_, h2, ?_, h4, by rw [h5]; simp only []; omega⟩
  · unfold sealEnd
    rw [hadd, bind_ok]
    simp only []
    rw [h1]; rfl
  · rw [h3]
    congr 3
    rw [data_slice]
    simp only []
    rw [hlen, slice_add]
    rw [hx] at d2 a2
    rw [d2, a2 _ _ (by omega)]
    have := hdatm.2
    rw [hlen] at this
    simp only [Nat.add_sub_cancel_left] at this
    rw [this]
    rfl

theorem stream_read (ks : KeyStream) (iv) (m : Spec.Bytes) (o n k : Nat) (h : o + (n + k) ≤ m.length) :
    (stream ks iv (slice m o (n + k))).take n = stream ks iv (slice m o n) := by
  rw [stream_take, slice_add, List.take_append_of_le_length (by rw [slice_length (by omega)]),
    List.take_of_length_le (by rw [slice_length (by omega)])]

/-! ### Decryption -/

/-- What can be seen of the result of `method_decrypt`. -/
def Dec.view : Dec → Recv
  | .null _ => .reject
  | .out b s r => .payload b.data s r

/-- The result in terms of the opened payload. -/
def afterDec (s : Common) (now : Time) (n : Nonce) (age : Int) : Option Spec.Bytes → Recv
  | none => .reject
  | some p => match reorderCheck s now n age with
    | (.undef, s') => .payload [] s' none
    | (.false, s') => .payload p s' (some false)
    | (.true, s') => .payload p s' (some true)

theorem finishDecrypt_view (s : Common) (now : Time) (n : Nonce) (age : Int) (out : Buf) :
    (finishDecrypt s now n age out).view = afterDec s now n age (some out.data) := by
  unfold finishDecrypt afterDec
  rcases reorderCheck s now n age with ⟨_ | _ | _, s'⟩ <;> simp [Dec.view, Buf.data]

/-- The checks at the start of every `method_decrypt` with the common header. -/
def shell (minLen : Nat) (s : Common) (now : Time) (b : Buf) (k : Nonce → Int → Res Dec) : Res Dec :=
  if b.len < minLen then .ok (.null b)
  else if s.isValid now = false then .ok (.null b)
  else match handleHeader s now b.data with
  | .bug => .abort
  | .refused => .ok (.null b)
  | .ok n flags age _ => if flags ≠ 0 then .ok (.null b) else k n age

theorem recv_short (a : Aead) (s : Common) (now : Time) (pkt : Spec.Bytes) (h : pkt.length < 8) :
    recv a s now pkt = .reject := by
  rcases pkt with _ | ⟨a0, _ | ⟨a1, _ | ⟨a2, _ | ⟨a3, _ | ⟨a4, _ | ⟨a5, _ | ⟨a6, _ | ⟨a7, r⟩⟩⟩⟩⟩⟩⟩⟩
  all_goals first | rfl | (simp at h; omega)

theorem recv_long (a : Aead) (s : Common) (now : Time) (t f : UInt8) (n : Nonce) (c : Spec.Bytes) :
    recv a s now (t :: f :: (n.toList ++ c)) =
      if t = packetType s.compat ∧ f = 0 then
        match receive s now n, a.dec n c with
        | (.rejected, _), _ => .reject
        | _, none => .reject
        | (.inOrder, s'), some p => .payload p s' (some false)
        | (.reordered, s'), some p => .payload p s' (some true)
        | (.duplicate, s'), some _ => .payload [] s' none
      else .reject := by
  obtain ⟨a, b, c, d, e, f, rfl⟩ := exists6 n
  rfl

theorem split_packet (pkt : Spec.Bytes) (h : 8 ≤ pkt.length) :
    ∃ (t f : UInt8) (n : Nonce) (c : Spec.Bytes), pkt = t :: f :: (n.toList ++ c) ∧
      takeHeader pkt = some (t, f, n, c) := by
  rcases pkt with _ | ⟨a0, _ | ⟨a1, _ | ⟨a2, _ | ⟨a3, _ | ⟨a4, _ | ⟨a5, _ | ⟨a6, _ | ⟨a7, r⟩⟩⟩⟩⟩⟩⟩⟩
  all_goals first | (exfalso; simp at h; done) | skip
  exact ⟨a0, a1, #v[a2, a3, a4, a5, a6, a7], r, rfl, rfl⟩

theorem shell_ok (a : Aead) (minLen : Nat) (s : Common) (now : Time) (b : Buf)
    (k : Nonce → Int → Res Dec) (hw : b.WF) (h8 : 8 ≤ minLen)
    (hmin : ∀ n c, c.length + 8 < minLen → a.dec n c = none)
    (hk : ∀ n age c, b.data = packetType s.compat :: 0 :: (n.toList ++ c) →
      minLen ≤ b.len → ∃ d, k n age = .ok d ∧
      d.view = afterDec s now n age (a.dec n c) ∧
      ∀ b', d = .null b' → b'.data = b.data ∧ b'.off = b.off ∧ b'.len = b.len) :
    ∃ d, shell minLen s now b k = .ok d ∧ d.view = recv a s now b.data ∧
      ∀ b', d = .null b' → b'.data = b.data ∧ b'.off = b.off ∧ b'.len = b.len := by
  have hdl := data_length b hw
  unfold shell
  have triv : ∀ r, r = Recv.reject → ∃ d, Res.ok (Dec.null b) = .ok d ∧ d.view = r ∧
      ∀ b', d = .null b' → b'.data = b.data ∧ b'.off = b.off ∧ b'.len = b.len := by
    intro r hr
    refine ⟨_, rfl, hr.symm, ?_⟩
    intro b' hb; cases hb; exact ⟨rfl, rfl, rfl⟩
  by_cases hs : b.data.length < 8
  · rw [if_pos (by omega)]
    exact triv _ (recv_short a s now _ hs)
  obtain ⟨t, f, n, c, hd, ht⟩ := split_packet b.data (by omega)
  have hcl : b.len = c.length + 8 := by
    rw [← hdl, hd]; simp; omega
  have hr := recv_long a s now t f n c
  rw [← hd] at hr
  rw [hr]
  by_cases h1 : b.len < minLen
  · rw [if_pos h1, hmin n c (by omega)]
    apply triv
    split
    · rcases receive s now n with ⟨_ | _ | _ | _, s'⟩ <;> rfl
    · rfl
  rw [if_neg h1]
  by_cases h2 : s.isValid now = false
  · rw [if_pos h2]
    apply triv
    have : receive s now n = (.rejected, s) := by unfold receive; simp [h2]
    rw [this]
    split <;> rfl
  rw [if_neg h2]
  have h2' : s.isValid now = true := by simpa using h2
  unfold handleHeader
  rw [ht]
  simp only []
  by_cases h3 : t = packetType s.compat
  swap
  · rw [if_neg h3, if_neg (fun h => h3 h.1)]
    exact triv _ rfl
  rw [if_pos h3]
  cases hv : isNonceValid s now n with
  | none =>
    have : receive s now n = (.rejected, s) := by unfold receive; simp [h2', hv]
    rw [this]
    simp only []
    exact triv _ (by split <;> rfl)
  | some age =>
    simp only []
    by_cases h4 : f = 0
    swap
    · rw [if_pos h4, if_neg (fun h => h4 h.2)]
      exact triv _ rfl
    rw [if_neg (by simpa using h4), if_pos ⟨h3, h4⟩]
    obtain ⟨d, e1, e2, e3⟩ := hk n age c (by rw [hd, h3, h4]) (by omega)
    refine ⟨d, e1, ?_, e3⟩
    rw [e2]
    unfold receive afterDec
    rw [if_pos h2', hv]
    simp only []
    rcases reorderCheck s now n age with ⟨_ | _ | _, s'⟩ <;> cases a.dec n c <;> rfl

/-- The end of `method_decrypt` for the MAC methods: `t` is the decrypted first block, `c` the
received rest, `p` the decrypted rest. -/
theorem openEnd_ok (digest : Digest) (mac) {maxLen : Nat} (hmac : MacIs maxLen digest mac) (s : Common) (now : Time)
    (n : Nonce) (age : Int) (b : Buf) (off len : Nat) (out : Buf) (t p c : Spec.Bytes)
    (hin : off + 16 + blockCount (len - 16) 16 * 16 ≤ b.base.length)
    (hpad : slice b.base (off + 16) (blockCount (len - 16) 16 * 16) = pad16 c)
    (hc : len - 16 = c.length) (hcl : c.length ≤ maxLen) (hw : out.WF) (ht : t.length = 16) (hd : out.data = t ++ p) :
    ∃ d, openEnd digest s now n age b off len out = .ok d ∧
      d.view = afterDec s now n age (if t = mac (pad16 c) c.length then some p else none) ∧
      ∀ b', d = .null b' → b' = b := by
  have hdl := data_length out hw
  have hw' := hw
  unfold Buf.WF at hw'
  have hol : out.len = 16 + p.length := by rw [← hdl, hd]; simp [ht]
  unfold openEnd
  rw [read_eq hin, bind_ok, hpad, hc, (hmac _ hcl).1]
  simp only []
  rw [read_eq (by omega), bind_ok]
  have h0 : slice out.base out.off 16 = t := by
    rw [data_slice, hol, slice_add] at hd
    exact (List.append_inj hd (by rw [slice_length (by omega), ht])).1
  rw [h0]
  by_cases he : mac (pad16 c) c.length = t
  · rw [if_neg (by simpa using he), if_pos he.symm]
    obtain ⟨o', e1, w1, _, d1, _⟩ := (C08_pull out 16 hw).2 (by omega)
    rw [e1, bind_ok]
    refine ⟨_, rfl, ?_, ?_⟩
    · rw [finishDecrypt_view, d1, hd, ← ht, List.drop_left]
    · intro b' hb
      unfold finishDecrypt at hb
      split at hb <;> cases hb
  · rw [if_pos he, if_neg (fun h => he h.symm)]
    refine ⟨_, rfl, rfl, ?_⟩
    intro b' hb; cases hb; rfl

end Fastd.Method
