import Verif.Method.AeadLemmas

/-!
# Properties C62 (payload methods) and C09 for all methods

The specification is in `Verif/Spec/Aead.lean`. `CipherIs` says that the cipher is a stream cipher,
`MacIs` that the MAC succeeds with a 16-byte result, both for messages that fit in a buffer; that this holds for the ciphers and MACs
fastd has is C108 (the null cipher has the all zero key stream). Ciphers and MACs are arbitrary otherwise.
-/

namespace Fastd.Method

open Fastd.Buffer Fastd.Spec

/-- A buffer's storage: at least `ctx.max_buffer` bytes, a multiple of 16 (src/buffer.c:20-45). -/
def Storage (st : Spec.Bytes) (maxBuffer : Nat) : Prop := st.length % 16 = 0 ∧ maxBuffer ≤ st.length

/-- A received packet as `protocol_handle_recv` passes it to the methods: inside its storage, with
its blocks 16-byte aligned behind the 8-byte header, zero padded. -/
def Received (b : Buf) : Prop :=
  b.WF ∧ b.base.length % 16 = 0 ∧ b.off % 16 = 8 ∧
  ∀ i, b.off + b.len ≤ i → i < alignto (b.off + b.len) 16 → b.base[i]? = some 0

theorem slice_eq_of_data {b : Buf} {x c : Spec.Bytes} {k : Nat} (hw : b.WF) (hd : b.data = x ++ c)
    (hx : x.length = k) : slice b.base b.off k = x ∧ slice b.base (b.off + k) (b.len - k) = c ∧
      b.len = k + c.length := by
  have hl : b.len = k + c.length := by rw [← data_length b hw, hd]; simp [hx]
  unfold Buf.WF at hw
  rw [data_slice, hl, slice_add] at hd
  have := List.append_inj hd (by rw [slice_length (by omega), hx])
  refine ⟨this.1, ?_, hl⟩
  rw [hl]; simpa using this.2

theorem received_pad {b : Buf} (h : Received b) (k : Nat) (hk : k ≤ b.len) (ha : (b.off + k) % 16 = 0) :
    slice b.base (b.off + k) (blockCount (b.len - k) 16 * 16) =
      pad16 (slice b.base (b.off + k) (b.len - k)) ∧
    b.off + k + blockCount (b.len - k) 16 * 16 ≤ b.base.length := by
  obtain ⟨hw, hl, _, hz⟩ := h
  unfold Buf.WF at hw
  have hb := blockCount_bounds (b.len - k)
  have ha' := alignto_spec (b.off + b.len)
  refine ⟨?_, by omega⟩
  have e1 : blockCount (b.len - k) 16 * 16 = (b.len - k) + padLen (b.len - k) := by
    unfold padLen; omega
  rw [e1, slice_add, pad16_eq, slice_length (by omega)]
  congr 1
  apply replicate_slice
  intro i hi1 hi2
  apply hz i (by omega)
  unfold padLen at hi2
  omega

/-! ## generic-gmac, generic-umac -/

/-- **C62 (generic-gmac, generic-umac).** Encryption of any payload in any session state succeeds and
the packet is the specified one; the nonce is used up. -/
theorem C62_generic_encrypt (ivLen maxBuffer : Nat) (crypt : Crypt) (ks : KeyStream) (hc : CipherIs maxBuffer ivLen crypt ks)
    (digest : Digest) (mac) (hmac : MacIs maxBuffer digest mac) (s : Common) (b : Buf)
    (st : Spec.Bytes) (hw : b.WF) (hl : b.base.length % 16 = 0) (hal : b.off % 16 = 0)
    (hhr : 16 ≤ b.off) (hst : Storage st maxBuffer) (hfit : alignto (16 + (16 + b.len)) 16 ≤ maxBuffer) :
    ∃ out, genEncrypt crypt digest ivLen maxBuffer s b st =
        .ok (some (out, { s with sendNonce := incrNonce s.sendNonce })) ∧ out.WF ∧
      out.data = packet (generic ks (expandNonce · ivLen) mac) s b.data := by
  have hdl := data_length b hw
  obtain ⟨b1, e1, w1, l1, d1, o1, n1, _⟩ := pushFrom_ok b (List.replicate 16 0) hw (by simpa using hhr)
  have o1' : b1.off + 16 = b.off := o1
  have n1' : b1.len = b.len + 16 := n1
  have w1' := w1
  unfold Buf.WF at w1'
  have hb := blockCount_bounds b1.len
  have hfa := alignto_spec (16 + (16 + b.len))
  unfold Storage at hst
  have hrd : b1.off + blockCount b1.len 16 * 16 ≤ b1.base.length := by omega
  set inb := slice b1.base b1.off (blockCount b1.len 16 * 16) with hinb
  have hil : inb.length = blockCount b1.len 16 * 16 := slice_length hrd
  set o := stream ks (expandNonce s.sendNonce ivLen) inb with ho
  have hol : o.length = blockCount b1.len 16 * 16 := by rw [ho, stream_length, hil]
  have hfit1 : alignto (HEADROOM + b1.len) 16 = alignto (16 + (16 + b.len)) 16 := by
    unfold HEADROOM; rw [n1']; congr 1; omega
  obtain ⟨m, em, lm, _, _, _, sm⟩ := write_eq (m := st) (off := HEADROOM) (d := o)
    (by rw [hol]; unfold HEADROOM; omega)
  set c := stream ks (expandNonce s.sendNonce ivLen) (List.replicate 16 0 ++ b.data) with hcc
  have hcl : c.length = 16 + b.data.length := by
    rw [hcc]; simp only [stream_length, List.length_append, List.length_replicate]
  have hdata : slice m HEADROOM b1.len = c := by
    have := sm 0 b1.len (by omega)
    rw [Nat.add_zero, List.drop_zero] at this
    rw [this, ho, hinb, show blockCount b1.len 16 * 16 = b1.len + padLen b1.len by unfold padLen; omega,
      stream_read _ _ _ _ _ _ (by unfold padLen; omega), ← data_slice, d1]
  have hw2 : ({ base := m, off := HEADROOM, len := b1.len } : Buf).WF := by
    unfold Buf.WF HEADROOM; simp only []; omega
  obtain ⟨out, r1, r2, r3, _⟩ := sealEnd_ok digest mac hmac s
    { base := m, off := HEADROOM, len := b1.len } (c.take 16) (c.drop 16) (by simp; omega) hw2
    (by simp only []; omega) (show HEADROOM % 16 = 0 by decide) (show 8 ≤ HEADROOM by decide)
    (by simp; omega)
    (by rw [List.take_append_drop]; exact hdata)
  refine ⟨out, ?_, r2, ?_⟩
  · unfold genEncrypt
    rw [pushZero_eq, e1, bind_ok]
    unfold alloc
    rw [if_neg (by rw [hfit1]; omega), bind_ok, read_eq hrd, bind_ok, hc _ _ (by simp) (by rw [hil]; omega) (by rw [hil]; omega)]
    simp only []
    rw [em, bind_ok, r1]
  · rw [r3]
    simp only [packet, generic, List.length_drop]
    rw [← hcc, hcl]
    simp

/-- **C62, C09 (generic-gmac, generic-umac).** For every received packet and session state, decryption
does exactly what the specification says, without any abort or access outside the buffers; if it
refuses the packet, the packet is unchanged. -/
theorem C62_generic_decrypt (ivLen encHeadroom maxBuffer : Nat) (crypt : Crypt) (ks : KeyStream) (hc : CipherIs maxBuffer ivLen crypt ks)
    (digest : Digest) (mac) (hmac : MacIs maxBuffer digest mac) (s : Common)
    (now : Time) (b : Buf) (st : Spec.Bytes) (hr : Received b) (hst : Storage st maxBuffer)
    (hea : encHeadroom % 16 = 0) (hfit : alignto (encHeadroom - 16 + (b.len - 8)) 16 ≤ maxBuffer) :
    ∃ d, genDecrypt crypt digest ivLen encHeadroom maxBuffer s now b st = .ok d ∧
      d.view = recv (generic ks (expandNonce · ivLen) mac) s now b.data ∧
      ∀ b', d = .null b' → b'.data = b.data ∧ b'.off = b.off ∧ b'.len = b.len := by
  obtain ⟨hw, hl, hal, hz⟩ := id hr
  unfold Storage at hst
  apply shell_ok (generic ks (expandNonce · ivLen) mac) (HEADBYTES + 16) s now b _ hw (by decide)
  · intro n c h
    simp only [generic]
    rw [if_pos (by unfold HEADBYTES at h; omega)]
  intro n age c hd hmin
  unfold HEADBYTES at hmin
  have hd' : b.data = (packetType s.compat :: 0 :: n.toList) ++ c := by rw [hd]; rfl
  obtain ⟨_, s2, s3⟩ := slice_eq_of_data (k := 8) hw hd' (by simp)
  have hfa2 := alignto_spec (encHeadroom - 16 + (b.len - 8))
  have hb := blockCount_bounds (b.len - 8)
  have hb2 := blockCount_bounds (b.len - 8 - 16)
  have hbw := hw
  unfold Buf.WF at hbw
  have hpe := received_pad hr (8 + 16) (by omega) (by omega)
  rw [← Nat.add_assoc, show b.len - (8 + 16) = b.len - 8 - 16 by omega] at hpe
  have hc2 : slice b.base (b.off + 8 + 16) (b.len - 8 - 16) = c.drop 16 := by
    rw [show b.len - 8 = 16 + (b.len - 8 - 16) by omega, slice_add] at s2
    rw [← s2, List.drop_append_of_le_length (by rw [slice_length (by omega)]),
      List.drop_of_length_le (by rw [slice_length (by omega)])]
    rfl
  rw [hc2] at hpe
  have hrd : b.off + 8 + blockCount (b.len - 8) 16 * 16 ≤ b.base.length := by omega
  set inb := slice b.base (b.off + 8) (blockCount (b.len - 8) 16 * 16) with hinb
  have hil : inb.length = blockCount (b.len - 8) 16 * 16 := slice_length hrd
  set o := stream ks (expandNonce n ivLen) inb with ho
  have hol : o.length = blockCount (b.len - 8) 16 * 16 := by rw [ho, stream_length, hil]
  obtain ⟨m, em, lm, _, _, _, sm⟩ := write_eq (m := st) (off := encHeadroom - 16) (d := o)
    (by rw [hol]; omega)
  have hdata : slice m (encHeadroom - 16) (b.len - 8) = stream ks (expandNonce n ivLen) c := by
    have := sm 0 (b.len - 8) (by omega)
    rw [Nat.add_zero, List.drop_zero] at this
    rw [this, ho, hinb, show blockCount (b.len - 8) 16 * 16 = (b.len - 8) + padLen (b.len - 8) by
      unfold padLen; omega, stream_read _ _ _ _ _ _ (by unfold padLen; omega), s2]
  obtain ⟨d, r1, r2, r3⟩ := openEnd_ok digest mac hmac s now n age b (b.off + 8) (b.len - 8)
    { base := m, off := encHeadroom - 16, len := b.len - 8 }
    ((stream ks (expandNonce n ivLen) c).take 16) ((stream ks (expandNonce n ivLen) c).drop 16)
    (c.drop 16) hpe.2 hpe.1 (by simp; omega) (by simp; omega) (by unfold Buf.WF; simp only []; omega)
    (by simp; omega) (by rw [List.take_append_drop]; exact hdata)
  refine ⟨d, ?_, ?_, ?_⟩
  · simp only [HEADBYTES]
    unfold alloc
    rw [if_neg (by omega), bind_ok, read_eq hrd, bind_ok, hc _ _ (by simp) (by rw [hil]; omega) (by rw [hil]; omega)]
    simp only []
    rw [em, bind_ok, r1]
  · rw [r2]
    simp only [generic, List.length_drop]
    rw [if_neg (show ¬ c.length < 16 by omega)]
  · intro b' hb'
    rw [r3 b' hb']
    exact ⟨rfl, rfl, rfl⟩

/-! ## composed-gmac, composed-umac -/

/-- Reading whole blocks, encrypting them and writing them gives the encrypted data at the
destination. -/
theorem crypt_blocks (ks : KeyStream) (iv : Spec.Bytes) (src dst : Spec.Bytes) (so n d : Nat)
    (hs : so + blockCount n 16 * 16 ≤ src.length) (hd : d + blockCount n 16 * 16 ≤ dst.length) :
    ∃ m, write dst d (stream ks iv (slice src so (blockCount n 16 * 16))) = .ok m ∧
      m.length = dst.length ∧ slice m d n = stream ks iv (slice src so n) ∧
      (∀ o k, o + k ≤ d → slice m o k = slice dst o k) := by
  have hb := blockCount_bounds n
  have hol : (stream ks iv (slice src so (blockCount n 16 * 16))).length = blockCount n 16 * 16 := by
    rw [stream_length, slice_length hs]
  obtain ⟨m, em, lm, _, _, bm, sm⟩ := write_eq (m := dst) (off := d)
    (d := stream ks iv (slice src so (blockCount n 16 * 16))) (by omega)
  refine ⟨m, em, lm, ?_, bm⟩
  have := sm 0 n (by omega)
  rw [Nat.add_zero, List.drop_zero] at this
  rw [this, show blockCount n 16 * 16 = n + padLen n by unfold padLen; omega,
    stream_read _ _ _ _ _ _ (by unfold padLen; omega)]

/-- **C62 (composed-gmac, composed-umac).** -/
theorem C62_composed_encrypt (ivLen macIvLen maxBuffer : Nat) (crypt macCrypt : Crypt) (ks ksm : KeyStream) (hc : CipherIs maxBuffer ivLen crypt ks)
    (hcm : CipherIs maxBuffer macIvLen macCrypt ksm) (digest : Digest) (mac) (hmac : MacIs maxBuffer digest mac)
    (s : Common) (b : Buf)
    (st : Spec.Bytes) (hw : b.WF) (hl : b.base.length % 16 = 0) (hal : b.off % 16 = 0)
    (hst : Storage st maxBuffer) (hfit : alignto (16 + (16 + b.len)) 16 ≤ maxBuffer) :
    ∃ out, compEncrypt crypt macCrypt digest ivLen macIvLen maxBuffer s b st =
        .ok (some (out, { s with sendNonce := incrNonce s.sendNonce })) ∧ out.WF ∧
      out.data = packet (composed ks ksm (expandNonce · ivLen) (expandNonce · macIvLen) mac) s b.data := by
  have hdl := data_length b hw
  have hw' := hw
  unfold Buf.WF at hw'
  have hb := blockCount_bounds b.len
  have hfa := alignto_spec (16 + (16 + b.len))
  unfold Storage at hst
  have hrd : b.off + blockCount b.len 16 * 16 ≤ b.base.length := by omega
  set t := stream ksm (expandNonce s.sendNonce macIvLen) (List.replicate 16 0) with ht
  have htl : t.length = 16 := by rw [ht, stream_length, List.length_replicate]
  obtain ⟨m1, em1, lm1, dm1, _, _, _⟩ := write_eq (m := st) (off := 16) (d := t) (by omega)
  obtain ⟨m, em, lm, sm, bm⟩ := crypt_blocks ks (expandNonce s.sendNonce ivLen) b.base m1 b.off b.len
    (16 + 16) hrd (by omega)
  have hw2 : ({ base := m, off := 16, len := 16 + b.len } : Buf).WF := by
    unfold Buf.WF; simp only []; omega
  obtain ⟨out, r1, r2, r3, _⟩ := sealEnd_ok digest mac hmac s
    { base := m, off := 16, len := 16 + b.len } t (stream ks (expandNonce s.sendNonce ivLen) b.data) (by simp; omega) hw2
    (by simp only []; omega) (show 16 % 16 = 0 by decide) (show 8 ≤ 16 by decide) htl
    (by
      rw [data_slice]; simp only []
      rw [htl] at dm1
      rw [slice_add, sm, bm 16 16 (by omega), dm1]; rfl)
  refine ⟨out, ?_, r2, ?_⟩
  · unfold compEncrypt alloc HEADROOM
    rw [if_neg (by omega), bind_ok, hcm _ _ (by simp) (by simp) (by simp; omega)]
    simp only []
    rw [← ht, em1, bind_ok, read_eq hrd, bind_ok, hc _ _ (by simp) (by rw [slice_length hrd]; omega) (by rw [slice_length hrd]; omega)]
    simp only []
    rw [em, bind_ok, r1]
  · rw [r3]
    simp only [packet, composed, stream_length]
    rfl

/-- **C62, C09 (composed-gmac, composed-umac).** -/
theorem C62_composed_decrypt (ivLen macIvLen encHeadroom maxBuffer : Nat) (crypt macCrypt : Crypt) (ks ksm : KeyStream) (hc : CipherIs maxBuffer ivLen crypt ks)
    (hcm : CipherIs maxBuffer macIvLen macCrypt ksm) (digest : Digest) (mac) (hmac : MacIs maxBuffer digest mac)
    (s : Common)
    (now : Time) (b : Buf) (st : Spec.Bytes) (hr : Received b) (hst : Storage st maxBuffer)
    (hea : encHeadroom % 16 = 0) (hfit : alignto (encHeadroom - 16 + (b.len - 8)) 16 ≤ maxBuffer) :
    ∃ d, compDecrypt crypt macCrypt digest ivLen macIvLen encHeadroom maxBuffer s now b st = .ok d ∧
      d.view = recv (composed ks ksm (expandNonce · ivLen) (expandNonce · macIvLen) mac) s now b.data ∧
      ∀ b', d = .null b' → b'.data = b.data ∧ b'.off = b.off ∧ b'.len = b.len := by
  obtain ⟨hw, hl, hal, hz⟩ := id hr
  unfold Storage at hst
  apply shell_ok (composed ks ksm (expandNonce · ivLen) (expandNonce · macIvLen) mac)
    (HEADBYTES + 16) s now b _ hw (by decide)
  · intro n c h
    simp only [composed]
    rw [if_pos (by unfold HEADBYTES at h; omega)]
  intro n age c hd hmin
  unfold HEADBYTES at hmin
  have hd' : b.data = (packetType s.compat :: 0 :: n.toList) ++ c := by rw [hd]; rfl
  obtain ⟨_, s2, s3⟩ := slice_eq_of_data (k := 8) hw hd' (by simp)
  have hfa2 := alignto_spec (encHeadroom - 16 + (b.len - 8))
  have hbw := hw
  unfold Buf.WF at hbw
  have hpe := received_pad hr (8 + 16) (by omega) (by omega)
  rw [← Nat.add_assoc, show b.len - (8 + 16) = b.len - 8 - 16 by omega] at hpe
  have hc12 : slice b.base (b.off + 8) 16 = c.take 16 ∧
      slice b.base (b.off + 8 + 16) (b.len - 8 - 16) = c.drop 16 := by
    rw [show b.len - 8 = 16 + (b.len - 8 - 16) by omega, slice_add] at s2
    have h16 : (slice b.base (b.off + 8) 16).length = 16 := slice_length (by omega)
    rw [← s2]
    constructor
    · rw [List.take_append_of_le_length (by omega), List.take_of_length_le (by omega)]
    · rw [List.drop_append_of_le_length (by omega), List.drop_of_length_le (by omega)]
      rfl
  rw [hc12.2] at hpe
  have hbc : blockCount (b.len - 8) 16 - 1 = blockCount (b.len - 8 - 16) 16 := by
    unfold blockCount; omega
  have hbb := blockCount_bounds (b.len - 8 - 16)
  set t := stream ksm (expandNonce n macIvLen) (c.take 16) with ht
  have htl : t.length = 16 := by rw [ht, stream_length]; simp; omega
  obtain ⟨m1, em1, lm1, dm1, _, _, _⟩ := write_eq (m := st) (off := encHeadroom - 16) (d := t) (by omega)
  obtain ⟨m, em, lm, sm, bm⟩ := crypt_blocks ks (expandNonce n ivLen) b.base m1 (b.off + 8 + 16)
    (b.len - 8 - 16) (encHeadroom - 16 + 16) hpe.2 (by omega)
  obtain ⟨d, r1, r2, r3⟩ := openEnd_ok digest mac hmac s now n age b (b.off + 8) (b.len - 8)
    { base := m, off := encHeadroom - 16, len := b.len - 8 } t
    (stream ks (expandNonce n ivLen) (c.drop 16))
    (c.drop 16) hpe.2 hpe.1 (by simp; omega) (by simp; omega) (by unfold Buf.WF; simp only []; omega)
    htl (by
      rw [data_slice]; simp only []
      rw [show b.len - 8 = 16 + (b.len - 8 - 16) by omega, slice_add, sm, bm _ _ (by omega), hc12.2]
      rw [htl] at dm1
      rw [dm1])
  refine ⟨d, ?_, ?_, ?_⟩
  · simp only [HEADBYTES]
    unfold alloc
    rw [if_neg (by omega), bind_ok, read_eq (by omega), bind_ok, hc12.1,
      hcm _ _ (by simp) (by simp; omega) (by simp; omega)]
    simp only []
    rw [← ht, em1, bind_ok, hbc, read_eq hpe.2, bind_ok, hc _ _ (by simp) (by rw [slice_length hpe.2]; omega) (by rw [slice_length hpe.2]; omega)]
    simp only []
    rw [em, bind_ok, r1]
  · rw [r2]
    simp only [composed, List.length_drop]
    rw [if_neg (show ¬ c.length < 16 by omega)]
  · intro b' hb'
    rw [r3 b' hb']
    exact ⟨rfl, rfl, rfl⟩

/-! ## cipher-test -/

/-- **C62 (cipher-test).** -/
theorem C62_cipher_test_encrypt (ivLen maxBuffer : Nat) (crypt : Crypt) (ks : KeyStream) (hc : CipherIs maxBuffer ivLen crypt ks)
    (s : Common) (b : Buf) (st : Spec.Bytes) (hw : b.WF)
    (hl : b.base.length % 16 = 0) (hal : b.off % 16 = 0) (hst : Storage st maxBuffer)
    (hfit : alignto (16 + b.len) 16 ≤ maxBuffer) :
    ∃ out, ctEncrypt crypt ivLen maxBuffer s b st =
        .ok (some (out, { s with sendNonce := incrNonce s.sendNonce })) ∧ out.WF ∧
      out.data = packet (cipherTest ks (expandNonce · ivLen)) s b.data := by
  have hw' := hw
  unfold Buf.WF at hw'
  have hb := blockCount_bounds b.len
  have hfa := alignto_spec (16 + b.len)
  unfold Storage at hst
  have hrd : b.off + blockCount b.len 16 * 16 ≤ b.base.length := by omega
  obtain ⟨m, em, lm, sm, _⟩ := crypt_blocks ks (expandNonce s.sendNonce ivLen) b.base st b.off b.len
    16 hrd (by omega)
  obtain ⟨out, r1, r2, r3, _⟩ := putHeaderBuf_ok s { base := m, off := 16, len := b.len }
    (by unfold Buf.WF; simp only []; omega) (show 8 ≤ 16 by decide)
  refine ⟨out, ?_, r2, ?_⟩
  · unfold ctEncrypt alloc HEADROOM
    rw [if_neg (by omega), bind_ok, read_eq hrd, bind_ok, hc _ _ (by simp) (by rw [slice_length hrd]; omega) (by rw [slice_length hrd]; omega)]
    simp only []
    rw [em, bind_ok, r1]
    rfl
  · rw [r3, data_slice]
    simp only []
    rw [sm]
    rfl

/-- **C62, C09 (cipher-test).** -/
theorem C62_cipher_test_decrypt (ivLen encHeadroom maxBuffer : Nat) (crypt : Crypt) (ks : KeyStream) (hc : CipherIs maxBuffer ivLen crypt ks)
    (s : Common)
    (now : Time) (b : Buf) (st : Spec.Bytes) (hr : Received b) (hst : Storage st maxBuffer)
    (hea : encHeadroom % 16 = 0) (hfit : alignto (encHeadroom + (b.len - 8)) 16 ≤ maxBuffer) :
    ∃ d, ctDecrypt crypt ivLen encHeadroom maxBuffer s now b st = .ok d ∧
      d.view = recv (cipherTest ks (expandNonce · ivLen)) s now b.data ∧
      ∀ b', d = .null b' → b'.data = b.data ∧ b'.off = b.off ∧ b'.len = b.len := by
  obtain ⟨hw, hl, hal, hz⟩ := id hr
  unfold Storage at hst
  apply shell_ok (cipherTest ks (expandNonce · ivLen)) HEADBYTES s now b _ hw (by decide)
  · intro n c h
    unfold HEADBYTES at h; omega
  intro n age c hd hmin
  unfold HEADBYTES at hmin
  have hd' : b.data = (packetType s.compat :: 0 :: n.toList) ++ c := by rw [hd]; rfl
  obtain ⟨_, s2, s3⟩ := slice_eq_of_data (k := 8) hw hd' (by simp)
  have hfa2 := alignto_spec (encHeadroom + (b.len - 8))
  have hbw := hw
  unfold Buf.WF at hbw
  have hb := blockCount_bounds (b.len - 8)
  have hrd : b.off + 8 + blockCount (b.len - 8) 16 * 16 ≤ b.base.length := by omega
  obtain ⟨m, em, lm, sm, _⟩ := crypt_blocks ks (expandNonce n ivLen) b.base st (b.off + 8) (b.len - 8)
    encHeadroom hrd (by omega)
  refine ⟨finishDecrypt s now n age { base := m, off := encHeadroom, len := b.len - 8 }, ?_, ?_, ?_⟩
  · simp only [HEADBYTES]
    unfold alloc
    rw [if_neg (by omega), bind_ok, read_eq hrd, bind_ok, hc _ _ (by simp) (by rw [slice_length hrd]; omega) (by rw [slice_length hrd]; omega)]
    simp only []
    rw [em]
    rfl
  · rw [finishDecrypt_view, data_slice]
    simp only []
    rw [sm, s2]
    rfl
  · intro b' hb'
    unfold finishDecrypt at hb'
    split at hb' <;> cases hb'

/-! ## generic-poly1305 -/

/-- **C62 (generic-poly1305).** -/
theorem C62_poly_encrypt (ivLen maxBuffer : Nat) (crypt : Crypt) (ks : KeyStream) (hc : CipherIs maxBuffer ivLen crypt ks)
    (auth : Spec.Bytes → Spec.Bytes → Spec.Bytes) (hau : ∀ k x, (auth k x).length = 16)
    (s : Common) (b : Buf) (st : Spec.Bytes) (hw : b.WF)
    (hl : b.base.length % 16 = 0) (hal : b.off % 16 = 0) (hhr : 32 ≤ b.off) (hst : Storage st maxBuffer)
    (hfit : alignto (16 + (32 + b.len)) 16 ≤ maxBuffer) :
    ∃ out, polyEncrypt crypt auth ivLen maxBuffer s b st =
        .ok (some (out, { s with sendNonce := incrNonce s.sendNonce })) ∧ out.WF ∧
      out.data = packet (Spec.poly1305 ks (expandNonce · ivLen) auth) s b.data := by
  have hdl := data_length b hw
  obtain ⟨b1, e1, w1, l1, d1, o1, n1, _⟩ := pushFrom_ok b (List.replicate 32 0) hw (by simpa using hhr)
  have o1' : b1.off + 32 = b.off := o1
  have n1' : b1.len = b.len + 32 := n1
  have w1' := w1
  unfold Buf.WF at w1'
  have hb := blockCount_bounds b1.len
  have hfa := alignto_spec (16 + (32 + b.len))
  unfold Storage at hst
  have hrd : b1.off + blockCount b1.len 16 * 16 ≤ b1.base.length := by omega
  have hfit1 : alignto (HEADROOM + b1.len) 16 = alignto (16 + (32 + b.len)) 16 := by
    unfold HEADROOM; rw [n1']; congr 1; omega
  obtain ⟨m, em, lm, sm, _⟩ := crypt_blocks ks (expandNonce s.sendNonce ivLen) b1.base st b1.off b1.len
    HEADROOM hrd (by unfold HEADROOM; omega)
  rw [← data_slice, d1] at sm
  set c := stream ks (expandNonce s.sendNonce ivLen) (List.replicate 32 0 ++ b.data) with hcc
  have hcl : c.length = 32 + b.data.length := by
    rw [hcc]; simp only [stream_length, List.length_append, List.length_replicate]
  have hw2 : ({ base := m, off := HEADROOM, len := b1.len } : Buf).WF := by
    unfold Buf.WF HEADROOM; simp only []; omega
  have hkey : slice m HEADROOM 32 = c.take 32 := by
    rw [← sm]; unfold slice; rw [List.take_take]; congr 1; omega
  obtain ⟨b2, e2, w2, _, d2, o2⟩ := (C08_pull _ KEYBYTES hw2).2
    (by rw [data_length _ hw2]; unfold KEYBYTES; simp only []; omega)
  have d2' : b2.data = c.drop 32 := by
    rw [d2, data_slice]; simp only []; rw [sm]; rfl
  have o2' : b2.off = 48 := o2
  obtain ⟨b3, e3, w3, _, d3, o3, _⟩ := pushFrom_ok b2 (auth (c.take 32) (c.drop 32)) w2
    (by rw [hau]; omega)
  rw [hau] at o3
  obtain ⟨out, r1, r2, r3, _⟩ := putHeaderBuf_ok s b3 w3 (by omega)
  refine ⟨out, ?_, r2, ?_⟩
  · unfold polyEncrypt
    rw [pushZero_eq, show KEYBYTES = 32 from rfl, e1, bind_ok]
    unfold alloc
    rw [if_neg (by rw [hfit1]; omega), bind_ok, read_eq hrd, bind_ok,
      hc _ _ (by simp) (by rw [slice_length hrd]; omega) (by rw [slice_length hrd]; omega)]
    simp only []
    rw [em, bind_ok]
    rw [read_eq (by unfold HEADROOM; omega), bind_ok, hkey]
    rw [show (pull _ 32) = _ from e2, bind_ok, d2', e3, bind_ok]
    unfold putHeaderBuf at r1
    revert r1
    cases pushFrom b3 s.sendNonce.toList with
    | abort => intro r1; cases r1
    | oob => intro r1; cases r1
    | ok x =>
      simp only [bind_ok]
      cases pushFrom x [0] with
      | abort => intro r1; cases r1
      | oob => intro r1; cases r1
      | ok y =>
        simp only [bind_ok]
        cases pushFrom y [packetType s.compat] with
        | abort => intro r1; cases r1
        | oob => intro r1; cases r1
        | ok z =>
          simp only [bind_ok, pure, Res.ok.injEq, Prod.mk.injEq, Option.some.injEq]
          exact id
  · rw [r3, d3, d2']
    simp only [packet, Spec.poly1305]
    rw [← hcc]
    simp

/-- **C62, C09 (generic-poly1305).** For every received packet and session state, decryption does
exactly what the specification says, without abort or access outside the buffers (given the headroom
every received packet has, see C10); if it refuses the packet, the packet is unchanged. -/
theorem C62_poly_decrypt (ivLen encHeadroom maxBuffer : Nat) (crypt : Crypt) (ks : KeyStream) (hc : CipherIs maxBuffer ivLen crypt ks)
    (auth : Spec.Bytes → Spec.Bytes → Spec.Bytes) (s : Common)
    (now : Time) (b : Buf) (st : Spec.Bytes) (hw : b.WF) (hl : b.base.length % 16 = 0)
    (hal : b.off % 16 = 8) (hst : Storage st maxBuffer)
    (hea : encHeadroom % 16 = 0) (hfit : alignto (encHeadroom - 32 + (b.len + 8)) 16 ≤ maxBuffer) :
    ∃ d, polyDecrypt crypt auth ivLen encHeadroom maxBuffer s now b st = .ok d ∧
      d.view = recv (Spec.poly1305 ks (expandNonce · ivLen) auth) s now b.data ∧
      ∀ b', d = .null b' → b'.data = b.data ∧ b'.off = b.off ∧ b'.len = b.len := by
  unfold Storage at hst
  suffices h : ∃ d, polyDecrypt crypt auth ivLen encHeadroom maxBuffer s now b st = .ok d ∧
      d.view = recv (Spec.poly1305 ks (expandNonce · ivLen) auth) s now b.data by
    obtain ⟨d, h1, h2⟩ := h
    refine ⟨d, h1, h2, ?_⟩
    intro b' hb
    obtain ⟨c1, c2, c3, _⟩ := C09_packet_restored crypt auth ivLen encHeadroom maxBuffer s now b st hw b'
      (by rw [h1, hb])
    exact ⟨c1, c2, c3⟩
  have hsh : ∃ d, polyDecrypt crypt auth ivLen encHeadroom maxBuffer s now b st = .ok d ∧
      d.view = recv (Spec.poly1305 ks (expandNonce · ivLen) auth) s now b.data ∧
      ∀ b', d = .null b' → b'.data = b.data ∧ b'.off = b.off ∧ b'.len = b.len := by
    apply shell_ok (Spec.poly1305 ks (expandNonce · ivLen) auth) (HEADBYTES + TAGBYTES) s now b _ hw
      (by decide)
    · intro n c h
      simp only [Spec.poly1305]
      rw [if_pos (by unfold HEADBYTES TAGBYTES at h; omega)]
    intro n age c hd hmin
    unfold HEADBYTES TAGBYTES at hmin
    suffices h : ∃ d, (do
        let b ← pull b HEADBYTES
        let (tag, b) ← pullTo b TAGBYTES
        let b ← pushZero b KEYBYTES
        let out ← alloc st maxBuffer b.len (encHeadroom - KEYBYTES)
        let inblocks ← read b.base b.off (blockCount b.len 16 * 16)
        match crypt (expandNonce n ivLen) inblocks with
        | none => do
          let b ← pull b KEYBYTES
          polyRestore b tag n s.compat
        | some o => do
          let m ← write out.base out.off o
          let out := { out with base := m }
          let b ← pull b KEYBYTES
          let key ← read out.base out.off KEYBYTES
          if auth key b.data ≠ tag then polyRestore b tag n s.compat
          else polyFinish s now n age out) = .ok d ∧
        d.view = afterDec s now n age ((Spec.poly1305 ks (expandNonce · ivLen) auth).dec n c) ∧
        ∀ b', d = .null b' → b'.data = b.data ∧ b'.off = b.off ∧ b'.len = b.len from h
    have hd' : b.data = (packetType s.compat :: 0 :: n.toList) ++ c := by rw [hd]; rfl
    obtain ⟨_, s2, s3⟩ := slice_eq_of_data (k := 8) hw hd' (by simp)
    have hdl := data_length b hw
    have hbw := hw
    unfold Buf.WF at hbw
    have hfa := alignto_spec (encHeadroom - 32 + (b.len + 8))
    obtain ⟨b1, e1, w1, bb1, d1, o1⟩ := (C08_pull b 8 hw).2 (by omega)
    have hd1 := data_length b1 w1
    have d1c : b1.data = c := by
      rw [d1, hd']; exact List.drop_left' (by simp)
    obtain ⟨b2, e2, w2, d2, o2, bb2⟩ := (C08_pull_to b1 16 w1).1 (by rw [d1c]; omega)
    rw [d1c] at e2 d2
    have hd2 := data_length b2 w2
    rw [d2, List.length_drop] at hd2
    obtain ⟨b3, e3, w3, l3, d3, o3, n3, _⟩ := pushFrom_ok b2 (List.replicate 32 0) w2
      (by rw [List.length_replicate]; omega)
    have o3' : b3.off + 32 = b2.off := o3
    have n3' : b3.len = b2.len + 32 := n3
    obtain ⟨b4, e4, w4, bb4, d4, o4⟩ := (C08_pull b3 32 w3).2 (by rw [d3]; simp)
    have hdata4 : b4.data = c.drop 16 := by rw [d4, d3, d2]; simp
    have hb3 : encHeadroom - 32 + b3.len = encHeadroom - 32 + (b.len + 8) := by omega
    have hfa2 := alignto_spec (encHeadroom - 32 + b3.len)
    rw [hb3] at hfa2
    have hb := blockCount_bounds b3.len
    have w3' := w3
    unfold Buf.WF at w3'
    have l3' : b3.base.length = b.base.length := by rw [l3, bb2, bb1]
    have hrd : b3.off + blockCount b3.len 16 * 16 ≤ b3.base.length := by omega
    obtain ⟨m, em, lm, sm, _⟩ := crypt_blocks ks (expandNonce n ivLen) b3.base st b3.off b3.len
      (encHeadroom - 32) hrd (by omega)
    rw [← data_slice, d3, d2] at sm
    set p := stream ks (expandNonce n ivLen) (List.replicate 32 0 ++ c.drop 16) with hp
    have hpl : p.length = 32 + (c.length - 16) := by
      rw [hp]; simp only [stream_length, List.length_append, List.length_replicate, List.length_drop]
    have hkey : slice m (encHeadroom - 32) 32 = p.take 32 := by
      rw [← sm]; unfold slice; rw [List.take_take]; congr 1; omega
    have hdec : (Spec.poly1305 ks (expandNonce · ivLen) auth).dec n c =
        if auth (p.take 32) (c.drop 16) = c.take 16 then some (p.drop 32) else none := by
      simp only [Spec.poly1305]
      rw [if_neg (by omega)]
    rw [hdec]
    rw [show pull b HEADBYTES = .ok b1 from e1, bind_ok, show pullTo b1 TAGBYTES = _ from e2, bind_ok]
    simp only [KEYBYTES]
    rw [pushZero_eq, e3, bind_ok]
    unfold alloc
    rw [if_neg (by rw [hb3]; omega), bind_ok, read_eq hrd, bind_ok, hc _ _ (by simp) (by rw [slice_length hrd]; omega) (by rw [slice_length hrd]; omega)]
    simp only []
    rw [em, bind_ok, e4, bind_ok, read_eq (by omega), bind_ok, hkey, hdata4]
    by_cases ha : auth (p.take 32) (c.drop 16) = c.take 16
    · rw [if_neg (by simpa using ha), if_pos ha]
      have hw2 : ({ base := m, off := encHeadroom - 32, len := b3.len } : Buf).WF := by
        unfold Buf.WF; simp only []; omega
      obtain ⟨b5, e5, w5, _, d5, o5⟩ := (C08_pull _ 32 hw2).2
        (by rw [data_length _ hw2]; simp only []; omega)
      unfold polyFinish
      rw [show pull _ KEYBYTES = _ from e5, bind_ok]
      have d5' : b5.data = p.drop 32 := by rw [d5, data_slice]; simp only []; rw [sm]
      unfold afterDec
      rcases reorderCheck s now n age with ⟨_ | _ | _, s'⟩
      all_goals
        refine ⟨_, rfl, by first | (simp only [Dec.view, d5']; done) | simp [Dec.view, Buf.data], ?_⟩
        intro b' hb'; cases hb'
    · rw [if_pos ha, if_neg ha]
      have htl : (c.take 16).length = 16 := by simp; omega
      obtain ⟨b6, e6, w6, _, d6, o6, n6, _⟩ := pushFrom_ok b4 (c.take 16) w4 (by omega)
      obtain ⟨b7, e7, w7, _, d7, o7, n7, _⟩ := pushFrom_ok b6 n.toList w6 (by simp; omega)
      have o7' : b7.off + 6 = b6.off := by simpa using o7
      obtain ⟨b8, e8, w8, _, d8, o8, n8, _⟩ := pushFrom_ok b7 [0] w7 (by simp; omega)
      have o8' : b8.off + 1 = b7.off := o8
      obtain ⟨b9, e9, w9, _, d9, o9, n9, _⟩ := pushFrom_ok b8 [packetType s.compat] w8 (by simp; omega)
      have o9' : b9.off + 1 = b8.off := o9
      refine ⟨.null b9, ?_, rfl, ?_⟩
      · unfold polyRestore
        rw [e6, bind_ok, e7, bind_ok, e8, bind_ok, e9]; rfl
      · intro b' hb'
        cases hb'
        have hdd : b9.data = b.data := by
          rw [d9, d8, d7, d6, hdata4, List.take_append_drop, hd]; simp
        refine ⟨hdd, by omega, ?_⟩
        rw [← data_length _ w9, hdd, hdl]
  obtain ⟨d, h1, h2, _⟩ := hsh
  exact ⟨d, h1, h2⟩

/-! ## null, null@l2tp -/

/-- **C62 (null).** The payload arrives unchanged, with one byte of overhead. -/
theorem C62_null (compat : Bool) (b r : Buf) (hw : b.WF) (hhr : 1 ≤ b.off) (hr : r.WF) :
    ∃ out, nullEncrypt compat b = .ok out ∧ out.WF ∧ out.data = packetType compat :: b.data ∧
      (r.data = out.data → ∃ p, nullDecrypt r = .ok p ∧ p.data = b.data) := by
  obtain ⟨out, e, w, _, d, _⟩ := pushFrom_ok b [packetType compat] hw (by simpa using hhr)
  refine ⟨out, e, w, d, ?_⟩
  intro hrd
  obtain ⟨p, e1, _, _, d1, _⟩ := (C08_pull r 1 hr).2 (by rw [hrd, d]; simp)
  exact ⟨p, e1, by rw [d1, hrd, d]; rfl⟩

/-- **C62 (null@l2tp).** A payload that is not empty arrives unchanged, with 8 bytes of overhead, and
its packet is an L2TPv3 data packet. -/
theorem C62_l2tp (maxBuffer : Nat) (b r : Buf) (st : Spec.Bytes) (hw : b.WF) (hhr : 8 ≤ b.off)
    (hne : b.data ≠ []) (hr : r.WF) :
    ∃ out, l2tpEncrypt maxBuffer b st = .ok out ∧ out.WF ∧
      out.data = [0, 3, 0, 0, 0, 0, 0, 1] ++ b.data ∧
      (r.data = out.data → ∃ p, l2tpDecrypt r = .ok (some p) ∧ p.data = b.data) := by
  obtain ⟨out, e, w, _, d, _⟩ := pushFrom_ok b l2tpHeader hw (by simpa [l2tpHeader] using hhr)
  have hl : b.len ≠ 0 := by
    intro h
    apply hne
    rw [← List.length_eq_zero_iff, data_length b hw, h]
  refine ⟨out, ?_, w, d, ?_⟩
  · unfold l2tpEncrypt
    rw [if_neg hl, e]
  intro hrd
  have hrw := hr
  unfold Buf.WF at hrw
  rw [d] at hrd
  have hrl := data_length r hr
  rw [hrd] at hrl
  simp [l2tpHeader] at hrl
  obtain ⟨p, e1, _, _, d1, _⟩ := (C08_pull r 8 hr).2 (by rw [hrd]; simp [l2tpHeader])
  have hs := (slice_eq_of_data (k := 8) hr hrd (by rfl)).1
  refine ⟨p, ?_, by rw [d1, hrd]; rfl⟩
  unfold l2tpDecrypt
  rw [if_neg (by omega), read_eq (by omega), bind_ok, hs]
  rw [if_neg (by decide), if_neg (by decide), if_neg (by decide), e1]
  rfl

/-- **C62 (null@l2tp).** A keepalive (empty payload) is sent as an L2TPv3 control message around an
empty data packet: the control header that `handle_socket_receive` removes, then a packet that
decrypts to the empty payload. -/
theorem C62_l2tp_keepalive (maxBuffer : Nat) (b r : Buf) (st : Spec.Bytes) (hst : Storage st maxBuffer)
    (hm : 32 ≤ maxBuffer) (hl : b.len = 0) (hr : r.WF) :
    ∃ out, l2tpEncrypt maxBuffer b st = .ok out ∧ out.WF ∧
      out.data = [0xc8, 3, 0, 12, 0, 0, 0, 0, 0, 0, 0, 0] ++ [0, 3, 0, 0, 0, 0, 0, 1] ∧
      (r.data = out.data.drop 12 → ∃ p, l2tpDecrypt r = .ok (some p) ∧ p.data = []) := by
  unfold Storage at hst
  have h0 : (⟨st, 20, 0⟩ : Buf).WF := by unfold Buf.WF; simp only []; omega
  have h0d : (⟨st, 20, 0⟩ : Buf).data = [] := by simp [Buf.data]
  obtain ⟨o1, e1, w1, _, d1, f1, _⟩ := pushFrom_ok ⟨st, 20, 0⟩ l2tpHeader h0 (show 8 ≤ 20 by decide)
  have f1' : o1.off + 8 = 20 := f1
  obtain ⟨o2, e2, w2, _, d2, f2, _⟩ := pushFrom_ok o1 controlHeader w1 (by simp [controlHeader]; omega)
  rw [d1, h0d] at d2
  refine ⟨o2, ?_, w2, d2, ?_⟩
  · unfold l2tpEncrypt alloc
    rw [if_pos hl, if_neg (by have : alignto (20 + 0) 16 = 32 := by decide
                              omega), bind_ok, e1, bind_ok, e2]
  intro hrd
  rw [d2] at hrd
  have hrd' : r.data = l2tpHeader ++ [] := hrd
  have hrl := data_length r hr
  rw [hrd'] at hrl
  simp [l2tpHeader] at hrl
  have hrw := hr
  unfold Buf.WF at hrw
  obtain ⟨p, e3, _, _, d3, _⟩ := (C08_pull r 8 hr).2 (by rw [hrd']; simp [l2tpHeader])
  have hs := (slice_eq_of_data (k := 8) hr hrd' (by rfl)).1
  refine ⟨p, ?_, by rw [d3, hrd']; rfl⟩
  unfold l2tpDecrypt
  rw [if_neg (by omega), read_eq (by omega), bind_ok, hs]
  rw [if_neg (by decide), if_neg (by decide), if_neg (by decide), e3]
  rfl

/-! ## Delivery -/

/-- **C62.** A packet sent by one end of a session is delivered with its payload at the other end,
whenever the receiver accepts its nonce (C03), for every method with the common header. -/
theorem C62_delivery (a : Aead) (ha : a.Sound) (snd rcv : Common) (now : Time) (p : Spec.Bytes)
    (hcompat : rcv.compat = snd.compat) :
    recv a rcv now (packet a snd p) = match receive rcv now snd.sendNonce with
      | (.rejected, _) => .reject
      | (.inOrder, s') => .payload p s' (some false)
      | (.reordered, s') => .payload p s' (some true)
      | (.duplicate, s') => .payload [] s' none := by
  have hp : packet a snd p = packetType rcv.compat :: 0 :: (snd.sendNonce.toList ++ a.enc snd.sendNonce p) := by
    unfold packet; rw [hcompat]; simp
  rw [hp, recv_long, ha, if_pos ⟨rfl, rfl⟩]
  rcases receive rcv now snd.sendNonce with ⟨_ | _ | _ | _, s'⟩ <;> rfl

/-- **C62.** All the methods with the common header are sound, for any ciphers and MACs. -/
theorem C62_sound (ks ksm : KeyStream) (iv ivm : Nonce → Spec.Bytes) (mac : Spec.Bytes → Nat → Spec.Bytes)
    (hm : ∀ x n, (mac x n).length = 16) (auth : Spec.Bytes → Spec.Bytes → Spec.Bytes)
    (hau : ∀ k x, (auth k x).length = 16) :
    (generic ks iv mac).Sound ∧ (composed ks ksm iv ivm mac).Sound ∧
    (Spec.poly1305 ks iv auth).Sound ∧ (cipherTest ks iv).Sound :=
  ⟨generic_sound ks iv mac hm, composed_sound ks ksm iv ivm mac hm, poly_sound ks iv auth hau,
    cipherTest_sound ks iv⟩

/-! ## A packet is tried with two sessions -/

/-- The two attempts of `protocol_handle_recv` (src/protocols/ec25519_fhmqvc/
ec25519_fhmqvc.c:119-131): the old session, if there is a valid one, then the current one. Each
`method_decrypt` is a function of the buffer. -/
def tryBoth (old : Option (Buf → Res Dec)) (cur : Buf → Res Dec) (b : Buf) : Res Dec :=
  match old with
  | none => cur b
  | some dec => do
    match ← dec b with
    | .out o s r => return .out o s r
    | .null b' => cur b'

/-- **C09.** If the old session refuses a packet, the current session's method gets exactly the
received bytes at the same place; for every combination of methods (`hold` is what
`C62_generic_decrypt`, `C62_composed_decrypt`, `C62_cipher_test_decrypt` and `C62_poly_decrypt` prove
for every method; null and null@l2tp do not write to the packet). -/
theorem C09_second_attempt (old cur : Buf → Res Dec) (b : Buf) (r : Recv)
    (hold : ∃ d, old b = .ok d ∧ d.view = r ∧
      ∀ b', d = .null b' → b'.data = b.data ∧ b'.off = b.off ∧ b'.len = b.len) :
    (r = .reject → ∃ b', b'.data = b.data ∧ b'.off = b.off ∧ tryBoth (some old) cur b = cur b') ∧
    (r ≠ .reject → ∃ d, tryBoth (some old) cur b = .ok d ∧ d.view = r) := by
  obtain ⟨d, h1, h2, h3⟩ := hold
  unfold tryBoth
  simp only []
  rw [h1, bind_ok]
  cases d with
  | null b' =>
    refine ⟨fun _ => ⟨b', (h3 b' rfl).1, (h3 b' rfl).2.1, rfl⟩, fun h => ?_⟩
    exact absurd h2.symm (by simpa [Dec.view] using h)
  | out o s q =>
    refine ⟨fun h => ?_, fun _ => ⟨_, rfl, h2⟩⟩
    subst h
    cases h2

/-! ## Concrete cases -/

/-- A toy cipher (key stream depending on IV and position) and toy MAC. -/
def toyKs : KeyStream := fun iv i => iv.getD 0 0 + UInt8.ofNat i
def toyCrypt : Crypt := fun iv x => some (stream toyKs iv x)
def toyMac : Spec.Bytes → Nat → Spec.Bytes := fun x n => List.replicate 16 (x.foldl (· * 3 + ·) (UInt8.ofNat n))
def toyDigest : Digest := fun x n => some (toyMac x n)
def toySnd : Common := Common.init true false 0 0
def toyRcv : Common := Common.init false false 0 0
def toyBuf : Buf := ⟨List.replicate 64 9, 32, 20⟩

example : CipherIs 96 8 toyCrypt toyKs ∧ MacIs 96 toyDigest toyMac ∧ toyBuf.WF ∧
    Storage (List.replicate 96 0) 96 ∧ alignto (16 + (32 + toyBuf.len)) 16 ≤ 96 := by
  refine ⟨fun _ _ _ _ _ => rfl, fun _ _ => ⟨rfl, by simp [toyMac]⟩, ?_, ?_, ?_⟩
  · unfold Buf.WF; decide
  · unfold Storage; decide
  · decide

/-- The packet of the example, received and damaged: the Poly1305 method refuses it and the buffer is
restored (hypotheses and conclusion of `C09_packet_restored`). -/
def badPkt : Spec.Bytes :=
  packet (Spec.poly1305 toyKs (expandNonce · 8) (fun k x => toyMac (k ++ x) 0)) toySnd [1, 2, 3]

/-- Did decryption refuse, leaving exactly these bytes? -/
def refusedWith (p : Spec.Bytes) : Res Dec → Bool
  | .ok (.null b) => b.data == p
  | _ => false

example : refusedWith badPkt (polyDecrypt toyCrypt (fun k x => toyMac (k ++ x) 1) 8 32 96 toyRcv 1
    ⟨List.replicate 8 7 ++ badPkt ++ List.replicate 13 0, 8, 27⟩ (List.replicate 96 0)) = true := by
  decide +kernel

example : ∃ s', recv (Spec.poly1305 toyKs (expandNonce · 8) (fun k x => toyMac (k ++ x) 0)) toyRcv 1
    badPkt = .payload [1, 2, 3] s' (some false) := by
  unfold badPkt
  rw [C62_delivery _ (poly_sound _ _ _ (by simp [toyMac])) _ _ _ _ (by rfl)]
  exact ⟨_, rfl⟩

end Fastd.Method
