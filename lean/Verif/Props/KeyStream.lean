import Verif.Spec.Suite
import Verif.Props.Nonce
import Mathlib.Data.List.Nodup
import Mathlib.Tactic.IntervalCases
import Mathlib.Tactic.Ring

/-!
# C109: no byte of a key stream is used twice

The key streams of the ciphers are values of a core function (the hash function of Salsa20, the block cipher) at inputs that consist of IV and block number.
These inputs, with the index of the byte, are all different for the bytes used in a session: for all packets of both directions, and for the key of GHASH.
-/

namespace Fastd.Method.Suite

open Fastd.Spec Fastd.Spec.Suite

/-- The value of the core function of a cipher -/
def core (e : BlockCipher) (key : Bytes) : Cipher → Source → UInt8
  | .salsa20, .salsa w j => Salsa20.byte ((Salsa20.hash 10 w).toList.getD (j / 4) 0) (j % 4)
  | .salsa2012, .salsa w j => Salsa20.byte ((Salsa20.hash 6 w).toList.getD (j / 4) 0) (j % 4)
  | .aes128ctr, .block b j => e key b j
  | _, _ => 0

/-- **C109.** The key stream is the core function of its source: only different sources can give independent bytes. -/
theorem C109_core (e : BlockCipher) (key iv : Bytes) (i : Nat) (c : Cipher) : c.ks e key iv i = core e key c (c.source key iv i) := by
  have h : i % 64 % 4 = i % 4 := by omega
  cases c <;> simp only [Cipher.ks, Cipher.source, core, ctr, Salsa20.stream, h]

theorem u8_toNat_inj {a b : UInt8} (h : a.toNat = b.toNat) : a = b := UInt8.toNat_inj.1 h

theorem word_inj {f g : Nat → UInt8} {i : Nat} (h : Salsa20.word f i = Salsa20.word g i) :
    f (4 * i) = g (4 * i) ∧ f (4 * i + 1) = g (4 * i + 1) ∧ f (4 * i + 2) = g (4 * i + 2) ∧ f (4 * i + 3) = g (4 * i + 3) := by
  unfold Salsa20.word at h
  have h' := congrArg UInt32.toNat h
  rw [UInt32.toNat_ofNat', UInt32.toNat_ofNat'] at h'
  have a0 := (f (4 * i)).toNat_lt; have a1 := (f (4 * i + 1)).toNat_lt; have a2 := (f (4 * i + 2)).toNat_lt; have a3 := (f (4 * i + 3)).toNat_lt
  have b0 := (g (4 * i)).toNat_lt; have b1 := (g (4 * i + 1)).toNat_lt; have b2 := (g (4 * i + 2)).toNat_lt; have b3 := (g (4 * i + 3)).toNat_lt
  refine ⟨u8_toNat_inj ?_, u8_toNat_inj ?_, u8_toNat_inj ?_, u8_toNat_inj ?_⟩ <;> omega

theorem salsa_source {key iv iv' : Bytes} {i i' : Nat} (hi : i < 2 ^ 38) (hi' : i' < 2 ^ 38)
    (h : Source.salsa (Salsa20.expand (key.getD · 0) (iv.getD · 0) (i / 64)) (i % 64) =
      Source.salsa (Salsa20.expand (key.getD · 0) (iv'.getD · 0) (i' / 64)) (i' % 64)) :
    i = i' ∧ ∀ j, j < 8 → iv.getD j 0 = iv'.getD j 0 := by
  unfold Salsa20.expand at h
  injection h with h1 h2
  injection h1 with _ _ _ _ _ _ n0 n1 b0 _
  have e0 := word_inj n0
  have e1 := word_inj n1
  have eb := congrArg UInt32.toNat b0
  rw [UInt32.toNat_ofNat', UInt32.toNat_ofNat'] at eb
  refine ⟨by omega, ?_⟩
  intro j hj
  simp only [Nat.mul_zero, Nat.mul_one, Nat.zero_add, Nat.reduceAdd] at e0 e1
  obtain ⟨e00, e01, e02, e03⟩ := e0
  obtain ⟨e10, e11, e12, e13⟩ := e1
  interval_cases j <;> assumption

theorem expand8 (n : Nonce) : expandNonce n 8 = n.toList ++ [0, 1] := by
  obtain ⟨a, b, c, d, e, f, rfl⟩ := exists6 n
  rfl

theorem expand16 (n : Nonce) : expandNonce n 16 = n.toList ++ [0, 0, 0, 0, 0, 0, 0, 0, 0, 1] := by
  obtain ⟨a, b, c, d, e, f, rfl⟩ := exists6 n
  rfl

theorem beVal_expand16 (n : Nonce) : beVal (expandNonce n 16) = n.val * 2 ^ 80 + 1 := by
  rw [expand16]
  obtain ⟨a, b, c, d, e, f, rfl⟩ := exists6 n
  rw [val6]
  simp [beVal]
  ring

theorem val_lt' (n : Nonce) : n.val < 2 ^ 48 := by
  obtain ⟨a, b, c, d, e, f, rfl⟩ := exists6 n
  rw [val6]
  have h1 := u8lt a; have h2 := u8lt b; have h3 := u8lt c; have h4 := u8lt d
  have h5 := u8lt e; have h6 := u8lt f
  omega

theorem aes_source {n n' : Nonce} {i i' : Nat} (hi : i < 2 ^ 38) (hi' : i' < 2 ^ 38)
    (h : Source.block ((beVal (expandNonce n 16) + i / 16) % 2 ^ 128) (i % 16) = Source.block ((beVal (expandNonce n' 16) + i' / 16) % 2 ^ 128) (i' % 16)) :
    n = n' ∧ i = i' := by
  injection h with h1 h2
  rw [beVal_expand16, beVal_expand16] at h1
  have := val_lt' n
  have := val_lt' n'
  have hv : n.val = n'.val := by omega
  exact ⟨val_inj hv, by omega⟩

/-- **C109.** Bytes of the key streams of packets with different numbers, or at different positions of a packet, have different sources. -/
theorem C109_source (c : Cipher) (hc : c ≠ .null) (key : Bytes) (n n' : Nonce) (i i' : Nat) (hi : i < 2 ^ 38) (hi' : i' < 2 ^ 38)
    (h : c.source key (expandNonce n c.ivLen) i = c.source key (expandNonce n' c.ivLen) i') : n = n' ∧ i = i' := by
  have hs : (Source.salsa (Salsa20.expand (key.getD · 0) ((expandNonce n 8).getD · 0) (i / 64)) (i % 64) =
      Source.salsa (Salsa20.expand (key.getD · 0) ((expandNonce n' 8).getD · 0) (i' / 64)) (i' % 64)) → n = n' ∧ i = i' := by
    intro h
    obtain ⟨h1, h2⟩ := salsa_source hi hi' h
    refine ⟨?_, h1⟩
    rw [expand8, expand8] at h2
    obtain ⟨a, b, c, d, e, f, rfl⟩ := exists6 n
    obtain ⟨a', b', c', d', e', f', rfl⟩ := exists6 n'
    have e0 : a = a' := h2 0 (by decide)
    have e1 : b = b' := h2 1 (by decide)
    have e2 : c = c' := h2 2 (by decide)
    have e3 : d = d' := h2 3 (by decide)
    have e4 : e = e' := h2 4 (by decide)
    have e5 : f = f' := h2 5 (by decide)
    rw [e0, e1, e2, e3, e4, e5]
  cases c with
  | null => exact absurd rfl hc
  | salsa20 => exact hs h
  | salsa2012 => exact hs h
  | aes128ctr => exact aes_source hi hi' h

/-- **C109.** The key of GHASH comes from the zero IV, which is not that of any packet. -/
theorem C109_hash_key (c : Cipher) (hc : c ≠ .null) (key : Bytes) (n : Nonce) (i i' : Nat) (hi : i < 16) (hi' : i' < 2 ^ 38) :
    c.source key (List.replicate c.ivLen 0) i ≠ c.source key (expandNonce n c.ivLen) i' := by
  have hs : ¬ (Source.salsa (Salsa20.expand (key.getD · 0) ((List.replicate 8 0).getD · 0) (i / 64)) (i % 64) =
      Source.salsa (Salsa20.expand (key.getD · 0) ((expandNonce n 8).getD · 0) (i' / 64)) (i' % 64)) := by
    intro h
    obtain ⟨_, h2⟩ := salsa_source (by omega) hi' h
    rw [expand8] at h2
    obtain ⟨a, b, c, d, e, f, rfl⟩ := exists6 n
    have h7 : (0 : UInt8) = 1 := h2 7 (by decide)
    exact absurd h7 (by decide)
  intro h
  cases c with
  | null => exact hc rfl
  | salsa20 => exact hs h
  | salsa2012 => exact hs h
  | aes128ctr =>
    simp only [Cipher.source, Cipher.ivLen] at h
    injection h with h1 h2
    rw [beVal_expand16, show beVal (List.replicate 16 0) = 0 from by decide] at h1
    have := val_lt' n
    omega

/-- The sources of all the bytes of key stream that a session uses with one of its ciphers: 16 bytes for the key of GHASH, and up to `maxLen` bytes for each of
the packets sent by both ends -/
def used (c : Cipher) (key : Bytes) (maxLen : Nat) (sent sent' : List Nonce) : List Source :=
  (List.range 16).map (c.source key (List.replicate c.ivLen 0)) ++
    (sent ++ sent').flatMap fun n => (List.range maxLen).map (c.source key (expandNonce n c.ivLen))

/-- **C109.** Whatever happens in a session, no byte of key stream is used twice: not for packets of the same end, not for packets of different
directions, which use the same key, and not for the key of GHASH. -/
theorem C109_no_reuse (c : Cipher) (hc : c ≠ .null) (key : Bytes) (maxLen : Nat) (hmax : maxLen ≤ 2 ^ 38) (compat compat' : Bool) (t0 t0' sp sp' : Time)
    (evs evs' : List Event) :
    (used c key maxLen (sentNonces (run (Common.init true compat t0 sp) evs).1) (sentNonces (run (Common.init false compat' t0' sp') evs').1)).Nodup := by
  unfold used
  have hn : (sentNonces (run (Common.init true compat t0 sp) evs).1 ++ sentNonces (run (Common.init false compat' t0' sp') evs').1).Nodup := by
    rw [List.nodup_append]
    refine ⟨C04_send_unique true compat t0 sp evs, C04_send_unique false compat' t0' sp' evs', ?_⟩
    intro a ha b hb hab
    subst hab
    exact C04_directions_disjoint compat compat' t0 t0' sp sp' evs evs' a ha hb
  generalize sentNonces (run (Common.init true compat t0 sp) evs).1 ++ sentNonces (run (Common.init false compat' t0' sp') evs').1 = l at hn
  rw [List.nodup_append]
  refine ⟨?_, ?_, ?_⟩
  · apply List.Nodup.map_on _ List.nodup_range
    intro i hi j hj h
    rw [List.mem_range] at hi hj
    cases c with
    | null => exact absurd rfl hc
    | salsa20 => exact (salsa_source (by omega) (by omega) h).1
    | salsa2012 => exact (salsa_source (by omega) (by omega) h).1
    | aes128ctr =>
      have h2 : i % 16 = j % 16 := by
        generalize List.replicate Cipher.aes128ctr.ivLen (0 : UInt8) = iv at h
        exact (Source.block.inj h).2
      omega
  · rw [List.nodup_flatMap]
    constructor
    · intro n _
      apply List.Nodup.map_on _ List.nodup_range
      intro i hi j hj h
      rw [List.mem_range] at hi hj
      exact (C109_source c hc key n n i j (by omega) (by omega) h).2
    · apply List.Pairwise.imp _ hn
      intro n n' hne
      rw [Function.onFun, List.disjoint_left]
      intro x hx hx'
      obtain ⟨i, hi, rfl⟩ := List.mem_map.1 hx
      obtain ⟨j, hj, h⟩ := List.mem_map.1 hx'
      rw [List.mem_range] at hi hj
      exact hne (C109_source c hc key n n' i j (by omega) (by omega) h.symm).1
  · intro a ha b hb hab
    subst hab
    obtain ⟨i, hi, rfl⟩ := List.mem_map.1 ha
    obtain ⟨n, _, hb⟩ := List.mem_flatMap.1 hb
    obtain ⟨j, hj, h⟩ := List.mem_map.1 hb
    rw [List.mem_range] at hi hj
    exact C109_hash_key c hc key n i j hi (by omega) h.symm

/-- Both ends have sent packets; 16 bytes for the key of GHASH and 64 bytes for each of three packets -/
example : (used .salsa20 (List.replicate 32 1) 64 (sentNonces (run (Common.init true false 0 0) [.send 1, .send 2]).1)
    (sentNonces (run (Common.init false false 0 0) [.send 1]).1)).length = 208 := by decide +kernel

/-- With the same number for both, bytes would be used twice. -/
example (n : Nonce) : ¬ (used .salsa20 [] 1 [n] [n]).Nodup := by
  simp [used, List.nodup_append]

end Fastd.Method.Suite
