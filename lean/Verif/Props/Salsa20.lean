import Verif.Crypto.SalsaMain

/-!
# C106: the SSE2 implementations of Salsa20 and Salsa20/12

Property theorems. The programs are those of src/crypto/cipher/salsa20/xmm/salsa20_amd64_xmm6.s and src/crypto/cipher/salsa2012/xmm/salsa2012_amd64_xmm6.s;
the specification is `Verif.Spec.Salsa20`.
-/

namespace Fastd.Crypto.SalsaXmm

open Spec.Salsa20 (stream)

/-- The function, called for `len` bytes at `input`, with the result going to `dst`, ends after finitely many steps without an access outside of the memory
it was given. The registers that belong to the caller (`r12` to `r15`, `rbx`, `rbp`), and `r11`, with which the stack frame is removed, are as before,
and `P` holds for the memory. -/
def Ends (rounds : UInt64) (dst : Region) (len : Nat) (regs : Nat → UInt64) (v : VSt UInt32) (mem : Mem) (P : Mem → Prop) : Prop :=
  ∃ k s, (∀ n, k ≤ n → run (layout dst len) (prog rounds) n .entry (initial dst (UInt64.ofNat len) regs v mem) = some s) ∧ s.ok = true ∧
    (∀ r ∈ [r11, r12, r13, r14, r15, rbx, rbp], s.gpr r = .num (regs r)) ∧ P s.mem

/-- The result is the message combined with the stream of the cipher; nothing else is written, apart from the stack. -/
def Encrypted (doublerounds : Nat) (dst : Region) (len : Nat) (mem mem' : Mem) : Prop :=
  (∀ p, p < len → mem' dst p = mem .input p ^^^ stream doublerounds (mem .key) (mem .nonce) p) ∧
  ∀ r p, r ≠ .tmp → ¬ (r = dst ∧ p < len) → mem' r p = mem r p

theorem ends_whole (n : Nat) (hn : n < 100) (dst : Region) (hp : dst = .input ∨ dst = .output) (len : Nat) (hlen : len ≤ 2 ^ 38) (regs : Nat → UInt64) (v : VSt UInt32) (mem : Mem) :
    Ends (UInt64.ofNat (4 + 4 * n)) dst len regs v mem (Encrypted (2 * (n + 1)) dst len mem) := by
  obtain ⟨s, ⟨k, hk⟩, hok, hsv, hm⟩ := whole (m0 := mem) (regs := regs) n hn hp hlen v
  obtain ⟨e1, e2, e3⟩ := restore_exec (layout dst len) s regs hsv
  refine ⟨k + 1, execs (layout dst len) s restore, ?_, e1.trans hok, ?_, ?_, ?_⟩
  · intro m hm
    obtain ⟨j, rfl⟩ := Nat.exists_eq_add_of_le hm
    rw [Nat.add_assoc, hk, Nat.add_comm 1 j]
    show (let s' := execs _ s (prog (UInt64.ofNat (4 + 4 * n)) .done).1
      if s'.ok = false then some s' else some s') = _
    have e : (prog (UInt64.ofNat (4 + 4 * n)) .done).1 = restore := rfl
    rw [e]
    exact ite_self _
  · intro r hr
    have key : ∀ r ∈ [r11, r12, r13, r14, r15, rbx, rbp], r11 ≤ r ∧ r ≤ rbp := by decide
    exact e3 r (key r hr).1 (key r hr).2
  · intro p hp'
    rw [e2, hm dst p (place_tmp hp), if_pos ⟨rfl, hp'⟩]
  · intro r p hr hn'
    rw [e2, hm r p hr, if_neg hn']

/-- Salsa20 (`fastd_salsa20_xmm_xor`): for every key, nonce, message of up to 2^38 bytes and initial contents of the registers and the stack, in place or
not, the result is that of the specification. -/
theorem C106_salsa20 (dst : Region) (hp : dst = .input ∨ dst = .output) (len : Nat) (hlen : len ≤ 2 ^ 38) (regs : Nat → UInt64) (v : VSt UInt32) (mem : Mem) :
    Ends 20 dst len regs v mem (Encrypted 10 dst len mem) := ends_whole 4 (by decide) dst hp len hlen regs v mem

/-- Salsa20/12 (`fastd_salsa2012_xmm_xor`) -/
theorem C106_salsa2012 (dst : Region) (hp : dst = .input ∨ dst = .output) (len : Nat) (hlen : len ≤ 2 ^ 38) (regs : Nat → UInt64) (v : VSt UInt32) (mem : Mem) :
    Ends 12 dst len regs v mem (Encrypted 6 dst len mem) := ends_whole 2 (by decide) dst hp len hlen regs v mem

/-- The outcome does not depend on what registers and the stack contain when the function is called, and there is only one. -/
theorem C106_deterministic {rounds : UInt64} {dst : Region} {len : Nat} {regs : Nat → UInt64} {v : VSt UInt32} {mem : Mem} {P Q : Mem → Prop} (h : Ends rounds dst len regs v mem P)
    (h' : Ends rounds dst len regs v mem Q) : Ends rounds dst len regs v mem fun m => P m ∧ Q m := by
  obtain ⟨k, s, h1, h2, hr, h3⟩ := h
  obtain ⟨k', s', h1', h2', hr', h3'⟩ := h'
  have e := (h1 (k + k') (by omega)).symm.trans (h1' (k + k') (by omega))
  injection e with e
  subst e
  exact ⟨k, s, h1, h2, hr, h3, h3'⟩

theorem xor_twice (a b : UInt8) : a ^^^ b ^^^ b = a := by rw [UInt8.xor_assoc, UInt8.xor_self, UInt8.xor_zero]

/-- Decrypting in place what was encrypted in place restores the message, whatever registers and the stack contain by then. -/
theorem C106_decrypt (len : Nat) (hlen : len ≤ 2 ^ 38) (regs regs' : Nat → UInt64) (v v' : VSt UInt32) (mem : Mem) :
    Ends 12 .input len regs v mem fun mem' =>
      ∀ tmp : Nat → UInt8, Ends 12 .input len regs' v' (fun r p => if r = .tmp then tmp p else mem' r p) fun mem'' => ∀ r, r ≠ .tmp → ∀ p, mem'' r p = mem r p := by
  obtain ⟨k, s, h1, h2, hr, h3, h4⟩ := C106_salsa2012 .input (Or.inl rfl) len hlen regs v mem
  refine ⟨k, s, h1, h2, hr, fun tmp => ?_⟩
  obtain ⟨k', s', h1', h2', hr', h3', h4'⟩ := C106_salsa2012 .input (Or.inl rfl) len hlen regs' v' (fun r p => if r = .tmp then tmp p else s.mem r p)
  refine ⟨k', s', h1', h2', hr', fun r hr p => ?_⟩
  have ek : (fun p => s.mem .key p) = mem .key := by
    funext p
    exact h4 .key p (by decide) (fun h => by cases h.1)
  have en : (fun p => s.mem .nonce p) = mem .nonce := by
    funext p
    exact h4 .nonce p (by decide) (fun h => by cases h.1)
  by_cases hc : r = .input ∧ p < len
  · obtain ⟨rfl, hp⟩ := hc
    rw [h3' p hp]
    show s.mem .input p ^^^ stream 6 (fun p => s.mem .key p) (fun p => s.mem .nonce p) p = _
    rw [ek, en, h3 p hp, xor_twice]
  · rw [h4' r p hr hc]
    show (if r = .tmp then tmp p else s.mem r p) = _
    rw [if_neg hr]
    exact h4 r p hr hc

/-! ## Beyond 2^38 bytes -/

/-- A state in which the number of the next block is `2^32` -/
def farState : St where
  gpr _ := .num 0
  v := { x := fun _ _ => 0, f := fun j => if j = 9 then 1 else 0 }
  mem _ _ := 0
  flags := none
  ok := true

/-- After 2^38 bytes the numbers of the blocks are wrong: the high half of the number is added once more for every block, and the third of the four blocks
has the number `2 * 2^32 + 2` instead of `2^32 + 2`. Payloads are never that long. -/
theorem C106_far_false : ¬ ∀ l, l < 4 →
    (execs (layout .output 0) farState (counters 20)).v.f (72 + l) = UInt32.ofNat (2 ^ 32 + l) ∧
    (execs (layout .output 0) farState (counters 20)).v.f (76 + l) = UInt32.ofNat ((2 ^ 32 + l) / 2 ^ 32) := by
  intro h
  have := (h 2 (by omega)).2
  revert this
  decide +kernel

/-! ## Examples -/

/-- Key 80 00 00 …, nonce 0 -/
def sampleMem : Mem
  | .key, p => if p = 0 then 0x80 else 0
  | .input, p => [0x68, 0x69].getD p 0
  | _, _ => 0

/-- The specification agrees with the first vector of ECRYPT (set 1, vector 0): the stream begins with E3 BE 8F DD 8B EC A2 E3. -/
example : (List.range 8).map (stream 10 (sampleMem .key) (sampleMem .nonce)) = [0xE3, 0xBE, 0x8F, 0xDD, 0x8B, 0xEC, 0xA2, 0xE3] := by decide +kernel

/-- "hi", encrypted -/
example (regs : Nat → UInt64) (v : VSt UInt32) : Ends 20 .output 2 regs v sampleMem fun m => m .output 0 = 0x8B ∧ m .output 1 = 0xD7 ∧ m .output 2 = 0 := by
  obtain ⟨k, s, h1, h2, hr, h3, h4⟩ := C106_salsa20 .output (Or.inr rfl) 2 (by decide) regs v sampleMem
  refine ⟨k, s, h1, h2, hr, ?_, ?_, ?_⟩
  · rw [h3 0 (by decide)]; decide +kernel
  · rw [h3 1 (by decide)]; decide +kernel
  · rw [h4 .output 2 (by decide) (by decide)]; rfl

/-- Salsa20/12 is not Salsa20. -/
example : stream 6 (sampleMem .key) (sampleMem .nonce) 0 ≠ stream 10 (sampleMem .key) (sampleMem .nonce) 0 := by decide +kernel

end Fastd.Crypto.SalsaXmm
