import Verif.Crypto.SalsaX86Main
import Verif.Props.Salsa20

/-!
# C107: the SSE2 implementations of Salsa20 and Salsa20/12 for 32-bit x86

Property theorems. The programs are those of src/crypto/cipher/salsa20/xmm/salsa20_x86_xmm5.s and src/crypto/cipher/salsa2012/xmm/salsa2012_x86_xmm5.s;
the specification is `Verif.Spec.Salsa20`.
-/

namespace Fastd.Crypto.SalsaX86

open SalsaXmm (VSt Region Mem layout Encrypted place_tmp xor_twice sampleMem)
open Spec.Salsa20 (stream)

/-- The function, called for `len` bytes at `input` (of which `hi` is the high half), with the result going to `dst`, ends after finitely many steps without an access
outside of the memory it was given. The registers that belong to the caller (`ebx`, `esi`, `edi`, `ebp`), and `eax`, with which the stack frame is removed, are as before,
and `P` holds for the memory. -/
def Ends (rounds : UInt32) (dst : Region) (len : Nat) (hi : UInt32) (regs : Nat → UInt32) (v : VSt UInt32) (slot : Nat → Val) (mem : Mem) (P : Mem → Prop) : Prop :=
  ∃ k s, (∀ n, k ≤ n → run (layout dst len) (prog rounds) n .entry (initial dst (UInt32.ofNat len) hi regs v slot mem) = some s) ∧ s.ok = true ∧
    (∀ r ∈ [eax, ebx, esi, edi, ebp], s.gpr r = .num (regs r)) ∧ P s.mem

theorem ends_whole (n : Nat) (hn : n < 100) (dst : Region) (hp : dst = .input ∨ dst = .output) (len : Nat) (hlen : len < 2 ^ 32) (hi : UInt32) (regs : Nat → UInt32)
    (v : VSt UInt32) (slot : Nat → Val) (mem : Mem) :
    Ends (UInt32.ofNat (4 + 4 * n)) dst len hi regs v slot mem (Encrypted (2 * (n + 1)) dst len mem) := by
  obtain ⟨s, ⟨k, hk⟩, hok, hsv, hm⟩ := whole (m0 := mem) (regs := regs) n hn hp hlen hi v slot
  obtain ⟨e1, e2, e3⟩ := restore_exec (layout dst len) s regs hsv
  refine ⟨k + 1, execs (layout dst len) s restore, ?_, e1.trans hok, e3, ?_, ?_⟩
  · intro m hm
    obtain ⟨j, rfl⟩ := Nat.exists_eq_add_of_le hm
    rw [Nat.add_assoc, hk, Nat.add_comm 1 j]
    show (let s' := execs _ s (prog (UInt32.ofNat (4 + 4 * n)) .done).1
      if s'.ok = false then some s' else some s') = _
    have e : (prog (UInt32.ofNat (4 + 4 * n)) .done).1 = restore := rfl
    rw [e]
    exact ite_self _
  · intro p hp'
    rw [e2, hm dst p (place_tmp hp), if_pos ⟨rfl, hp'⟩]
  · intro r p hr hn'
    rw [e2, hm r p hr, if_neg hn']

/-- Salsa20 (`fastd_salsa20_xmm_xor`): for every key, nonce, message of less than 2^32 bytes and initial contents of the registers and the stack, in place or
not, the result is that of the specification. -/
theorem C107_salsa20 (dst : Region) (hp : dst = .input ∨ dst = .output) (len : Nat) (hlen : len < 2 ^ 32) (hi : UInt32) (regs : Nat → UInt32) (v : VSt UInt32)
    (slot : Nat → Val) (mem : Mem) : Ends 20 dst len hi regs v slot mem (Encrypted 10 dst len mem) := ends_whole 4 (by decide) dst hp len hlen hi regs v slot mem

/-- Salsa20/12 (`fastd_salsa2012_xmm_xor`) -/
theorem C107_salsa2012 (dst : Region) (hp : dst = .input ∨ dst = .output) (len : Nat) (hlen : len < 2 ^ 32) (hi : UInt32) (regs : Nat → UInt32) (v : VSt UInt32)
    (slot : Nat → Val) (mem : Mem) : Ends 12 dst len hi regs v slot mem (Encrypted 6 dst len mem) := ends_whole 2 (by decide) dst hp len hlen hi regs v slot mem

/-- What a 64-bit host has encrypted in place, a 32-bit host decrypts: the message is restored, whatever registers and the stack contain. -/
theorem C107_interop (len : Nat) (hlen : len < 2 ^ 32) (regs : Nat → UInt64) (v : VSt UInt32) (mem : Mem) :
    SalsaXmm.Ends 12 .input len regs v mem fun mem' =>
      ∀ (hi : UInt32) (regs' : Nat → UInt32) (v' : VSt UInt32) (slot : Nat → Val) (tmp : Nat → UInt8),
        Ends 12 .input len hi regs' v' slot (fun r p => if r = .tmp then tmp p else mem' r p) fun mem'' => ∀ r, r ≠ .tmp → ∀ p, mem'' r p = mem r p := by
  obtain ⟨k, s, h1, h2, hr, h3, h4⟩ := SalsaXmm.C106_salsa2012 .input (Or.inl rfl) len (by omega) regs v mem
  refine ⟨k, s, h1, h2, hr, fun hi regs' v' slot tmp => ?_⟩
  obtain ⟨k', s', h1', h2', hr', h3', h4'⟩ := C107_salsa2012 .input (Or.inl rfl) len hlen hi regs' v' slot (fun r p => if r = .tmp then tmp p else s.mem r p)
  refine ⟨k', s', h1', h2', hr', fun r hr p => ?_⟩
  have ek : (fun p => s.mem .key p) = mem .key := by
    funext p
    exact h4 .key p (by decide) (fun h => by cases h.1)
  have en : (fun p => s.mem .nonce p) = mem .nonce := by
    funext p
    exact h4 .nonce p (by decide) (fun h => by cases h.1)
  by_cases hc : r = .input ∧ p < len
  · obtain ⟨rfl, hp⟩ := hc
    rw [h3' p hp]
    show s.mem .input p ^^^ stream 6 (fun p => s.mem .key p) (fun p => s.mem .nonce p) p = _
    rw [ek, en, h3 p hp, xor_twice]
  · rw [h4' r p hr hc]
    show (if r = .tmp then tmp p else s.mem r p) = _
    rw [if_neg hr]
    exact h4 r p hr hc

/-! ## 2^32 bytes and more -/

/-- Key 80 00 00 …, and everything else is zero -/
def longMem : Mem
  | .key, p => if p = 0 then 0x80 else 0
  | _, _ => 0

/-- Only the low half of the length is used: of 2^32 bytes, none is encrypted. Payloads are never that long. -/
theorem C107_long_false : ¬ ∀ (dst : Region), dst = .input ∨ dst = .output → ∀ (len : Nat), len ≤ 2 ^ 38 → ∀ (regs : Nat → UInt32) (v : VSt UInt32) (slot : Nat → Val)
    (mem : Mem), Ends 20 dst len (UInt32.ofNat (len / 2 ^ 32)) regs v slot mem (Encrypted 10 dst len mem) := by
  intro h
  obtain ⟨k, s, h1, _, _, h3, _⟩ := h .output (Or.inr rfl) (2 ^ 32) (by decide) (fun _ => 0) ⟨fun _ _ => 0, fun _ => 0⟩ (fun _ => .num 0) longMem
  have e : ∀ n, ∃ s', run (layout .output (2 ^ 32)) (prog 20) (n + 2) .entry (initial .output (UInt32.ofNat (2 ^ 32)) (UInt32.ofNat (2 ^ 32 / 2 ^ 32)) (fun _ => 0)
      ⟨fun _ _ => 0, fun _ => 0⟩ (fun _ => .num 0) longMem) = some s' ∧ s'.mem = longMem := fun n => ⟨_, rfl, rfl⟩
  obtain ⟨s', e1, e2⟩ := e k
  rw [h1 (k + 2) (by omega)] at e1
  injection e1 with e1
  subst e1
  have := h3 0 (by decide)
  rw [e2] at this
  revert this
  decide +kernel

/-! ## Examples -/

/-- "hi", encrypted -/
example (regs : Nat → UInt32) (v : VSt UInt32) (slot : Nat → Val) :
    Ends 20 .output 2 0 regs v slot sampleMem fun m => m .output 0 = 0x8B ∧ m .output 1 = 0xD7 ∧ m .output 2 = 0 := by
  obtain ⟨k, s, h1, h2, hr, h3, h4⟩ := C107_salsa20 .output (Or.inr rfl) 2 (by decide) 0 regs v slot sampleMem
  refine ⟨k, s, h1, h2, hr, ?_, ?_, ?_⟩
  · rw [h3 0 (by decide)]; decide +kernel
  · rw [h3 1 (by decide)]; decide +kernel
  · rw [h4 .output 2 (by decide) (by decide)]; rfl

end Fastd.Crypto.SalsaX86
