import Mathlib.Init

/-!
# GHASH (NIST SP 800-38D, sections 6.3 and 6.4), independent of the code

A block of 128 bits is a `BitVec 128`; the leftmost bit of the standard is the most significant one.
-/

namespace Fastd.Spec.Ghash

abbrev Block := BitVec 128

/-- The block `11100001 || 0^120` -/
def R : Block := 0xe1000000000000000000000000000000

/-- The bit `x_i` of a block `x_0 x_1 ... x_127` -/
def bit (x : Block) (i : Nat) : Bool := x.getLsbD (127 - i)

/-- 6.3, step 3: `V_0 = Y`; `V_{i+1}` is `V_i >> 1` if the rightmost bit of `V_i` is 0, otherwise `(V_i >> 1) xor R`. -/
def V (y : Block) : Nat → Block
  | 0 => y
  | i + 1 => if bit (V y i) 127 then (V y i >>> 1) ^^^ R else V y i >>> 1

/-- 6.3, step 3: `Z_0 = 0`; `Z_{i+1}` is `Z_i` if `x_i` is 0, otherwise `Z_i xor V_i`. -/
def Z (x y : Block) : Nat → Block
  | 0 => 0
  | i + 1 => if bit x i then Z x y i ^^^ V y i else Z x y i

/-- 6.3: the product of blocks is `Z_128`. -/
def mul (x y : Block) : Block := Z x y 128

/-- 6.4: `Y_0 = 0`, `Y_i = (Y_{i-1} xor X_i) * H` -/
def ghash (h : Block) (xs : List Block) : Block := xs.foldl (fun y x => mul (y ^^^ x) h) 0

/-- The block for a string of 16 bytes -/
def ofBytes (b : List UInt8) : Block := BitVec.ofNat 128 (b.foldl (fun n x => n * 256 + x.toNat) 0)

/-- A byte string followed by as few zeros as possible to make the length a multiple of 16, as blocks -/
def blocks (m : List UInt8) : List Block :=
  (List.range ((m.length + 15) / 16)).map fun i =>
    ofBytes ((List.range 16).map fun j => m.getD (16 * i + j) 0)

/-- 7.1, step 5: the hash for additional authenticated data `a` and ciphertext `c` -/
def gcm (h : Block) (a c : List UInt8) : Block :=
  ghash h (blocks a ++ blocks c ++ [BitVec.ofNat 64 (8 * a.length) ++ BitVec.ofNat 64 (8 * c.length)])

end Fastd.Spec.Ghash
