/-!
# The part of the x86-64 instruction set that the Salsa20 implementation for SSE2 uses

Model only. XMM registers are four words of 32 bits, lane 0 is the lowest one. The stack frame of the function is a sequence of words; the
64 bytes at 416(%rsp) are a memory region of their own. Pointers are a memory region with an offset. An access that is out of bounds, a write to memory that
must not be written, arithmetic with pointers other than adding a constant, and a conditional jump when the flags are not those of a comparison or
subtraction are faults.
-/

namespace Fastd.Crypto.SalsaXmm

/-! ## XMM registers and the stack frame -/

/-- Operations on lanes -/
structure Ops (W : Type) where
  add : W → W → W
  xor : W → W → W
  shl : Nat → W → W
  shr : Nat → W → W

/-- XMM registers (register, lane) and words of the stack frame -/
structure VSt (W : Type) where
  x : Nat → Nat → W
  f : Nat → W

/-- Vector instructions. Registers are given by their numbers, places in the stack frame by the number of the word (a quarter of the offset); source first. -/
inductive VI
  | movdqa (s d : Nat)
  | movdqaSt (s o : Nat)
  | movdqaLd (o d : Nat)
  | paddd (s d : Nat)
  | padddLd (o d : Nat)
  | pxor (s d : Nat)
  | pslld (n d : Nat)
  | psrld (n d : Nat)
  | pshufd (i s d : Nat)
deriving DecidableEq, Repr

variable {W : Type}

def VSt.setX (s : VSt W) (d : Nat) (v : Nat → W) : VSt W := { s with x := fun r => bif Nat.beq r d then v else s.x r }

/-- Four words of the frame -/
def VSt.setF (s : VSt W) (o : Nat) (v : Nat → W) : VSt W :=
  { s with f := fun j => bif Nat.ble o j && Nat.blt j (o + 4) then v (j - o) else s.f j }

/-- The lane that `pshufd` takes -/
def sel (i l : Nat) : Nat := i / 4 ^ l % 4

/-- A vector instruction -/
def VI.exec (O : Ops W) (s : VSt W) : VI → VSt W
  | movdqa a d => s.setX d (s.x a)
  | movdqaSt a o => s.setF o (s.x a)
  | movdqaLd o d => s.setX d fun l => s.f (o + l)
  | paddd a d => s.setX d fun l => O.add (s.x d l) (s.x a l)
  | padddLd o d => s.setX d fun l => O.add (s.x d l) (s.f (o + l))
  | pxor a d => s.setX d fun l => O.xor (s.x d l) (s.x a l)
  | pslld n d => s.setX d fun l => O.shl n (s.x d l)
  | psrld n d => s.setX d fun l => O.shr n (s.x d l)
  | pshufd i a d => s.setX d fun l => s.x a (sel i l)

def vexecs (O : Ops W) (s : VSt W) (l : List VI) : VSt W := l.foldl (VI.exec O) s

/-- The operations of the processor -/
def u32 : Ops UInt32 where
  add := (· + ·)
  xor := (· ^^^ ·)
  shl n x := x <<< UInt32.ofNat n
  shr n x := x >>> UInt32.ofNat n

/-! ## General registers and memory -/

/-- Memory: message, result, nonce, key, and 416(%rsp) -/
inductive Region
  | input | output | nonce | key | tmp
deriving DecidableEq, Repr

/-- Contents of a general register -/
inductive Val
  | num (n : UInt64)
  | ptr (r : Region) (o : Nat)
deriving DecidableEq, Repr

abbrev Mem := Region → Nat → UInt8

/-- Which memory there is, and may be written -/
structure Layout where
  size : Region → Nat
  writable : Region → Bool

structure St where
  gpr : Nat → Val
  v : VSt UInt32
  mem : Mem
  /-- the operands of the last comparison or subtraction, if the flags are those of one -/
  flags : Option (UInt64 × UInt64)
  /-- no fault so far -/
  ok : Bool

/-! Numbers of the general registers -/

abbrev rax : Nat := 0
abbrev rcx : Nat := 1
abbrev rdx : Nat := 2
abbrev rsi : Nat := 3
abbrev rdi : Nat := 4
abbrev r8 : Nat := 5
abbrev r9 : Nat := 6
abbrev r10 : Nat := 7
abbrev r11 : Nat := 8
abbrev r12 : Nat := 9
abbrev r13 : Nat := 10
abbrev r14 : Nat := 11
abbrev r15 : Nat := 12
abbrev rbx : Nat := 13
abbrev rbp : Nat := 14

/-- Instructions; source first, as in the file. `F` is for the stack frame, `I` for immediate operands. -/
inductive Instr
  | v (i : VI)
  | mov (s d : Nat)
  | movI (n : UInt64) (d : Nat)
  | add (s d : Nat)
  | addI (n : Nat) (d : Nat)
  | subI (n : UInt64) (d : Nat)
  | cmpI (n : UInt64) (d : Nat)
  | shlI (n : UInt64) (d : Nat)
  | shrI (n : UInt64) (d : Nat)
  | movd (x d : Nat)
  | movlLd (o b d : Nat)
  | movlSt (s o b : Nat)
  | xorl (o b d : Nat)
  | movlLdF (o d : Nat)
  | movlStF (s o : Nat)
  | movqLdF (o d : Nat)
  | movqStF (s o : Nat)
  | leaTmp (d : Nat)
  | repMovsb
deriving DecidableEq, Repr

def St.setR (s : St) (d : Nat) (v : Val) : St := { s with gpr := fun r => if r = d then v else s.gpr r }
def St.fault (s : St) : St := { s with ok := false }

def VSt.setW (s : VSt W) (o : Nat) (w : W) : VSt W := { s with f := fun j => if j = o then w else s.f j }

/-- Little-endian load of 32 bits -/
def load32 (m : Mem) (r : Region) (o : Nat) : UInt32 :=
  UInt32.ofNat ((m r o).toNat + 2 ^ 8 * (m r (o + 1)).toNat + 2 ^ 16 * (m r (o + 2)).toNat + 2 ^ 24 * (m r (o + 3)).toNat)

/-- Little-endian store of 32 bits -/
def store32 (m : Mem) (r : Region) (o : Nat) (w : UInt32) : Mem := fun r' p =>
  if r' = r ∧ o ≤ p ∧ p < o + 4 then UInt8.ofNat (w.toNat / 2 ^ (8 * (p - o))) else m r' p

/-- The number with two given halves -/
def join (lo hi : UInt32) : UInt64 := UInt64.ofNat (lo.toNat + 2 ^ 32 * hi.toNat)

/-- `rep movsb`: bytes are copied one after the other -/
def copyBytes : Nat → (m : Mem) → (r : Region) → (o : Nat) → (r' : Region) → (o' : Nat) → Mem
  | 0, m, _, _, _, _ => m
  | n + 1, m, r, o, r', o' =>
    copyBytes n (fun q p => if q = r' ∧ p = o' then m r o else m q p) r (o + 1) r' (o' + 1)

/-- One instruction -/
def Instr.exec (L : Layout) (s : St) : Instr → St
  | v i => { s with v := i.exec u32 s.v }
  | mov a d => s.setR d (s.gpr a)
  | movI n d => s.setR d (.num n)
  | add a d =>
    match s.gpr a, s.gpr d with
    | .num n, .num m => { s.setR d (.num (m + n)) with flags := none }
    | _, _ => s.fault
  | addI n d =>
    match s.gpr d with
    | .num m => { s.setR d (.num (m + UInt64.ofNat n)) with flags := none }
    | .ptr r o => { s.setR d (.ptr r (o + n)) with flags := none }
  | subI n d =>
    match s.gpr d with
    | .num m => { s.setR d (.num (m - n)) with flags := some (m, n) }
    | .ptr .. => s.fault
  | cmpI n d =>
    match s.gpr d with
    | .num m => { s with flags := some (m, n) }
    | .ptr .. => s.fault
  | shlI n d =>
    match s.gpr d with
    | .num m => { s.setR d (.num (m <<< n)) with flags := none }
    | .ptr .. => s.fault
  | shrI n d =>
    match s.gpr d with
    | .num m => { s.setR d (.num (m >>> n)) with flags := none }
    | .ptr .. => s.fault
  | movd x d => s.setR d (.num (join (s.v.x x 0) (s.v.x x 1)))
  | movlLd o b d =>
    match s.gpr b with
    | .ptr r p => if p + o + 4 ≤ L.size r then s.setR d (.num (load32 s.mem r (p + o)).toUInt64) else s.fault
    | .num _ => s.fault
  | movlSt a o b =>
    match s.gpr a, s.gpr b with
    | .num n, .ptr r p =>
      if p + o + 4 ≤ L.size r ∧ L.writable r = true then { s with mem := store32 s.mem r (p + o) n.toUInt32 } else s.fault
    | _, _ => s.fault
  | xorl o b d =>
    match s.gpr d, s.gpr b with
    | .num n, .ptr r p =>
      if p + o + 4 ≤ L.size r then
        { s.setR d (.num (n.toUInt32 ^^^ load32 s.mem r (p + o)).toUInt64) with flags := none }
      else s.fault
    | _, _ => s.fault
  | movlLdF o d => s.setR d (.num (s.v.f o).toUInt64)
  | movlStF a o =>
    match s.gpr a with
    | .num n => { s with v := s.v.setW o n.toUInt32 }
    | .ptr .. => s.fault
  | movqLdF o d => s.setR d (.num (join (s.v.f o) (s.v.f (o + 1))))
  | movqStF a o =>
    match s.gpr a with
    | .num n => { s with v := (s.v.setW o n.toUInt32).setW (o + 1) (n >>> 32).toUInt32 }
    | .ptr .. => s.fault
  | leaTmp d => s.setR d (.ptr .tmp 0)
  | repMovsb =>
    match s.gpr rsi, s.gpr rdi, s.gpr rcx with
    | .ptr r o, .ptr r' o', .num n =>
      if o + n.toNat ≤ L.size r ∧ o' + n.toNat ≤ L.size r' ∧ L.writable r' = true then
        { ((s.setR rsi (.ptr r (o + n.toNat))).setR rdi (.ptr r' (o' + n.toNat))).setR rcx (.num 0) with
          mem := copyBytes n.toNat s.mem r o r' o' }
      else s.fault
    | _, _, _ => s.fault

def execs (L : Layout) (s : St) (l : List Instr) : St := l.foldl (Instr.exec L) s

/-! ## Jumps -/

inductive Cond
  | ja | jae | jb | jbe
deriving DecidableEq, Repr

/-- After comparing `a` with `b` (in AT&T order: `cmp b,a`) -/
def Cond.holds : Cond → UInt64 × UInt64 → Bool
  | ja, (a, b) => decide (b < a)
  | jae, (a, b) => decide (b ≤ a)
  | jb, (a, b) => decide (a < b)
  | jbe, (a, b) => decide (a ≤ b)

/-- How a basic block ends: in a conditional jump, or in another block, or the function returns. -/
inductive Exit (Label : Type)
  | jcc (c : Cond) (yes no : Label)
  | jmp (l : Label)
  | ret

/-- Running a program from a block; `none` if this takes more than `n` blocks. Faults end the run. -/
def run {Label : Type} (L : Layout) (prog : Label → List Instr × Exit Label) : Nat → Label → St → Option St
  | 0, _, _ => none
  | n + 1, l, s =>
    let s' := execs L s (prog l).1
    if s'.ok = false then some s'
    else
      match (prog l).2 with
      | .ret => some s'
      | .jmp l' => run L prog n l' s'
      | .jcc c yes no =>
        match s'.flags with
        | none => some s'.fault
        | some f => run L prog n (if c.holds f then yes else no) s'

end Fastd.Crypto.SalsaXmm
