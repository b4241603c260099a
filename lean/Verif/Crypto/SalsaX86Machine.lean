import Verif.Crypto.SalsaMachine

/-!
# The part of the 32-bit x86 instruction set that the Salsa20 implementation for SSE2 uses

Model only. Vector instructions and memory are those of `Verif.Crypto.SalsaMachine`. The 64 bytes at 640(%esp) are a memory region of their own; the first 32 bytes of
the stack frame are slots that hold general registers, the rest of it are words. An access that is out of bounds, a write to memory that must not be written, arithmetic with
pointers other than adding a constant, a conditional jump when the flags are not those of a comparison or subtraction, and adding a carry that is not the one of an addition
are faults.
-/

namespace Fastd.Crypto.SalsaX86

open SalsaXmm (VI VSt u32 Region Mem Layout load32 store32 copyBytes Cond Exit)

/-- Contents of a general register, a slot, or an argument -/
inductive Val
  | num (n : UInt32)
  | ptr (r : Region) (o : Nat)
deriving DecidableEq, Repr

inductive Flags
  /-- those of a comparison or subtraction, with these operands -/
  | cmp (a b : UInt32)
  /-- those of an addition, with this carry -/
  | carry (c : Bool)
  | other
deriving DecidableEq, Repr

structure St where
  gpr : Nat → Val
  /-- words on the stack of the caller -/
  arg : Nat → Val
  /-- the first eight words of the frame -/
  slot : Nat → Val
  v : VSt UInt32
  mem : Mem
  flags : Flags
  /-- no fault so far -/
  ok : Bool

/-! Numbers of the general registers -/

abbrev eax : Nat := 0
abbrev ecx : Nat := 1
abbrev edx : Nat := 2
abbrev esi : Nat := 3
abbrev edi : Nat := 4
abbrev ebx : Nat := 5
abbrev ebp : Nat := 6

/-- Instructions; source first, as in the file. `F` is for words of the stack frame, `I` for immediate operands, `ldArg` for `movl 4*i(%esp,%eax),…` with the size of
the frame in `eax`. -/
inductive Instr
  | v (i : VI)
  | mov (s d : Nat)
  | movI (n : UInt32) (d : Nat)
  | addI (n : Nat) (d : Nat)
  | adcI (n : UInt32) (d : Nat)
  | subI (n : UInt32) (d : Nat)
  | cmpI (n : UInt32) (d : Nat)
  | movd (x d : Nat)
  | movlLd (o b d : Nat)
  | movlSt (s o b : Nat)
  | xorl (o b d : Nat)
  | movlLdF (o d : Nat)
  | movlStF (s o : Nat)
  | ldSlot (o d : Nat)
  | stSlot (s o : Nat)
  | ldArg (i d : Nat)
  | leaTmp (d : Nat)
  | repMovsb
deriving DecidableEq, Repr

def St.setR (s : St) (d : Nat) (v : Val) : St := { s with gpr := fun r => if r = d then v else s.gpr r }
def St.fault (s : St) : St := { s with ok := false }

/-- One instruction -/
def Instr.exec (L : Layout) (s : St) : Instr → St
  | v i => { s with v := i.exec u32 s.v }
  | mov a d => s.setR d (s.gpr a)
  | movI n d => s.setR d (.num n)
  | addI n d =>
    match s.gpr d with
    | .num m => { s.setR d (.num (m + UInt32.ofNat n)) with flags := .carry (decide (2 ^ 32 ≤ m.toNat + n)) }
    | .ptr r o => { s.setR d (.ptr r (o + n)) with flags := .other }
  | adcI n d =>
    match s.gpr d, s.flags with
    | .num m, .carry c => { s.setR d (.num (m + n + if c then 1 else 0)) with flags := .other }
    | _, _ => s.fault
  | subI n d =>
    match s.gpr d with
    | .num m => { s.setR d (.num (m - n)) with flags := .cmp m n }
    | .ptr .. => s.fault
  | cmpI n d =>
    match s.gpr d with
    | .num m => { s with flags := .cmp m n }
    | .ptr .. => s.fault
  | movd x d => s.setR d (.num (s.v.x x 0))
  | movlLd o b d =>
    match s.gpr b with
    | .ptr r p => if p + o + 4 ≤ L.size r then s.setR d (.num (load32 s.mem r (p + o))) else s.fault
    | .num _ => s.fault
  | movlSt a o b =>
    match s.gpr a, s.gpr b with
    | .num n, .ptr r p => if p + o + 4 ≤ L.size r ∧ L.writable r = true then { s with mem := store32 s.mem r (p + o) n } else s.fault
    | _, _ => s.fault
  | xorl o b d =>
    match s.gpr d, s.gpr b with
    | .num n, .ptr r p =>
      if p + o + 4 ≤ L.size r then { s.setR d (.num (n ^^^ load32 s.mem r (p + o))) with flags := .other } else s.fault
    | _, _ => s.fault
  | movlLdF o d => s.setR d (.num (s.v.f o))
  | movlStF a o =>
    match s.gpr a with
    | .num n => { s with v := s.v.setW o n }
    | .ptr .. => s.fault
  | ldSlot o d => s.setR d (s.slot o)
  | stSlot a o => { s with slot := fun j => if j = o then s.gpr a else s.slot j }
  | ldArg i d => s.setR d (s.arg i)
  | leaTmp d => s.setR d (.ptr .tmp 0)
  | repMovsb =>
    match s.gpr esi, s.gpr edi, s.gpr ecx with
    | .ptr r o, .ptr r' o', .num n =>
      if o + n.toNat ≤ L.size r ∧ o' + n.toNat ≤ L.size r' ∧ L.writable r' = true then
        { ((s.setR esi (.ptr r (o + n.toNat))).setR edi (.ptr r' (o' + n.toNat))).setR ecx (.num 0) with
          mem := copyBytes n.toNat s.mem r o r' o' }
      else s.fault
    | _, _, _ => s.fault

def execs (L : Layout) (s : St) (l : List Instr) : St := l.foldl (Instr.exec L) s

/-- After comparing `a` with `b` (in AT&T order: `cmp b,a`) -/
def holds (a b : UInt32) : Cond → Bool
  | .ja => decide (b < a)
  | .jae => decide (b ≤ a)
  | .jb => decide (a < b)
  | .jbe => decide (a ≤ b)

/-- Running a program from a block; `none` if this takes more than `n` blocks. Faults end the run. -/
def run {Label : Type} (L : Layout) (prog : Label → List Instr × Exit Label) : Nat → Label → St → Option St
  | 0, _, _ => none
  | n + 1, l, s =>
    let s' := execs L s (prog l).1
    if s'.ok = false then some s'
    else
      match (prog l).2 with
      | .ret => some s'
      | .jmp l' => run L prog n l' s'
      | .jcc c yes no =>
        match s'.flags with
        | .cmp a b => run L prog n (if holds a b c then yes else no) s'
        | _ => some s'.fault

end Fastd.Crypto.SalsaX86
