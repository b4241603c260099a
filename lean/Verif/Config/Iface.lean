/-!
# Interface names (src/config.c, src/iface.c)

Model only. C strings are byte lists without the terminating NUL.
-/

namespace Fastd.Config

/-- `IFNAMSIZ` (Linux: net/if.h) -/
def IFNAMSIZ : Nat := 16

/-- `strchr(s, c)`: offset of the first occurrence. -/
def strchr (s : List UInt8) (c : UInt8) : Option Nat := s.findIdx? (· == c)

/-- `strrchr(s, c)`: offset of the last occurrence. -/
def strrchr (s : List UInt8) (c : UInt8) : Option Nat :=
  (s.reverse.findIdx? (· == c)).map fun i => s.length - 1 - i

/-- `fastd_config_ifname` (src/config.c:85-104): whether the name or pattern is accepted.
`percent[1]` is the NUL for a pattern ending with `%`. -/
def acceptIfname (s : List UInt8) : Bool :=
  if (strchr s 0x2f /- / -/).isSome then false
  else match strchr s 0x25 /- % -/ with
    | some i =>
      if strrchr s 0x25 ≠ some i then false
      else if s.getD (i + 1) 0 ≠ 0x6e /- n -/ ∧ s.getD (i + 1) 0 ≠ 0x6b /- k -/ then false
      else true
    | none => true

/-- What `fastd_iface_format_name` needs to know about a peer: its own pattern, its name, and the
text given by `describe_peer`, the first 16 digits of the key (`none` without key). -/
structure IfPeer where
  ifname : Option (List UInt8)
  name : Option (List UInt8)
  key : Option (List UInt8)

inductive NameRes
  /-- the name; empty if the system is to choose one -/
  | ok (name : List UInt8)
  | refused
  /-- `exit_bug` -/
  | bug
deriving DecidableEq, Repr

/-- `snprintf(ifname, IFNAMSIZ, "%s%s%s", a, b, c)`, and `strncpy` with forced NUL
(src/iface.c:497-498): the string in the buffer. -/
def bounded (s : List UInt8) : List UInt8 := s.take (IFNAMSIZ - 1)

/-- The choice of the pattern in `fastd_iface_format_name` (src/iface.c:481-488). `single` is
`fastd_config_single_iface()`. -/
def choosePattern (confIfname : Option (List UInt8)) (single : Bool) :
    Option IfPeer → Option (List UInt8)
  | none => confIfname
  | some p =>
    if p.ifname.isSome then p.ifname
    else if !single && !(confIfname.any fun c => (strchr c 0x25).isSome) then none
    else confIfname

/-- `fastd_iface_format_name` (src/iface.c:480-537) -/
def formatName (confIfname : Option (List UInt8)) (single : Bool) (peer : Option IfPeer) : NameRes :=
  match choosePattern confIfname single peer with
  | none => .ok []
  | some pat =>
    match strchr pat 0x25 with
    | none => .ok (bounded pat)
    | some i =>
      match peer with
      | none => .refused
      | some p =>
        let pre := pat.take i
        if pat.getD (i + 1) 0 = 0x6e then
          match p.name with
          | none => .refused
          | some n => .ok (bounded (pre ++ n ++ pat.drop (i + 2)))
        else if pat.getD (i + 1) 0 = 0x6b then
          match p.key with
          | none => .refused
          | some k => .ok (bounded (pre ++ k ++ pat.drop (i + 2)))
        else .bug

end Fastd.Config
