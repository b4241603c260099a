import Verif.Shell.Env
import Verif.Basic

/-!
# Readiness notification, PID file and clock (src/fastd.c, src/time.c)

The environment variable `NOTIFY_SOCKET` is a C string, `none` if it is not set. Whether `socket`, `connect` and `dprintf` succeed is arbitrary; without success
nothing is sent. Only with `WITH_SYSTEMD`.
-/

namespace Fastd.Main.Notify

abbrev Bytes := List UInt8

/-- `strncpy(dst, src, n)` of a string, where `dst` has `n` bytes -/
def strncpy (src : Bytes) (n : Nat) : Bytes := src.take n ++ List.replicate (n - src.length) 0

/-- The address made by `notify_systemd` (src/fastd.c:371-400): `sun_path`, which has 108 bytes on Linux, and how many of them are given to `connect` -/
def notifyAddr (var : Option Bytes) : Option (Bytes × Nat) :=
  match var with
  | none => none
  | some s =>
    if (s.getD 0 0 ≠ 0x40 ∧ s.getD 0 0 ≠ 0x2f) ∨ s.getD 1 0 = 0 then none
    else
      let path := strncpy s 108
      let path := if path.getD 0 0 = 0x40 then path.set 0 0 else path
      some (path, min s.length 108)

/-- `notify_systemd` (src/fastd.c:371-411): what is sent, and the address; `pid` is that of the process that goes on (`daemonize` comes before). -/
def notify (socketOk connectOk : Bool) (pid : Nat) (var : Option Bytes) : Option ((Bytes × Nat) × Bytes) :=
  match notifyAddr var with
  | none => none
  | some a => if socketOk && connectOk then some (a, "READY=1\nMAINPID=".toUTF8.toList ++ ShellEnv.decimal pid) else none

/-- `write_pid` (src/fastd.c:225-265): the new contents of the file, `none` if it is left alone; `fopen` with "w" empties the file. Changing the user is in
`Config/Caps`. `written`: how many bytes reach the file if there is an error. -/
def pidFile (configured opened : Bool) (written : Option Nat) (pid : Nat) : Option Bytes :=
  if configured && opened then some ((ShellEnv.decimal pid).take (written.getD (ShellEnv.decimal pid).length)) else none

/-- `struct timespec` -/
structure Timespec where
  sec : Int
  nsec : Int

/-- `fastd_get_time` (src/time.c:36-41); `none` if the multiplication or the addition of `int64_t` overflows -/
def getTime (ts : Timespec) : Option Time :=
  let a := 1000 * ts.sec
  let r := a + ts.nsec.tdiv 1000000
  if -2 ^ 63 ≤ a ∧ a < 2 ^ 63 ∧ -2 ^ 63 ≤ r ∧ r < 2 ^ 63 then some r else none

end Fastd.Main.Notify
