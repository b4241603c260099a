import Verif.Main.Signals

/-!
# What is expected of signals
-/

namespace Fastd.Main

/-- What a signal is answered with. -/
def Sig.answer : Sig → Option Ev
  | .hup => some .reload
  | .usr2 => some .resetAll
  | .chld => some .reap
  | _ => none

/-- The events after the last `e`. -/
def since (e : Ev) (es : List Ev) : List Ev := es.reverse.takeWhile (· ≠ e)

/-- What is noted about a signal. -/
def Proc.flag (p : Proc) : Sig → Bool
  | .hup => p.sigReload
  | .usr2 => p.sigReset
  | .chld => p.sigChild
  | s => decide (p.sigTerminate = some s)

end Fastd.Main
