/-!
# Shared constants and small helpers of the fastd model
-/

namespace Fastd

/-- Time stamps and timeouts in milliseconds: `typedef int64_t fastd_timeout_t`
(src/types.h:100). Modelled as unbounded `Int`: 2^63 ms are not reached. -/
notation "Time" => Int

/-- `FASTD_TIMEOUT_INV = INT64_MAX` (src/types.h:103): the timeout that never expires. -/
def timeoutInv : Time := 9223372036854775807

/-- src/fastd.h:583-585 `fastd_timed_out`: `return timeout <= ctx.now`. -/
def timedOut (timeout now : Time) : Bool := decide (timeout ≤ now)

/-! Build-time constants of src/build.h.in:99-158, all in ms. -/

/-- src/build.h.in:149 -/
def KEY_VALID : Time := 3600000
/-- src/build.h.in:152 -/
def KEY_VALID_OLD : Time := 60000
/-- src/build.h.in:155 -/
def KEY_REFRESH : Time := 3300000
/-- src/build.h.in:158 -/
def KEY_REFRESH_SPLAY : Time := 300000
/-- src/build.h.in:122 -/
def REORDER_TIME : Time := 10000

@[simp] theorem timedOut_iff (t n : Time) : timedOut t n = true ↔ t ≤ n := by
  simp [timedOut]

@[simp] theorem timedOut_false_iff (t n : Time) : timedOut t n = false ↔ n < t := by
  simp [timedOut]

end Fastd
