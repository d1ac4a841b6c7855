import Mathlib.Algebra.BigOperators.Group.Finset.Basic
import Mathlib.Algebra.BigOperators.Intervals
import Mathlib.Data.Rat.Defs

/-! Specification of damping: exponential smoothing started at zero. -/

namespace Verif.Spec

/-- The damped value of the sequence `r` at iteration `k`. -/
def damped (flag : Bool) (alpha : ℚ) (r : ℕ → ℚ) (k : ℕ) : ℚ :=
  if flag ∧ alpha ≠ 0 then (1 - alpha) * ((Finset.range (k + 1)).sum fun j => alpha ^ (k - j) * r j) else r k

end Verif.Spec
