import Verif.Spec.Formula
import Mathlib.Algebra.Order.Ring.Rat

/-! Specification of costs drawn around a planted assignment. -/

namespace Verif.Spec

/-- The cost of variable `v` when costs are biased towards the assignment `sol`: half the variance on the side of its value, plus noise. -/
def plantedCost (var : ℚ) (sol : List Bool) (noise : ℕ → ℚ) (v : ℕ) : ℚ := (if asgn sol v then -(var / 2) else var / 2) + noise v

/-- The noise of `v` is too small to move the cost across zero or across the threshold. -/
def Clear (var thr : ℚ) (noise : ℕ → ℚ) (v : ℕ) : Prop := |noise v| + |thr| < var / 2

end Verif.Spec
