import Mathlib.Algebra.Order.Field.Rat
import Mathlib.Tactic.NormNum

/-!
The eleven units of the shipped tables.  Units 1 to 4 and units 5 to 7 are the two coasts.
-/

namespace Verif.Spec

/-- What fighters and weasels of the unit add to the cost of a team. -/
def unitCosts : ℕ → ℕ × ℕ
  | 1 | 2 | 3 | 5 | 6 => (0, 2)
  | 4 | 7 => (4, 0)
  | 8 | 9 => (0, 1)
  | 10 | 11 => (1, 0)
  | _ => (0, 0)

/-- The cost of a team with the fighters of `u` and the weasels of `v`, without the distance. -/
def pairCost (u v : ℕ) : ℕ := (unitCosts u).1 + (unitCosts v).2

/-- The units are on different coasts. -/
def OppositeCoasts (u v : ℕ) : Prop := (u ≤ 4 ∧ 5 ≤ v ∧ v ≤ 7) ∨ (v ≤ 4 ∧ 5 ≤ u ∧ u ≤ 7)

/-- The pairs for which the table of distances is not symmetric. -/
def UnequalWays (u v : ℕ) : Prop := (u = 7 ∧ (v = 10 ∨ v = 11)) ∨ (v = 7 ∧ (u = 10 ∨ u = 11))

instance (u v : ℕ) : Decidable (OppositeCoasts u v) := by unfold OppositeCoasts; infer_instance

instance (u v : ℕ) : Decidable (UnequalWays u v) := by unfold UnequalWays; infer_instance

/-- What is used of `exp` and of the product of floats: 1 is `exp(0)` and neutral, `exp(-k)` falls with `k`, products of values below 1 are
below 1. -/
structure ExpOk (ex : ℕ → ℚ) (mul : ℚ → ℚ → ℚ) : Prop where
  zero : ex 0 = 1
  falls : ∀ j k, j < k → k ≤ 4 → ex k < ex j
  one_mul : ∀ x, mul 1 x = x
  mul_one : ∀ x, mul x 1 = x
  mul_lt : ∀ j k, 0 < j → j ≤ 4 → 0 < k → k ≤ 4 → mul (ex j) (ex k) < 1

end Verif.Spec
