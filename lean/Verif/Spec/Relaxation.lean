import Verif.Spec.Formula
import Verif.Spec.MinSum

/-! Specification of the linear relaxation of a weighted formula: variables may take any value between 0 and 1. -/

namespace Verif.Spec

/-- How far a literal is true when variable `v` has the value `X v`. -/
def litDegree (X : ℕ → ℚ) (l : ℕ × ℤ) : ℚ := if l.2 = 1 then X l.1 else 1 - X l.1

/-- All values lie between 0 and 1, and in every clause the degrees of the literals sum up to at least 1. -/
def FractionalSolution (F : List (List (ℕ × ℤ))) (vars : Finset ℕ) (X : ℕ → ℚ) : Prop :=
  (∀ v ∈ vars, 0 ≤ X v ∧ X v ≤ 1) ∧ ∀ cl ∈ F, 1 ≤ (cl.map (litDegree X)).sum

/-- No fractional solution costs less. -/
def CheapestFractional (F : List (List (ℕ × ℤ))) (vars : Finset ℕ) (w X : ℕ → ℚ) : Prop :=
  FractionalSolution F vars X ∧ ∀ X', FractionalSolution F vars X' → ∑ v ∈ vars, w v * X v ≤ ∑ v ∈ vars, w v * X' v

end Verif.Spec
