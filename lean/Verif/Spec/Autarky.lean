import Verif.Spec.Formula
import Mathlib.Algebra.Order.Ring.Rat

/-! Specification of autarkies: partial assignments that satisfy every clause they touch. -/

namespace Verif.Spec

/-- The values `σ` of the variables in `A` satisfy every clause that contains a variable of `A`. -/
def Autarky (F : List (List (ℕ × ℤ))) (A : Finset ℕ) (σ : ℕ → Bool) : Prop :=
  ∀ cl ∈ F, (∃ l ∈ cl, l.1 ∈ A) → ∃ l ∈ cl, l.1 ∈ A ∧ LitTrue σ l

/-- The costs `w` do not speak against the values `σ` of the variables in `A`: a variable set to true costs at most zero, a variable set to
false at least zero. -/
def Favours (w : ℕ → ℚ) (A : Finset ℕ) (σ : ℕ → Bool) : Prop :=
  ∀ v ∈ A, (σ v = true → w v ≤ 0) ∧ (σ v = false → 0 ≤ w v)

/-- The clauses without a variable of `A`, in their order. -/
def untouched (F : List (List (ℕ × ℤ))) (A : Finset ℕ) : List (List (ℕ × ℤ)) := F.filter (fun cl => ∀ l ∈ cl, l.1 ∉ A)

end Verif.Spec
