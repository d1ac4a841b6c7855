import Verif.Spec.Assignment

/-! Assignments in which some pairs of project and team are forbidden. -/

namespace Verif.Spec

/-- No team gets a project that `F` forbids for it; the first argument of `F` is the project. -/
def AvoidsPairs (T : ℕ) (F : ℕ → ℕ → Bool) (m : ℕ → Option ℕ) : Prop := ∀ t < T, ∀ p, m t = some p → F p t = false

/-- `m` is an assignment without forbidden pairs, and every other one of these costs at least `gap` more. -/
def BestAvoiding (gap : ℚ) (T P : ℕ) (F : ℕ → ℕ → Bool) (C : ℕ → ℕ → ℚ) (m : ℕ → Option ℕ) : Prop :=
  Assignment T P m ∧ AvoidsPairs T F m ∧
    ∀ other, Assignment T P other → AvoidsPairs T F other → (∃ t < T, other t ≠ m t) → assignmentCost T C m + gap ≤ assignmentCost T C other

end Verif.Spec
