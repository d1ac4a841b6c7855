import Verif.Spec.MinSum

/-! Specification of the coupling constraint between a team and its project edges. -/

namespace Verif.Spec

/-- The variables of the coupling constraint of one team: `none` is "the team is formed", `some p` is "the team is
matched to project `p`".  The constraint: either nothing is selected, or the team is formed and matched to exactly one
project. -/
def Coupled (S : Finset (Option ℕ)) : Prop := S = ∅ ∨ ∃ p : ℕ, S = {none, some p}

/-- The variables of a coupling constraint with `P` projects. -/
def couplingVars (P : ℕ) : Finset (Option ℕ) := insert none ((Finset.range P).map ⟨some, Option.some_injective _⟩)

/-- Incoming messages: `m` from the team, `e p` from the edge to project `p`. -/
def couplingIn (m : ℚ) (e : ℕ → ℚ) : Option ℕ → ℚ
  | none => m
  | some p => e p

end Verif.Spec
