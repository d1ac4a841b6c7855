import Mathlib.Logic.Equiv.Basic
import Mathlib.Data.Rat.Defs

/-! Specification of two assignment problems that differ only in names and in the unit of the costs. -/

namespace Verif.Spec

/-- `f` permutes the numbers below `n`. -/
def Renames (n : ℕ) (f : Equiv.Perm ℕ) : Prop := ∀ i, f i < n ↔ i < n

/-- The second problem is the first one with department `d` called `σ d`, team `t` called `τ t`, project `p` called `π p`, and all costs
multiplied by `s`. -/
structure SameProblem (D T P : ℕ) (σ τ π : Equiv.Perm ℕ) (s : ℚ) (wf wf' : ℕ → ℕ → ℕ) (cap cap' : ℕ → ℕ) (w w' : ℕ → ℚ)
    (R R' : ℕ → ℕ → ℚ) : Prop where
  depts : Renames D σ
  teams : Renames T τ
  projects : Renames P π
  weight : ∀ d < D, ∀ t < T, wf' (σ d) (τ t) = wf d t
  capacity : ∀ d < D, cap' (σ d) = cap d
  teamCost : ∀ t < T, w' (τ t) = s * w t
  pairCost : ∀ p < P, ∀ t < T, R' (π p) (τ t) = s * R p t

end Verif.Spec
