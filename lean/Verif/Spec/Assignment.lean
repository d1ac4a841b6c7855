import Mathlib.Algebra.BigOperators.Group.Finset.Basic
import Mathlib.Data.Rat.Defs

/-! Specification: assignments of projects to teams and their costs. -/

namespace Verif.Spec

/-- Team `t < T` gets project `m t`, or none; the projects are numbers below `P`, and no two teams get the same project. -/
structure Assignment (T P : ℕ) (m : ℕ → Option ℕ) : Prop where
  lt : ∀ t < T, ∀ p, m t = some p → p < P
  inj : ∀ t < T, ∀ t' < T, ∀ p, m t = some p → m t' = some p → t = t'

/-- The cost of what one team does; staying idle costs nothing. -/
def costOf (C : ℕ → ℕ → ℚ) (t : ℕ) : Option ℕ → ℚ
  | none => 0
  | some p => C t p

/-- Total cost of an assignment; `C t p` is the cost of team `t` working on project `p`. -/
def assignmentCost (T : ℕ) (C : ℕ → ℕ → ℚ) (m : ℕ → Option ℕ) : ℚ := ∑ t ∈ Finset.range T, costOf C t (m t)

/-- `m` is an assignment, and every other one costs at least `gap` more. -/
def BestBy (gap : ℚ) (T P : ℕ) (C : ℕ → ℕ → ℚ) (m : ℕ → Option ℕ) : Prop :=
  Assignment T P m ∧ ∀ other, Assignment T P other → (∃ t < T, other t ≠ m t) →
    assignmentCost T C m + gap ≤ assignmentCost T C other

/-- Prices that prove that `m` is the cheapest assignment: matched teams and projects have prices of at most `-δ`, which add up to the
cost of the pair; all others have price zero; a pair outside of `m` costs at least `δ` more than its prices. -/
structure Prices (T P : ℕ) (C : ℕ → ℕ → ℚ) (m : ℕ → Option ℕ) (u v : ℕ → ℚ) (δ : ℚ) : Prop where
  assignment : Assignment T P m
  tight : ∀ t < T, ∀ p, m t = some p → C t p = u t + v p
  team : ∀ t < T, m t ≠ none → u t ≤ -δ
  idle : ∀ t < T, m t = none → u t = 0
  project : ∀ t < T, ∀ p, m t = some p → v p ≤ -δ
  free : ∀ p < P, (∀ t < T, m t ≠ some p) → v p = 0
  slack : ∀ t < T, ∀ p < P, m t ≠ some p → u t + v p + δ ≤ C t p

/-- All teams together fit their departments: team `t` takes `wf d t` from department `d` with capacity `cap d`. -/
def AllFit (D T : ℕ) (wf : ℕ → ℕ → ℕ) (cap : ℕ → ℕ) : Prop := ∀ d < D, ∑ t ∈ Finset.range T, wf d t ≤ cap d

end Verif.Spec
