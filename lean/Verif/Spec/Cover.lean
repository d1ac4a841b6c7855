import Mathlib.Algebra.BigOperators.Group.Finset.Basic
import Mathlib.Data.Rat.Defs

/-! Specification: cycle covers of a complete directed graph and their costs. -/

namespace Verif.Spec

/-- Every node `u` has one next node `next u`, another node, and no two nodes have the same next node: the edges from `u` to
`next u` form cycles of two or more nodes that cover all nodes. -/
structure CycleCover (n : ℕ) (next : ℕ → ℕ) : Prop where
  lt : ∀ u < n, next u < n
  ne : ∀ u < n, next u ≠ u
  inj : ∀ u < n, ∀ v < n, next u = next v → u = v

/-- Cost of the edges of a cycle cover. -/
def coverCost (n : ℕ) (C : ℕ → ℕ → ℚ) (next : ℕ → ℕ) : ℚ := ∑ u ∈ Finset.range n, C u (next u)

/-- `next` is a cycle cover, and all others cost more. -/
def OnlyBest (n : ℕ) (C : ℕ → ℕ → ℚ) (next : ℕ → ℕ) : Prop :=
  CycleCover n next ∧ ∀ other, CycleCover n other → (∃ u < n, other u ≠ next u) → coverCost n C next < coverCost n C other

/-- `next` is a cycle cover, and all others cost at least `gap` more. -/
def CoverBy (gap : ℚ) (n : ℕ) (C : ℕ → ℕ → ℚ) (next : ℕ → ℕ) : Prop :=
  CycleCover n next ∧ ∀ other, CycleCover n other → (∃ u < n, other u ≠ next u) → coverCost n C next + gap ≤ coverCost n C other

end Verif.Spec
