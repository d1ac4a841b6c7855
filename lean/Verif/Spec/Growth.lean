import Mathlib.Data.Finset.Card
import Verif.Spec.Tsp

/-! Inputs on which messages grow. -/

namespace Verif.Spec

/-- Every clause has exactly one unnegated literal (so it reads "if all the others, then this one"), and every used variable is unnegated in exactly
`d` clauses. -/
structure Rules (F : List (List (ℕ × ℤ))) (used : List ℕ) (d : ℕ) : Prop where
  head : ∀ cl ∈ F, ∃ v, (v, 1) ∈ cl ∧ ∀ u, (u, 1) ∈ cl → u = v
  count : ∀ v ∈ used, ((Finset.range F.length).filter (fun c => (v, 1) ∈ F.getD c [])).card = d

/-- The edges in `good` form disjoint directed cycles through all nodes: one of them leaves and one enters each node. -/
structure Rounds (n : ℕ) (edges : List (ℕ × ℕ)) (good : Finset ℕ) : Prop where
  out : ∀ v < n, ∃ e ∈ outEdges edges v, e ∈ good ∧ ∀ f ∈ outEdges edges v, f ∈ good → f = e
  inn : ∀ v < n, ∃ e ∈ inEdges edges v, e ∈ good ∧ ∀ f ∈ inEdges edges v, f ∈ good → f = e

end Verif.Spec
