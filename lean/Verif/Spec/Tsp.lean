import Mathlib.Data.Finset.Filter
import Mathlib.Data.Finset.Range
import Mathlib.Data.List.Basic

/-! Specification vocabulary for TSP edge lists. -/

namespace Verif.Spec

/-- Indices of the edges that start at `v`. -/
def outEdges (edges : List (ℕ × ℕ)) (v : ℕ) : Finset ℕ :=
  (Finset.range edges.length).filter (fun i => edges[i]?.map Prod.fst = some v)
/-- Indices of the edges that end at `v`. -/
def inEdges (edges : List (ℕ × ℕ)) (v : ℕ) : Finset ℕ :=
  (Finset.range edges.length).filter (fun i => edges[i]?.map Prod.snd = some v)

/-- A list of directed edges on nodes `0..n-1` without self loops. -/
def EdgesOk (n : ℕ) (edges : List (ℕ × ℕ)) : Prop := ∀ e ∈ edges, e.1 < n ∧ e.2 < n ∧ e.1 ≠ e.2

end Verif.Spec
