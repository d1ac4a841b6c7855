import Verif.Model.TspRun
import Verif.Spec.Cover
import Verif.Spec.TspPost

/-! Instances of the TSP in which infinite costs forbid edges. -/

namespace Verif.Spec
open Verif Model

/-- The costs `C`, infinite on the pairs that `F` forbids. -/
def forbid (F : ℕ → ℕ → Bool) (C : ℕ → ℕ → ℚ) (i j : ℕ) : Num := if F i j then Num.pinf else Num.fin (C i j)

/-- A table with a row for every edge that holds the cost of the edge in the columns of its two ends. -/
structure EndCosts (inp : TspInputs) (c : ℕ → ℕ → Num) (m : Mat Num) : Prop where
  rows : m.rows = inp.numEdges
  cols : m.cols = inp.numNodes
  ends : ∀ e < inp.numEdges, ∀ v, v = src inp.edges e ∨ v = dst inp.edges e → m.data e v = c (src inp.edges e) (dst inp.edges e)

/-- The inputs of the solver for a complete directed graph with the costs `c`. -/
structure CostsOk (inp : TspInputs) (c : ℕ → ℕ → Num) : Prop where
  all : AllEdges inp.numNodes inp.edges
  len : inp.edges.length = inp.numEdges
  size : inp.cost.size = inp.numEdges
  cost : ∀ e < inp.numEdges, inp.cost.data e = c (src inp.edges e) (dst inp.edges e)
  deg : EndCosts inp c inp.degCost

/-- The cycle cover has no forbidden edge. -/
def Avoids (n : ℕ) (F : ℕ → ℕ → Bool) (next : ℕ → ℕ) : Prop := ∀ u < n, F u (next u) = false

/-- `next` is a cycle cover without forbidden edges, and all others of these cost more. -/
def OnlyBestAvoiding (n : ℕ) (F : ℕ → ℕ → Bool) (C : ℕ → ℕ → ℚ) (next : ℕ → ℕ) : Prop :=
  CycleCover n next ∧ Avoids n F next ∧
    ∀ other, CycleCover n other → Avoids n F other → (∃ u < n, other u ≠ next u) → coverCost n C next < coverCost n C other

/-- The edge from `a.1` to `a.2` leaves the set `S` of nodes and is not forbidden. -/
def LeavesBy (n : ℕ) (F : ℕ → ℕ → Bool) (S : ℕ → Prop) (a : ℕ × ℕ) : Prop := a.1 < n ∧ a.2 < n ∧ S a.1 ∧ ¬ S a.2 ∧ F a.1 a.2 = false

/-- Two edges that are not forbidden leave every set of nodes other than the empty one and that of all nodes. -/
def TwoLeave (n : ℕ) (F : ℕ → ℕ → Bool) : Prop :=
  ∀ S : ℕ → Prop, (∃ u < n, S u) → (∃ u < n, ¬ S u) → ∃ a b : ℕ × ℕ, a ≠ b ∧ LeavesBy n F S a ∧ LeavesBy n F S b

end Verif.Spec
