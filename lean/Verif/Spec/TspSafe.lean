import Verif.Model.TspSolve

/-! When the TSP solver stays inside its arrays. -/

namespace Verif.Spec
open Verif Num Model

/-- The tables have the sizes that the constructors give them. -/
structure TspShapes (inp : TspInputs) (e2d : Mat Num) : Prop where
  len : inp.edges.length = inp.numEdges
  cost : inp.cost.size = inp.numEdges
  matrix : inp.costMatrix.rows = inp.numNodes ∧ inp.costMatrix.cols = inp.numNodes
  degCost : inp.degCost.rows = inp.numEdges ∧ inp.degCost.cols = inp.numNodes
  e2d : e2d.rows = inp.numEdges ∧ e2d.cols = inp.numNodes

/-- The edges join nodes that exist. -/
def EndsExist (n : ℕ) (edges : List (ℕ × ℕ)) : Prop := ∀ c ∈ edges, c.1 < n ∧ c.2 < n

/-- Every node can be left, and entered from another node. -/
def LeftAndEntered (n : ℕ) (edges : List (ℕ × ℕ)) : Prop :=
  ∀ v < n, (∃ c ∈ edges, c.1 = v) ∧ ∃ c ∈ edges, c.1 ≠ v ∧ c.2 = v

/-- The messages of an augmented round that starts in state `st` are all computed, and one of them is not a number. -/
def NanSeen (inp : TspInputs) (reset : Bool) (K : ℕ) (st : TspState) : Prop :=
  ∃ e2d m, (if reset then tspReset inp st.msgs.e2d else some st.msgs.e2d) = some e2d ∧
    loopUp K (tspAugmentedIter inp st.an.deltas)
      { st.msgs with e2d := e2d, subOld := Mat.pushZeros st.an.deltas.length st.msgs.subOld } = some m ∧
    ∃ e < inp.numEdges, ∃ v < inp.numNodes, m.e2d.data e v = nan

end Verif.Spec
