import Verif.Spec.TspRounds
import Verif.Proofs.Runs
import Verif.Model.TspRun

/-! Well-formed inputs and message tables of the TSP solver. -/

namespace Verif.Spec
open Verif Num Model

/-- Well-formed instance. -/
structure TspOk (inp : TspInputs) (w : ℕ → ℚ) (c : ℕ → ℕ → ℚ) : Prop where
  edges : EdgesOk inp.numNodes inp.edges
  len : inp.edges.length = inp.numEdges
  two : TwoWays inp.numNodes inp.edges
  cost : inp.cost.Is inp.numEdges w
  deg : inp.degCost.Is inp.numEdges inp.numNodes c

/-- The instance with its settings as a problem of the specification. -/
def tspProblem (inp : TspInputs) (w : ℕ → ℚ) (c C : ℕ → ℕ → ℚ) (numIter : ℕ) (reset : Bool) (thr : Num) : TspProblem where
  n := inp.numNodes
  edges := inp.edges
  w := w
  c := c
  C := C
  flag := inp.flag
  alpha := inp.alpha
  iters := numIter
  reset := reset
  thr := thr

/-- The message tables have the right shapes and are finite and zero where they should be. -/
structure TspMsgsOk (inp : TspInputs) (deltas : List (List ℕ)) (m : TspMsgs) : Prop where
  e2d : m.e2d.Is inp.numEdges inp.numNodes m.e2d.val
  dummy_rows : m.degDummy.rows = inp.numEdges
  dummy_cols : m.degDummy.cols = inp.numNodes
  dummy_off : ∀ e < inp.numEdges, ∀ v < inp.numNodes, v ≠ src inp.edges e → v ≠ dst inp.edges e → m.degDummy.data e v = fin 0
  deg : m.deg.Is inp.numEdges inp.numNodes m.deg.val
  deg_off : ∀ e < inp.numEdges, ∀ v < inp.numNodes, v ≠ src inp.edges e → v ≠ dst inp.edges e → m.deg.val e v = 0
  old_rows : m.degOld.rows = inp.numEdges
  old_cols : m.degOld.cols = inp.numNodes
  s2e : m.s2e.Is deltas.length inp.numEdges m.s2e.val
  s2e_off : ∀ k < deltas.length, ∀ e < inp.numEdges, e ∉ deltas.getD k [] → m.s2e.val k e = 0
  sub_rows : m.subDummy.rows = deltas.length
  sub_cols : m.subDummy.cols = inp.numEdges
  sub_off : ∀ k < deltas.length, ∀ e < inp.numEdges, e ∉ deltas.getD k [] → m.subDummy.data k e = fin 0
  subOld_cols : m.subOld.cols = inp.numEdges

end Verif.Spec
