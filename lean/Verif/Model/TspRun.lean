import Verif.Model.Degree
import Verif.Model.Subtour
import Verif.Model.Equality

/-!
Model of the message passing part of `GraphicalModelTsp` (/repo/include/impalib/graphical_model.hpp) and of `OutputsTsp`
(/repo/include/impalib/input_output.hpp).
-/

namespace Verif.Model
open Verif Num

/-- The inputs after decoding (input_output.hpp:174-178, members of `InputsTsp`) and the constructor arguments. -/
structure TspInputs where
  numNodes : ℕ
  numEdges : ℕ
  edges : List (ℕ × ℕ)
  cost : Arr Num
  costMatrix : Mat Num
  degCost : Mat Num
  flag : Bool
  alpha : ℚ

/-- The message tables: `EdgeEc2DegreeConstraintM`, `DegreeConstraint2EqConstraintDummyM_`,
`DegreeConstraint2EqConstraintM_`, `degreeConstraint2EqConstraintOld`, `edgeEc2SubtourConstraintsM_`,
`subtourConstraints2EdgeEcM_`, `subtourConstraints2EdgeEcDummyM_`, `subtourConstraints2EdgeEcOld_`. -/
structure TspMsgs where
  e2d : Mat Num
  degDummy : Mat Num
  deg : Mat Num
  degOld : Mat Num
  e2s : Mat Num
  s2e : Mat Num
  subDummy : Mat Num
  subOld : Mat Num

/-- graphical_model.hpp:263-271 and update_degree_constraint.hpp:50-54: degree messages start at zero, there are no
subtour messages. -/
def tspInit (inp : TspInputs) (e2d : Mat Num) : TspMsgs :=
  let z := Mat.fill inp.numEdges inp.numNodes 0
  let e := Mat.fill 0 inp.numEdges 0
  ⟨e2d, z, z, z, e, e, e, e⟩

/-- graphical_model.hpp:318-321, one iteration of `iterate_relaxed_graph`. -/
def tspRelaxedIter (inp : TspInputs) (iter : ℕ) (m : TspMsgs) : Option TspMsgs := do
  let degDummy ← degreeUpdate inp.numNodes inp.numEdges m.e2d inp.edges m.degDummy
  let (deg, degOld) ← processFiltering inp.numEdges inp.flag inp.alpha iter degDummy (m.deg, m.degOld)
  let e2d ← edgeToDegreeRelaxed inp.numEdges inp.edges inp.degCost deg m.e2d
  some { m with e2d := e2d, degDummy := degDummy, deg := deg, degOld := degOld }

/-- graphical_model.hpp:477-485, one iteration of `iterate_augmented_graph`. -/
def tspAugmentedIter (inp : TspInputs) (deltas : List (List ℕ)) (iter : ℕ) (m : TspMsgs) : Option TspMsgs := do
  let degDummy ← degreeUpdate inp.numNodes inp.numEdges m.e2d inp.edges m.degDummy
  let (deg, degOld) ← processFiltering inp.numEdges inp.flag inp.alpha iter degDummy (m.deg, m.degOld)
  let e2s ← edgeToSubtour inp.numEdges deltas inp.cost deg m.s2e inp.edges
  let subDummy ← subtourUpdate inp.numEdges e2s deltas m.subDummy
  let (s2e, subOld) ← processFiltering deltas.length inp.flag inp.alpha iter subDummy (m.s2e, m.subOld)
  let e2d ← edgeToDegreeAugmented inp.numEdges deg s2e inp.edges inp.degCost m.e2d
  some ⟨e2d, degDummy, deg, degOld, e2s, s2e, subDummy, subOld⟩

/-- `accumulate(row.begin(), row.end(), zero_value)` for row `e` (input_output.hpp:274, 288). -/
def rowSum (m : Mat Num) (e : ℕ) : Option Num :=
  loopUp m.cols (fun j acc => do
    let x ← m.rd e j
    some (acc + x)) 0

/-- input_output.hpp:272-276 `OutputsTsp::extrinsic_output_edge_ec_relaxed_graph_update`. -/
def tspExtrinsicRelaxed (deg : Mat Num) (ext : Arr Num) : Option (Arr Num) :=
  loopUp deg.rows (fun e ext => do
    let s ← rowSum deg e
    ext.wr e s) ext

/-- input_output.hpp:286-295 `OutputsTsp::extrinsic_output_edge_ec_augmented_graph_update`; each
`transform(row.begin(), row.end(), ext.begin(), ext.begin(), plus)` adds one row of subtour messages. -/
def tspExtrinsicAugmented (deg s2e : Mat Num) (ext : Arr Num) : Option (Arr Num) := do
  let ext ← tspExtrinsicRelaxed deg ext
  addRowsL s2e ext

/-- input_output.hpp:304-306 `OutputsTsp::intrinsic_output_edge_ec_update`. -/
def tspIntrinsic (ext cost intr : Arr Num) : Option (Arr Num) := ext.addTo cost intr

/-- graphical_model.hpp:317-324: the message passing of `iterate_relaxed_graph` and its outputs (extrinsic, intrinsic). -/
def tspRelaxed (inp : TspInputs) (numIter : ℕ) (m : TspMsgs) (o : Arr Num × Arr Num) :
    Option (TspMsgs × Arr Num × Arr Num) := do
  let m ← loopUp numIter (tspRelaxedIter inp) m
  let ext ← tspExtrinsicRelaxed m.deg o.1
  let intr ← tspIntrinsic ext inp.cost o.2
  some (m, ext, intr)

/-- graphical_model.hpp:450-457: reset of the messages from edges to degree constraints. -/
def tspReset (inp : TspInputs) (e2d : Mat Num) : Option (Mat Num) :=
  loopUp inp.edges.length (fun i e2d => do
    let c ← inp.edges[i]?
    let cost ← inp.costMatrix.rd c.1 c.2
    let e2d ← e2d.wr i c.1 cost
    e2d.wr i c.2 cost) e2d

/-- `m.push_back(vector(m.cols, 0))`, `k` times. -/
def Mat.pushZeros (k : ℕ) (m : Mat Num) : Mat Num :=
  ⟨m.rows + k, m.cols, fun i j => if i < m.rows then m.data i j else 0⟩

/-- graphical_model.hpp:489-496: is some entry of the table NaN? -/
def anyNan (m : Mat Num) : Bool :=
  (List.range m.rows).any (fun i => (List.range m.cols).any (fun j => m.data i j == nan))

/-- graphical_model.hpp:450-503: the message passing of `iterate_augmented_graph` and its outputs (extrinsic, intrinsic).
The outcome `none` also covers `exit(0)` of line 500. -/
def tspAugmented (inp : TspInputs) (reset : Bool) (deltas : List (List ℕ)) (numIter : ℕ) (m : TspMsgs)
    (o : Arr Num × Arr Num) : Option (TspMsgs × Arr Num × Arr Num) := do
  let e2d ← if reset then tspReset inp m.e2d else some m.e2d
  let m := { m with e2d := e2d, subOld := Mat.pushZeros deltas.length m.subOld }
  let m ← loopUp numIter (tspAugmentedIter inp deltas) m
  if anyNan m.e2d then none else do
    let ext ← tspExtrinsicAugmented m.deg m.s2e o.1
    let intr ← tspIntrinsic ext inp.cost o.2
    some (m, ext, intr)

/-- graphical_model.hpp:349-353 and 378-383: zero messages for the `k` cut constraints that are new. -/
def tspAddCuts (k : ℕ) (m : TspMsgs) : TspMsgs :=
  let s := Mat.pushZeros k m.s2e
  { m with s2e := s, subDummy := s }

end Verif.Model
