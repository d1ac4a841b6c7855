import Verif.Model.KcIO
import Verif.Model.TspOut
import Verif.Model.TspPost

/-!
Model of the interface of the TSP solver: the tables built in `GraphicalModelTsp.initialize`, `run_impa` and
`process_inputs_ctypes` (/repo/src/impa/Impa.py), `InputsTsp::process_inputs` (/repo/include/impalib/input_output.hpp) and
`WrapperTsp` (/repo/src/impa/Wrapper.cpp).  A pointer argument is the list of the values stored behind it; reading past its end
is undefined (`none`).  Conversions to `int32` and to `impalib_type` are exact (DESIGN.md).
-/

namespace Verif.Model
open Verif Num

/-- Impa.py:154-178: `cost_edge_variable` and `edge_ec_to_degree_constraint_m` (also assigned to `edge_degree_constraint_cost`).
Both have room for `n**2 - n` edges; an index outside is an `IndexError`. -/
def tspTables (n : ℕ) (matrix : Mat Num) (edges : List (ℕ × ℕ)) : Option (Arr Num × Mat Num) :=
  loopUp edges.length (fun i s => do
    let e ← edges[i]?
    let cost ← matrix.rd e.1 e.2
    let costs ← s.1.wr i cost
    let t ← s.2.wr i e.1 cost
    let t ← t.wr i e.2 cost
    some (costs, t)) (Arr.fill (n * n - n) 0, Mat.fill (n * n - n) n 0)

/-- What `WrapperTsp` receives as inputs (Impa.py:302-311). -/
structure TspFlat where
  edges : List ℕ
  costs : List Num
  matrix : List Num
  e2d : List Num
  degCost : List Num

/-- Impa.py:302-311, `process_inputs_ctypes`: row-major copies; the messages and the degree costs come from the same table. -/
def tspFlatten (matrix : Mat Num) (edges : List (ℕ × ℕ)) (costs : Arr Num) (table : Mat Num) : TspFlat where
  edges := edges.flatMap (fun e => [e.1, e.2])
  costs := costs.toList
  matrix := flattenMat matrix
  e2d := flattenMat table
  degCost := flattenMat table

/-- input_output.hpp:242-263 `process_inputs`.  Returns the inputs and `EdgeEc2DegreeConstraintM`. -/
def tspDecode (n numEdges : ℕ) (flag : Bool) (alpha : ℚ) (f : TspFlat) : Option (TspInputs × Mat Num) := do
  let costs ← slice f.costs 0 numEdges
  let (edges, e2d, degCost) ← loopUp numEdges (fun i s => do
      let p ← slice f.edges (2 * i) (2 * (i + 1))
      let u ← p[0]?
      let v ← p[1]?
      let a ← slice f.e2d (n * i) (n * (i + 1))
      let a ← s.2.1.wrRow i (Arr.ofList a)
      let d ← slice f.degCost (n * i) (n * (i + 1))
      let d ← s.2.2.wrRow i (Arr.ofList d)
      some (s.1 ++ [(u, v)], a, d))
    (([] : List (ℕ × ℕ)), Mat.fill numEdges n (0 : Num), Mat.fill numEdges n (0 : Num))
  let matrix ← loopUp n (fun v m => do
      let r ← slice f.matrix (n * v) (n * (v + 1))
      m.wrRow v (Arr.ofList r)) (Mat.fill n n (0 : Num))
  some ({ numNodes := n, numEdges := numEdges, edges := edges, cost := Arr.ofList costs, costMatrix := matrix, degCost := degCost,
          flag := flag, alpha := alpha }, e2d)

/-- The settings of a run. -/
structure TspSettings where
  numIter : ℕ
  augmentation : Bool
  reset : Bool
  flag : Bool
  alpha : ℚ
  thr : Num
  maxCount : ℕ
  maxAugm : ℤ
  postProcess : Bool
  kOpt : Bool

/-- Wrapper.cpp:83-106 `WrapperTsp`.  The outer option says that `fuel` was enough for the loop of augmentations, the inner one
that the call returns. -/
def tspWrapper (s : TspSettings) (order : ℕ → List (ℕ × ℕ) → List ℕ) (fuel n numEdges : ℕ) (f : TspFlat) (b : TspBuffers) :
    Option (Option TspBuffers) :=
  match tspDecode n numEdges s.flag s.alpha f with
  | none => some none
  | some (inp, e2d) =>
    (tspSolve (tspSetup inp s.numIter s.reset s.augmentation s.thr s.maxCount s.maxAugm order) fuel (tspStart inp e2d)).map
      (fun r => r.bind (fun st => processOutputs numEdges st b))

/-- Impa.py:433-438: post-processing if there is no tour; the flag is `pp_performed`. -/
def tspFinish (s : TspSettings) (limit n : ℕ) (matrix : Mat Num) (edges : List (ℕ × ℕ)) (costs : List Num) (r : TspResult) :
    Option (TspResult × Bool) :=
  if r.tour.isNone && s.postProcess then do
    let (tour, cost) ← runPostProcessing { edges := edges, costs := costs, intr := r.intrinsic, matrix := matrix, n := n } limit s.kOpt
      r.selected r.subtours
    some ({ r with tour := some tour, cost := cost }, true)
  else some (r, false)

/-- Impa.py:154-178 of `initialize`, then `run_impa` (Impa.py:206-276).  The outer option says that `fuel` was enough, the inner
one that the program goes on: no exception, no access outside an array, no `exit`. -/
def runImpa (s : TspSettings) (order : ℕ → List (ℕ × ℕ) → List ℕ) (fuel limit n : ℕ) (matrix : Mat Num) (edges : List (ℕ × ℕ)) :
    Option (Option (TspResult × Bool)) :=
  match tspTables n matrix edges with
  | none => some none
  | some (costs, table) =>
    (tspWrapper s order fuel n (n * n - n) (tspFlatten matrix edges costs table) (newBuffers n)).map (fun r => do
      let b ← r
      let r ← processOutputsPy s.augmentation costs.toList b
      tspFinish s limit n matrix edges costs.toList r)

end Verif.Model
