import Mathlib.Data.Nat.Choose.Basic
import Verif.Model.TspSolve

/-!
Model of how results of the TSP solver reach Python: `GraphicalModelTsp::process_ouputs`
(/repo/include/impalib/graphical_model.hpp), the buffers allocated in `GraphicalModelTsp.initialize` and
`process_inputs_ctypes`, and `process_outputs_ctypes` up to post-processing (/repo/src/impa/Impa.py).
Buffers are lists of fixed length; C `int` is a natural number (no overflow).
-/

namespace Verif.Model
open Verif Num

/-- `copy(l.begin(), l.end(), buf)`: writing past the end of the buffer is undefined. -/
def putList {α : Type} (buf l : List α) : Option (List α) :=
  if l.length ≤ buf.length then some (l ++ buf.drop l.length) else none

/-- The memory that the caller hands to `WrapperTsp` for results (Wrapper.cpp:83-89). -/
structure TspBuffers where
  ext : List Num
  numAugm : ℕ := 0
  numAdded : ℕ := 0
  tour : List ℕ
  cost : Num := 0
  noImprov : Bool := false
  noCons : Bool := false
  solOsc : Bool := false
  selected : List ℕ
  selectedSize : ℕ := 0
  subtours : List ℕ
  sizes : List ℕ

/-- Impa.py:136-140, 155, 317-338: the buffers for `n` nodes.  `n**2 - n` edge variables. -/
def newBuffers (n : ℕ) : TspBuffers where
  ext := List.replicate (n * n - n) 0
  tour := List.replicate (n + 1) 0
  selected := List.replicate (Nat.choose n 2) 0
  subtours := List.replicate (n * n) 0
  sizes := List.replicate (n * n) 0

/-- graphical_model.hpp:411-442 `process_ouputs`. -/
def processOutputs (numEdges : ℕ) (st : TspState) (b : TspBuffers) : Option TspBuffers := do
  let ext ← (if numEdges ≤ st.ext.size then putList b.ext ((List.range numEdges).map st.ext.data) else none)
  let tour ← putList b.tour st.an.tour
  let flat := st.selected.flatMap (fun c => [c.1, c.2])
  let selected ← putList b.selected flat
  let subtours ← putList b.subtours st.an.subtourPaths.flatten
  let sizes ← putList b.sizes st.an.closedPathsSize
  some { ext := ext, numAugm := st.numAugm, numAdded := st.msgs.s2e.rows, tour := tour, cost := st.cost, noImprov := st.noImprovFlag,
         noCons := st.an.noConsFlag, solOsc := st.solOscFlag, selected := selected, selectedSize := flat.length,
         subtours := subtours, sizes := sizes }

/-- Impa.py:390: `[[f[i], f[i + 1]] for i in range(0, len(f), 2)]`; an odd length is an `IndexError`. -/
def pairUp : List ℕ → Option (List (ℕ × ℕ))
  | [] => some []
  | [_] => none
  | a :: b :: l => (pairUp l).map ((a, b) :: ·)

/-- What Python keeps (Impa.py:388-430). -/
structure TspResult where
  selected : List (ℕ × ℕ)
  subtours : Option (List (List ℕ))
  tour : Option (List ℕ)
  noImprov : Bool
  noCons : Bool
  solOsc : Bool
  numAugm : ℕ
  numAdded : ℕ
  cost : Num
  intrinsic : List Num

/-- Impa.py:393-407: the sublists with the given sizes (zeros dropped), `None` if there are none. -/
def cutSubtours (sizes flat : List ℕ) : Option (List (List ℕ)) :=
  let sizes := sizes.filter (· ≠ 0)
  if sizes.length ≠ 0 then
    let flat := flat.take sizes.sum
    some ((List.range sizes.length).map (fun i => (flat.take (sizes.take (i + 1)).sum).drop (sizes.take i).sum))
  else none

/-- Impa.py:355-430 `process_outputs_ctypes` without post-processing.  `costs` is `self.cost_edge_variable`; adding arrays of
different lengths is a `ValueError`. -/
def processOutputsPy (augmentation : Bool) (costs : List Num) (b : TspBuffers) : Option TspResult := do
  let selected ← pairUp (b.selected.take b.selectedSize)
  let subtours := cutSubtours b.sizes b.subtours
  let tour := if b.tour.all (· == 0) then none else some b.tour
  let intrinsic ← (if b.ext.length = costs.length then some (List.zipWith (· + ·) b.ext costs) else none)
  let subtours := subtours.map (fun ls => (ls.filter (· ≠ [])).map (fun l => l ++ l.take 1))
  some { selected := selected, subtours := subtours, tour := tour, noImprov := b.noImprov, noCons := b.noCons, solOsc := b.solOsc,
         numAugm := b.numAugm, numAdded := if augmentation then b.numAdded else 0, cost := b.cost, intrinsic := intrinsic }

end Verif.Model
