import Verif.Model.TspLoops
import Verif.Model.TspRun

/-!
Model of the control flow of the TSP solver: `GraphicalModelTsp::iterate_relaxed_graph`, `iterate_augmented_graph`,
`perform_augmentation` (/repo/include/impalib/graphical_model.hpp) and `WrapperTsp` (/repo/src/impa/Wrapper.cpp).
Counters are natural numbers (no `int` overflow), `MAX_COUNT` is not negative.
-/

namespace Verif.Model
open Verif Num

/-- The result of message passing: tables, extrinsic and intrinsic outputs. -/
abbrev TspPass := List (List ℕ) → TspMsgs → Arr Num × Arr Num → Option (TspMsgs × Arr Num × Arr Num)

/-- What the control flow depends on.  `relaxed` and `augmented` are the message passing parts of a round
(graphical_model.hpp:317-324 and 450-503); for the real solver see `tspSetup`.  `order k sel` is the order in which the hash
map of round `k` with selected edges `sel` is visited. -/
structure TspSetup where
  numNodes : ℕ
  numEdges : ℕ
  edges : List (ℕ × ℕ)
  cost : Arr Num
  thr : Num
  maxCount : ℕ
  augmentation : Bool
  maxAugm : ℤ
  relaxed : TspPass
  augmented : TspPass
  order : ℕ → List (ℕ × ℕ) → List ℕ

/-- The members of `GraphicalModelTsp` that change.  `old`, `oldOld` are `selected_edges_old_`, `selected_edges_old_old_`;
`selected` is `selectedEdges_`, `cost` is `costImpa_`. -/
structure TspState where
  msgs : TspMsgs
  ext : Arr Num
  intr : Arr Num
  an : TspAnalysis := {}
  cost : Num := 0
  selected : List (ℕ × ℕ) := []
  old : List (ℕ × ℕ) := []
  oldOld : List (ℕ × ℕ) := []
  numAugm : ℕ := 0
  noImprovCount : ℕ := 0
  noImprovFlag : Bool := false
  solOscCount : ℕ := 0
  solOscFlag : Bool := false

/-- graphical_model.hpp:316-336 `iterate_relaxed_graph`. -/
def iterateRelaxed (c : TspSetup) (st : TspState) : Option TspState := do
  let (m, ext, intr) ← c.relaxed [] st.msgs (st.ext, st.intr)
  let (sel, total) ← hardDecision c.numEdges c.thr intr c.edges c.cost
  let an ← analyse c.numNodes c.maxCount c.edges sel (c.order st.numAugm sel) st.an
  some { st with msgs := m, ext := ext, intr := intr, cost := total, an := an, selected := sel }

/-- graphical_model.hpp:510-524: has the solution changed? -/
def checkImprovement (maxCount : ℕ) (sel : List (ℕ × ℕ)) (st : TspState) : TspState :=
  if st.old ≠ [] then
    if sel = st.old then
      let st := { st with noImprovCount := st.noImprovCount + 1 }
      if st.noImprovCount > maxCount then { st with noImprovFlag := true } else st
    else { st with noImprovCount := 0 }
  else st

/-- graphical_model.hpp:527-539: does the solution oscillate? -/
def checkOscillation (maxCount : ℕ) (sel : List (ℕ × ℕ)) (st : TspState) : TspState :=
  if st.oldOld ≠ [] then
    if sel = st.oldOld ∧ st.oldOld ≠ st.old then
      let st := { st with solOscCount := st.solOscCount + 1 }
      if st.solOscCount > maxCount then { st with solOscFlag := true } else st
    else { st with solOscCount := 0 }
  else st

/-- graphical_model.hpp:448-549 `iterate_augmented_graph`. -/
def iterateAugmented (c : TspSetup) (st : TspState) : Option TspState := do
  let st := { st with numAugm := st.numAugm + 1 }
  let (m, ext, intr) ← c.augmented st.an.deltas st.msgs (st.ext, st.intr)
  let (sel, total) ← hardDecision c.numEdges c.thr intr c.edges c.cost
  let st := { st with msgs := m, ext := ext, intr := intr, cost := total }
  let st := checkOscillation c.maxCount sel (checkImprovement c.maxCount sel st)
  let st := if st.old ≠ [] then { st with oldOld := st.old } else st
  let st := { st with old := sel, selected := sel }
  let an ← analyse c.numNodes c.maxCount c.edges sel (c.order st.numAugm sel) st.an
  some { st with an := an }

/-- graphical_model.hpp:378-383: message rows for new constraints.  If there were more rows than constraints, `numLists2Add`
would wrap around to a huge number: `none`. -/
def addMissingRows (st : TspState) : Option TspState :=
  if st.msgs.s2e.rows = st.an.deltas.length then some st
  else if st.an.deltas.length < st.msgs.s2e.rows then none
  else some { st with msgs := tspAddCuts (st.an.deltas.length - st.msgs.s2e.rows) st.msgs }

/-- graphical_model.hpp:356-384: the loop of `perform_augmentation`.  `fuel` bounds the number of times round the loop, the
outcome `none` means that the bound was reached; `some none` means that the process ended (`exit(0)`, lines 366 and 500) or that
behaviour is undefined. -/
def augmentLoop (c : TspSetup) : ℕ → TspState → Option (Option TspState)
  | 0, _ => none
  | fuel + 1, st =>
    if !st.an.satisfied && c.augmentation && !st.an.tourFlag then
      if st.an.noConsFlag || st.noImprovFlag || st.solOscFlag then some (some st)
      else if st.cost = 0 then some none
      else match iterateAugmented c st with
        | none => some none
        | some st =>
          if (st.numAugm : ℤ) = c.maxAugm then some (some st)
          else match addMissingRows st with
            | none => some none
            | some st => augmentLoop c fuel st
    else some (some st)

/-- graphical_model.hpp:349-353: message rows for the constraints of the relaxed round. -/
def addFirstRows (st : TspState) : TspState :=
  if st.an.deltas.length > 0 then { st with msgs := tspAddCuts st.an.deltas.length st.msgs } else st

/-- graphical_model.hpp:347-385 `perform_augmentation`. -/
def performAugmentation (c : TspSetup) (fuel : ℕ) (st : TspState) : Option (Option TspState) := augmentLoop c fuel (addFirstRows st)

/-- Wrapper.cpp:90-101 `WrapperTsp` without the conversion of inputs and outputs. -/
def tspSolve (c : TspSetup) (fuel : ℕ) (st : TspState) : Option (Option TspState) :=
  match iterateRelaxed c st with
  | none => some none
  | some st => if !st.an.satisfied && c.augmentation then performAugmentation c fuel st else some (some st)

/-- The solver with the real message passing. -/
def tspSetup (inp : TspInputs) (numIter : ℕ) (reset augmentation : Bool) (thr : Num) (maxCount : ℕ) (maxAugm : ℤ)
    (order : ℕ → List (ℕ × ℕ) → List ℕ) : TspSetup where
  numNodes := inp.numNodes
  numEdges := inp.numEdges
  edges := inp.edges
  cost := inp.cost
  thr := thr
  maxCount := maxCount
  augmentation := augmentation
  maxAugm := maxAugm
  relaxed := fun _ m o => tspRelaxed inp numIter m o
  augmented := fun deltas m o => tspAugmented inp reset deltas numIter m o
  order := order

/-- graphical_model.hpp:249-285 and input_output.hpp:219-226: the state after construction and `initialize`. -/
def tspStart (inp : TspInputs) (e2d : Mat Num) : TspState where
  msgs := tspInit inp e2d
  ext := Arr.fill inp.numEdges 0
  intr := Arr.fill inp.numEdges 0

end Verif.Model
