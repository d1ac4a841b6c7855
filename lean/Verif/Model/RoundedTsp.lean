import Verif.Model.TspIO

/-!
The TSP solver with rounding: the same code as in `Model/Filter.lean`, `Model/Equality.lean`, `Model/TspRun.lean`, `Model/TspLoops.lean`,
`Model/TspSolve.lean`, `Model/TspOut.lean` and `Model/TspIO.lean`, but the result of every addition, subtraction and multiplication on messages and costs is rounded by a function
`r`, in the order of the C++ expressions.  Functions without arithmetic (minima, comparisons, changes of sign, copies) are shared with the
model without rounding.  `r` is a parameter: `impalib_type` is `float` or `double` (common.hpp), and compilers may evaluate with more
precision.  `r` may also return an infinity or NaN, so overflow is covered.
-/

namespace Verif.Model.Rounded
open Verif Num Model

/-- The rounded result of an operation with exact result `x`; infinities and NaN stay as they are. -/
def rn (r : ℚ → Num) : Num → Num
  | fin q => r q
  | x => x

/-- `Arr.addTo` with rounding. -/
def addTo (r : ℚ → Num) (a b dst : Arr Num) : Option (Arr Num) :=
  if a.size ≤ b.size ∧ a.size ≤ dst.size then
    some ⟨dst.size, fun i => if i < a.size then rn r (a.data i + b.data i) else dst.data i⟩
  else none

/-- `Arr.scale` with rounding. -/
def scale (r : ℚ → Num) (w : Num) (a : Arr Num) : Arr Num := ⟨a.size, fun i => rn r (a.data i * w)⟩

/-- update_degree_constraint.hpp:171-205, subtour_elimination_constraint.hpp:126-161, update_ksat_constraint.hpp:141-160,
knapsack.hpp:382-418: `1 - alpha` is rounded as well. -/
def filterRow (r : ℚ → Num) (flag : Bool) (alpha : ℚ) (iter : ℕ) (dummy out old : Arr Num) : Option (Arr Num × Arr Num) :=
  if flag ∧ alpha ≠ 0 then do
    let d := scale r (rn r (fin (1 - alpha))) dummy
    let o := scale r (fin alpha) old
    let out ←
      if iter = 0 then d.copyTo out
      else do
        let s ← addTo r d o (Arr.fill d.size 0)
        s.copyTo out
    let old ← out.copyTo old
    some (out, old)
  else do
    let out ← dummy.copyTo out
    some (out, old)

/-- knapsack.hpp:377-419, update_degree_constraint.hpp:166-207: row `e`. -/
def filterAt (r : ℚ → Num) (flag : Bool) (alpha : ℚ) (iter : ℕ) (dummy : Mat Num) (e : ℕ) (s : Mat Num × Mat Num) :
    Option (Mat Num × Mat Num) := do
  let d ← dummy.rdRow e
  let u ← s.1.rdRow e
  let o ← s.2.rdRow e
  let (u, o) ← filterRow r flag alpha iter d u o
  let out ← s.1.wrRow e u
  let old ← s.2.wrRow e o
  some (out, old)

/-- update_degree_constraint.hpp:166-207, subtour_elimination_constraint.hpp:117-163, update_ksat_constraint.hpp:139-161. -/
def processFiltering (r : ℚ → Num) (rows : ℕ) (flag : Bool) (alpha : ℚ) (iter : ℕ) (dummy : Mat Num) (s : Mat Num × Mat Num) :
    Option (Mat Num × Mat Num) :=
  loopUp rows (filterAt r flag alpha iter dummy) s

/-- update_equality_constraint.hpp:182-188, 235-240. -/
def addRows (r : ℚ → Num) (m : Mat Num) (acc : Arr Num) : Option (Arr Num) :=
  loopUp m.rows (fun c acc => do
    let row ← m.rdRow c
    addTo r acc row acc) acc

/-- update_equality_constraint.hpp:80-84, input_output.hpp:286-295. -/
def addRowsL (r : ℚ → Num) (m : Mat Num) (acc : Arr Num) : Option (Arr Num) :=
  loopUp m.rows (fun c acc => do
    let row ← m.rdRow c
    addTo r row acc acc) acc

/-- update_equality_constraint.hpp:120-136. -/
def edgeToDegreeRelaxed (r : ℚ → Num) (numEdges : ℕ) (edges : List (ℕ × ℕ)) (cost d2e e2d : Mat Num) : Option (Mat Num) := do
  let flipped ← flipMatrix d2e edges d2e
  loopUp numEdges (fun e out => do
    let x ← flipped.rdRow e
    let c ← cost.rdRow e
    let o ← out.rdRow e
    let row ← addTo r x c o
    out.wrRow e row) e2d

/-- update_equality_constraint.hpp:163-169 and 189-195. -/
def combineDegree (r : ℚ → Num) (numEdges : ℕ) (edges : List (ℕ × ℕ)) (d2e : Mat Num) : Option (Arr Num) :=
  loopUp numEdges (fun i out => do
    let e ← edges[i]?
    let x ← d2e.rd i e.1
    let y ← d2e.rd i e.2
    out.wr i (rn r (x + y))) (Arr.fill numEdges 0)

/-- update_equality_constraint.hpp:151-216. -/
def edgeToSubtour (r : ℚ → Num) (numEdges : ℕ) (deltas : List (List ℕ)) (cost : Arr Num) (d2e s2e : Mat Num) (edges : List (ℕ × ℕ)) :
    Option (Mat Num) :=
  if deltas.length = 1 then do
    let comb ← combineDegree r numEdges edges d2e
    let l ← deltas[0]?
    let row ← loopList l (fun e row => do
      let x ← comb.rd e
      let c ← cost.rd e
      row.wr e (rn r (x + c))) (Arr.fill numEdges 0)
    (⟨0, numEdges, fun _ _ => 0⟩ : Mat Num).pushRow row
  else do
    let sub ← addRows r s2e (Arr.fill numEdges 0)
    let comb ← combineDegree r numEdges edges d2e
    loopUp deltas.length (fun i out => do
      let l ← deltas[i]?
      let row ← loopList l (fun e row => do
        let s ← sub.rd e
        let x ← comb.rd e
        let c ← cost.rd e
        let own ← s2e.rd i e
        row.wr e (rn r (rn r (rn r (s + x) + c) - own))) (Arr.fill numEdges 0)
      out.pushRow row) (⟨0, numEdges, fun _ _ => 0⟩ : Mat Num)

/-- update_equality_constraint.hpp:229-255. -/
def edgeToDegreeAugmented (r : ℚ → Num) (numEdges : ℕ) (d2e s2e : Mat Num) (edges : List (ℕ × ℕ)) (cost e2d : Mat Num) :
    Option (Mat Num) := do
  let sub ← addRows r s2e (Arr.fill numEdges 0)
  loopUp edges.length (fun i out => do
    let e ← edges[i]?
    let s ← sub.rd i
    let x ← d2e.rd i e.2
    let c ← cost.rd i e.1
    let out ← out.wr i e.1 (rn r (rn r (s + x) + c))
    let y ← d2e.rd i e.1
    let c' ← cost.rd i e.2
    out.wr i e.2 (rn r (rn r (s + y) + c'))) e2d

/-- graphical_model.hpp:318-321. -/
def tspRelaxedIter (r : ℚ → Num) (inp : TspInputs) (iter : ℕ) (m : TspMsgs) : Option TspMsgs := do
  let degDummy ← degreeUpdate inp.numNodes inp.numEdges m.e2d inp.edges m.degDummy
  let (deg, degOld) ← processFiltering r inp.numEdges inp.flag inp.alpha iter degDummy (m.deg, m.degOld)
  let e2d ← edgeToDegreeRelaxed r inp.numEdges inp.edges inp.degCost deg m.e2d
  some { m with e2d := e2d, degDummy := degDummy, deg := deg, degOld := degOld }

/-- graphical_model.hpp:477-485. -/
def tspAugmentedIter (r : ℚ → Num) (inp : TspInputs) (deltas : List (List ℕ)) (iter : ℕ) (m : TspMsgs) : Option TspMsgs := do
  let degDummy ← degreeUpdate inp.numNodes inp.numEdges m.e2d inp.edges m.degDummy
  let (deg, degOld) ← processFiltering r inp.numEdges inp.flag inp.alpha iter degDummy (m.deg, m.degOld)
  let e2s ← edgeToSubtour r inp.numEdges deltas inp.cost deg m.s2e inp.edges
  let subDummy ← subtourUpdate inp.numEdges e2s deltas m.subDummy
  let (s2e, subOld) ← processFiltering r deltas.length inp.flag inp.alpha iter subDummy (m.s2e, m.subOld)
  let e2d ← edgeToDegreeAugmented r inp.numEdges deg s2e inp.edges inp.degCost m.e2d
  some ⟨e2d, degDummy, deg, degOld, e2s, s2e, subDummy, subOld⟩

/-- input_output.hpp:274, 288. -/
def rowSum (r : ℚ → Num) (m : Mat Num) (e : ℕ) : Option Num :=
  loopUp m.cols (fun j acc => do
    let x ← m.rd e j
    some (rn r (acc + x))) 0

/-- input_output.hpp:272-276. -/
def tspExtrinsicRelaxed (r : ℚ → Num) (deg : Mat Num) (ext : Arr Num) : Option (Arr Num) :=
  loopUp deg.rows (fun e ext => do
    let s ← rowSum r deg e
    ext.wr e s) ext

/-- input_output.hpp:286-295. -/
def tspExtrinsicAugmented (r : ℚ → Num) (deg s2e : Mat Num) (ext : Arr Num) : Option (Arr Num) := do
  let ext ← tspExtrinsicRelaxed r deg ext
  addRowsL r s2e ext

/-- input_output.hpp:304-306. -/
def tspIntrinsic (r : ℚ → Num) (ext cost intr : Arr Num) : Option (Arr Num) := addTo r ext cost intr

/-- graphical_model.hpp:317-324. -/
def tspRelaxed (r : ℚ → Num) (inp : TspInputs) (numIter : ℕ) (m : TspMsgs) (o : Arr Num × Arr Num) :
    Option (TspMsgs × Arr Num × Arr Num) := do
  let m ← loopUp numIter (tspRelaxedIter r inp) m
  let ext ← tspExtrinsicRelaxed r m.deg o.1
  let intr ← tspIntrinsic r ext inp.cost o.2
  some (m, ext, intr)

/-- graphical_model.hpp:450-503. -/
def tspAugmented (r : ℚ → Num) (inp : TspInputs) (reset : Bool) (deltas : List (List ℕ)) (numIter : ℕ) (m : TspMsgs)
    (o : Arr Num × Arr Num) : Option (TspMsgs × Arr Num × Arr Num) := do
  let e2d ← if reset then tspReset inp m.e2d else some m.e2d
  let m := { m with e2d := e2d, subOld := Mat.pushZeros deltas.length m.subOld }
  let m ← loopUp numIter (tspAugmentedIter r inp deltas) m
  if anyNan m.e2d then none else do
    let ext ← tspExtrinsicAugmented r m.deg m.s2e o.1
    let intr ← tspIntrinsic r ext inp.cost o.2
    some (m, ext, intr)

/-- graphical_model.hpp:557-608: the cost is summed with rounding. -/
def hardDecision (r : ℚ → Num) (numEdges : ℕ) (thr : Num) (intr : Arr Num) (edges : List (ℕ × ℕ)) (cost : Arr Num) :
    Option (List (ℕ × ℕ) × Num) := do
  let hd ← (⟨intr.size, fun e => if gt (intr.data e) thr then 0 else 1⟩ : Arr ℕ).copyTo (Arr.fill numEdges 2147483647)
  let sel ← loopUp numEdges (fun e sel => do
    let h ← hd.rd e
    if h = 1 then do
      let c ← edges[e]?
      some (sel ++ [c])
    else some sel) []
  let total ← loopUp hd.size (fun e acc => do
    let h ← hd.rd e
    if h = 1 then do
      let c ← cost.rd e
      some (rn r (acc + c))
    else some acc) 0
  some (sel, total)

/-- graphical_model.hpp:316-336. -/
def iterateRelaxed (r : ℚ → Num) (c : TspSetup) (st : TspState) : Option TspState := do
  let (m, ext, intr) ← c.relaxed [] st.msgs (st.ext, st.intr)
  let (sel, total) ← hardDecision r c.numEdges c.thr intr c.edges c.cost
  let an ← analyse c.numNodes c.maxCount c.edges sel (c.order st.numAugm sel) st.an
  some { st with msgs := m, ext := ext, intr := intr, cost := total, an := an, selected := sel }

/-- graphical_model.hpp:448-549. -/
def iterateAugmented (r : ℚ → Num) (c : TspSetup) (st : TspState) : Option TspState := do
  let st := { st with numAugm := st.numAugm + 1 }
  let (m, ext, intr) ← c.augmented st.an.deltas st.msgs (st.ext, st.intr)
  let (sel, total) ← hardDecision r c.numEdges c.thr intr c.edges c.cost
  let st := { st with msgs := m, ext := ext, intr := intr, cost := total }
  let st := checkOscillation c.maxCount sel (checkImprovement c.maxCount sel st)
  let st := if st.old ≠ [] then { st with oldOld := st.old } else st
  let st := { st with old := sel, selected := sel }
  let an ← analyse c.numNodes c.maxCount c.edges sel (c.order st.numAugm sel) st.an
  some { st with an := an }

/-- graphical_model.hpp:356-384. -/
def augmentLoop (r : ℚ → Num) (c : TspSetup) : ℕ → TspState → Option (Option TspState)
  | 0, _ => none
  | fuel + 1, st =>
    if !st.an.satisfied && c.augmentation && !st.an.tourFlag then
      if st.an.noConsFlag || st.noImprovFlag || st.solOscFlag then some (some st)
      else if st.cost = 0 then some none
      else match iterateAugmented r c st with
        | none => some none
        | some st =>
          if (st.numAugm : ℤ) = c.maxAugm then some (some st)
          else match addMissingRows st with
            | none => some none
            | some st => augmentLoop r c fuel st
    else some (some st)

/-- Wrapper.cpp:90-101 and graphical_model.hpp:347-385. -/
def tspSolve (r : ℚ → Num) (c : TspSetup) (fuel : ℕ) (st : TspState) : Option (Option TspState) :=
  match iterateRelaxed r c st with
  | none => some none
  | some st => if !st.an.satisfied && c.augmentation then augmentLoop r c fuel (addFirstRows st) else some (some st)

/-- The solver with rounded message passing. -/
def tspSetup (r : ℚ → Num) (inp : TspInputs) (numIter : ℕ) (reset augmentation : Bool) (thr : Num) (maxCount : ℕ) (maxAugm : ℤ)
    (order : ℕ → List (ℕ × ℕ) → List ℕ) : TspSetup :=
  { Model.tspSetup inp numIter reset augmentation thr maxCount maxAugm order with
    relaxed := fun _ m o => tspRelaxed r inp numIter m o
    augmented := fun deltas m o => tspAugmented r inp reset deltas numIter m o }

/-- Impa.py:355-430 without post-processing: the intrinsic output is the rounded sum of the extrinsic output and the costs. -/
def processOutputsPy (r : ℚ → Num) (augmentation : Bool) (costs : List Num) (b : TspBuffers) : Option TspResult := do
  let q ← Model.processOutputsPy augmentation costs b
  some { q with intrinsic := List.zipWith (fun x y => rn r (x + y)) b.ext costs }

/-- Wrapper.cpp:83-106. -/
def tspWrapper (r : ℚ → Num) (s : TspSettings) (order : ℕ → List (ℕ × ℕ) → List ℕ) (fuel n numEdges : ℕ) (f : TspFlat) (b : TspBuffers) :
    Option (Option TspBuffers) :=
  match tspDecode n numEdges s.flag s.alpha f with
  | none => some none
  | some (inp, e2d) =>
    (tspSolve r (tspSetup r inp s.numIter s.reset s.augmentation s.thr s.maxCount s.maxAugm order) fuel (tspStart inp e2d)).map
      (fun r => r.bind (fun st => processOutputs numEdges st b))

/-- Impa.py:154-178 and 206-276 up to the post-processing (Impa.py:433-438), which is not modelled with rounding. -/
def runImpa (r : ℚ → Num) (s : TspSettings) (order : ℕ → List (ℕ × ℕ) → List ℕ) (fuel n : ℕ) (matrix : Mat Num) (edges : List (ℕ × ℕ)) :
    Option (Option TspResult) :=
  match tspTables n matrix edges with
  | none => some none
  | some (costs, table) =>
    (tspWrapper r s order fuel n (n * n - n) (tspFlatten matrix edges costs table) (newBuffers n)).map (fun o => do
      let b ← o
      processOutputsPy r s.augmentation costs.toList b)

end Verif.Model.Rounded
