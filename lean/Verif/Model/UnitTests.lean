import Verif.Model.TestOracle
import Verif.Model.PyKc
import Verif.Model.PyKsat
import Verif.Model.PyTsp
import Verif.Model.KcIO

/-!
Model of the unit tests of /repo/test: the drivers /repo/test/python_{kc_mwm,ksat,tsp}/test/ut_*.py, which draw inputs and run the pure Python
functions, the C++ drivers /repo/test/include/ut_*.hpp, which run the library on the same inputs, and the comparison of the two results
(`check_agreement` and `check_forward_backward_results`, see Verif/Model/TestOracle.lean).  A test is a function of the drawn inputs; its value is
`some true` for "PASSED", `some false` for "FAILED" and `none` if one of the programs fails.

Simplifications: arithmetic is exact; the inputs reach the C++ program unchanged (writing and reading the `.npy` files is not modelled); the random
draws are the arguments.  The outputs of the C++ program start at zero, as in its constructors.
-/

namespace Verif.Model
open Verif Num

/-- `rtol = 5e-02` (python_kc_mwm/test/ut_methods_utils.py:27 and its two copies). -/
def testRtol : ℚ := 1 / 20
/-- `atol = 1e-08` (python_kc_mwm/test/ut_methods_utils.py:28 and its two copies). -/
def testAtol : ℚ := 1 / 10 ^ 8

/-- `check_agreement` on two vectors. -/
def compareArr (p q : Option (Arr Num)) : Option Bool := do
  let a ← p
  let b ← q
  checkAgreement testRtol testAtol a.toList b.toList

/-- `check_agreement` on two tables, which it flattens. -/
def compareMat (p q : Option (Mat Num)) : Option Bool := do
  let a ← p
  let b ← q
  checkAgreement testRtol testAtol (flattenMat a) (flattenMat b)

/-- `check_agreement` on a table and a vector. -/
def compareFlat (p : Option (Mat Num)) (q : Option (Arr Num)) : Option Bool := do
  let a ← p
  let b ← q
  checkAgreement testRtol testAtol (flattenMat a) b.toList

/-- python_kc_mwm/test/ut_update_or_inequality_constraint.py:33-38 and include/ut_update_or_inequality_constraint.hpp, `Oric2TeamUpdate`. -/
def utOricToTeam (T : ℕ) (e2o : Mat Num) : Option Bool := compareArr (pyOricToTeam e2o) (oricToTeamUpdate e2o (Arr.fill T 0))

/-- python_kc_mwm/test/ut_update_or_inequality_constraint.py:39-59, `Oric2ProjectEcUpdate`: the two comparisons of
ut_methods_utils.py:60-130. -/
def utOricToProject (P T : ℕ) (e2o : Mat Num) (t2o : Arr Num) (reward : Mat Num) : Option (Bool × Bool) := do
  let p := pyOricToProject P T e2o t2o reward
  let q := oricToProjectUpdate P T e2o t2o (Mat.fill P T 0) (Mat.fill P T 0) reward
  let a ← compareMat (p.map Prod.fst) (q.map Prod.fst)
  let b ← compareMat (p.map Prod.snd) (q.map Prod.snd)
  some (a, b)

/-- python_kc_mwm/test/ut_input_output.py:27-48, `ExtrinsicOutputTeamUpdate`; python_kc_mwm/src/input_output.py `extrinsic_output_team_update`. -/
def utKcExtrinsic (T : ℕ) (ext : Mat Num) (o2t : Arr Num) : Option Bool :=
  compareArr (npAdd1 (npSumAxis0 ext) o2t) (kcExtrinsic ext o2t (Arr.fill T 0))

/-- python_kc_mwm/test/ut_input_output.py:49-65, `IntrinsicOutMwmUpdate`; python_kc_mwm/src/input_output.py `intrinsic_out_mwm_update`. -/
def utKcIntrinsic (P T : ℕ) (o2e p2e reward : Mat Num) : Option Bool :=
  compareFlat ((npAdd2 o2e p2e).bind (fun s => npAdd2 s reward)) (kcIntrinsic T o2e p2e reward (Arr.fill (P * T) 0))

/-- python_kc_mwm/test/ut_update_equality_constraint.py:31-43, `TeamEc2OricUpdate`. -/
def utTeamToOric (T : ℕ) (ext : Mat Num) (reward : Arr Num) : Option Bool :=
  compareArr (npAdd1 (npSumAxis0 ext) reward) (teamToOric T ext (Arr.fill T 0) reward)

/-- python_kc_mwm/test/ut_update_equality_constraint.py:44-55, `ProjectEqConst2OricUpdate`. -/
def utProjectToOric (P T : ℕ) (p2e reward : Mat Num) : Option Bool :=
  compareMat (npAdd2 p2e reward) (projectToOric p2e (Mat.fill P T 0) reward)

/-- python_kc_mwm/test/ut_project_inequality_constraint.py:13-33, `ProjectInequalityConstraintUpdate`; the flag is
`N_TEAMS != N_PROJECTS` (impalib_unit_tests.py:46-49). -/
def utProject (P T : ℕ) (e2p : Mat Num) : Option Bool :=
  compareMat (pyProjectUpdate (decide (P ≠ T)) e2p) (projectInequalityUpdate T e2p (Mat.fill P T 0))

/-- One department of a knapsack test: its capacity, the teams that use it (the list and its length), the weights and the messages of the teams. -/
structure UtDept where
  cap : ℕ
  nz : List ℕ
  sz : ℕ
  w : Arr ℕ
  m : Arr Num

/-- The entries of a list of rows, one row after the other (`np.array(stage_messages).flatten()`). -/
def flattenArrs (l : List (Arr Num)) : List Num := l.flatMap Arr.toList

/-- python_kc_mwm/test/ut_knapsack.py:64-79 and include/ut_knapsack.hpp, `KnapsackForward`: the tables of one department. -/
def utForwardFiles (T : ℕ) (d : UtDept) : Option (List Num × List Num) := do
  let p ← pyForward T d.cap d.w d.m
  let q ← knapForward T d.cap d.nz d.sz d.w d.m (Mat.fill (T + 1) (d.cap + 1) 0)
  some (flattenArrs p, flattenMat q)

/-- python_kc_mwm/test/ut_knapsack.py:80-95 and include/ut_knapsack.hpp, `KnapsackBackward`: the tables of one department. -/
def utBackwardFiles (T : ℕ) (d : UtDept) : Option (List Num × List Num) := do
  let p ← pyBackward T d.cap d.w d.m
  let q ← knapBackward T d.cap d.nz d.sz d.w d.m (Mat.fill (T + 1) (d.cap + 1) 0)
  some (flattenArrs p, flattenMat q)

/-- `KnapsackForward`: the tables of all departments are compared (ut_methods_utils.py:30-31). -/
def utForward (T : ℕ) (ds : List UtDept) : Option Bool := do
  let files ← ds.mapM (utForwardFiles T)
  checkTables testRtol testAtol files

/-- `KnapsackBackward`. -/
def utBackward (T : ℕ) (ds : List UtDept) : Option Bool := do
  let files ← ds.mapM (utBackwardFiles T)
  checkTables testRtol testAtol files

/-- The rows of a table as a list, as the Python driver passes them (python_kc_mwm/test/ut_knapsack.py:127-140). -/
def rowsOf (M : Mat Num) : List (Arr Num) := (List.range M.rows).map (fun i => ⟨M.cols, M.data i⟩)

/-- python_kc_mwm/test/ut_knapsack.py:127-147: the messages of one department from drawn forward and backward tables, by both programs. -/
def utOutputRows (T : ℕ) (d : UtDept × Mat Num × Mat Num) : Option (Arr Num × Arr Num) := do
  let p ← loopList (pyNz d.1.w) (pyOut d.1.cap d.1.w d.1.m (rowsOf d.2.1) (rowsOf d.2.2)) (Arr.fill T 0)
  let q ← knapExtrinsic d.1.cap d.1.w d.1.m d.2.1 d.2.2 (Arr.fill T 0)
  some (p, q)

/-- python_kc_mwm/test/ut_knapsack.py:97-156, `ExtrinsicOutputDepartment`: the messages of all departments are compared. -/
def utOutput (T : ℕ) (ds : List (UtDept × Mat Num × Mat Num)) : Option Bool := do
  let rows ← ds.mapM (utOutputRows T)
  checkAgreement testRtol testAtol (flattenArrs (rows.map Prod.fst)) (flattenArrs (rows.map Prod.snd))

/-- python_kc_mwm/test/ut_knapsack.py:158-225, `Team2KnapsackUpdate`. -/
def utTeamToKnapsack (inp : KcInputs) (ext : Mat Num) (o2t : Arr Num) : Option Bool :=
  compareMat (pyTeamToDepartment inp.numDepartments inp.numTeams inp.weights inp.reward ext o2t)
    (teamToKnapsack inp.numDepartments inp.numTeams inp.nzs (Mat.fill inp.numDepartments inp.numTeams 0) inp.reward ext o2t)

/-- python_kc_mwm/test/ut_knapsack.py:249-253: the filter is run `N_ITER` times on the same table. -/
def pyFilterRun (flag : Bool) (alpha : ℚ) (dummy : Mat Num) (N : ℕ) : Option (Option (Mat Num) × Option (Mat Num)) :=
  loopUp N (fun i (s : Option (Mat Num) × Option (Mat Num)) => do
    let r ← pyFilter flag alpha i dummy s.2
    some (some r.1, r.2)) (none, none)

/-- python_kc_mwm/test/ut_knapsack.py:227-263, `ProcessExtrinsicOutputDepartment`; also the filter tests of the other two programs. -/
def utFilter (D T : ℕ) (flag : Bool) (alpha : ℚ) (dummy : Mat Num) (N : ℕ) : Option Bool :=
  compareMat ((pyFilterRun flag alpha dummy N).bind Prod.fst)
    ((filterRun D flag alpha (fun _ => dummy) N (Mat.fill D T 0, Mat.fill D T 0)).map Prod.fst)

/-- python_kc_mwm/test/ut_graphical_model.py:14-119, `Iterate`, and 121-208, `IterateSampleGraph`: the comparisons of the extrinsic outputs of the
teams and of the intrinsic outputs of the pairs. -/
def utKcIterate (inp : KcInputs) (a : Mat Num) (N : ℕ) : Option (Bool × Bool) := do
  let p := pyKcSolve inp a N
  let q := kcSolve inp a N
  let x ← compareArr (p.map Prod.fst) (q.map Prod.fst)
  let y ← compareFlat (p.map Prod.snd) (q.map Prod.snd)
  some (x, y)

/-- python_ksat/test/ut_input_output.py, `ExtrinsicOutputVariableEcUpdate`. -/
def utKsatExtrinsic (n C : ℕ) (k2v : Mat Num) : Option Bool :=
  compareArr (some (npSumAxis0 k2v)) (ksatExtrinsic n C k2v (Arr.fill n 0))

/-- python_ksat/test/ut_update_equality_constraint.py, `VariableEc2KsatConstraintUpdate`. -/
def utVariableToKsat (inp : KsatInputs) (k2v : Mat Num) : Option Bool :=
  compareMat (pyVariableUpdate inp.numConstraints inp.numVars k2v inp.used inp.cost inp.conns)
    (variableToKsat inp.numVars k2v (Mat.fill inp.numConstraints inp.numVars 0) inp.used inp.cost inp.conns)

/-- python_ksat/test/ut_update_ksat_constraint.py, `KsatConstraint2VariableEcUpdate`. -/
def utKsatToVariable (inp : KsatInputs) (v2k : Mat Num) : Option Bool :=
  compareMat (pyKsatUpdate inp.numConstraints inp.numVars v2k inp.conx inp.conxType)
    (ksatToVariableUpdate inp.numConstraints inp.k v2k (Mat.fill inp.numConstraints inp.numVars 0) inp.conx inp.conxType)

/-- python_ksat/test/ut_graphical_model.py, `Iterate`. -/
def utKsatIterate (inp : KsatInputs) (v2k : Mat Num) (N : ℕ) : Option Bool := compareArr (pyKsatSolve inp v2k N) (ksatSolve inp v2k N)

/-- python_tsp/test/ut_input_output.py, `ExtrinsicOutputEdgeEcRelaxedGraphUpdate`; python_tsp/src/input_output.py
`np.sum(degree_constraint_to_eq_constraint_m, axis=1)`. -/
def utTspExtrinsicRelaxed (E : ℕ) (deg : Mat Num) : Option Bool :=
  compareArr (Arr.genM deg.rows (npRowSum deg)) (tspExtrinsicRelaxed deg (Arr.fill E 0))

/-- python_tsp/test/ut_input_output.py, `ExtrinsicOutputEdgeEcAugmentedGraphUpdate`. -/
def utTspExtrinsicAugmented (E : ℕ) (deg s2e : Mat Num) : Option Bool :=
  compareArr ((Arr.genM deg.rows (npRowSum deg)).bind (fun r => npAdd1 r (npSumAxis0 s2e))) (tspExtrinsicAugmented deg s2e (Arr.fill E 0))

/-- python_tsp/test/ut_update_degree_constraint.py, `DegreeConstraint2EdgeEcUpdate`. -/
def utDegree (n E : ℕ) (edges : List (ℕ × ℕ)) (e2d : Mat Num) : Option Bool :=
  compareMat (pyDegreeUpdate n E e2d edges) (degreeUpdate n E e2d edges (Mat.fill E n 0))

/-- python_tsp/test/ut_subtour_elimination_constraint.py, `SubtourConstraints2EdgeEcUpdate`. -/
def utSubtour (E : ℕ) (deltas : List (List ℕ)) (e2s : Mat Num) : Option Bool :=
  compareMat (pySubtourUpdate E e2s deltas) (subtourUpdate E e2s deltas (Mat.fill deltas.length E 0))

/-- python_tsp/test/ut_update_equality_constraint.py, `EdgeEc2DegreeConstraintRelaxedGraphUpdate`. -/
def utEdgeToDegreeRelaxed (n E : ℕ) (edges : List (ℕ × ℕ)) (cost deg : Mat Num) : Option Bool :=
  compareMat (pyEdgeToDegreeRelaxed edges cost deg) (edgeToDegreeRelaxed E edges cost deg (Mat.fill E n 0))

/-- python_tsp/test/ut_update_equality_constraint.py, `EdgeEc2SubtourConstraintsUpdate`. -/
def utEdgeToSubtour (E : ℕ) (edges : List (ℕ × ℕ)) (deltas : List (List ℕ)) (cost : Arr Num) (deg s2e : Mat Num) : Option Bool :=
  compareMat (pyEdgeToSubtour E deg s2e deltas cost) (edgeToSubtour E deltas cost deg s2e edges)

/-- python_tsp/test/ut_update_equality_constraint.py, `EdgeEc2DegreeConstraintAugmentedGraphUpdate`. -/
def utEdgeToDegreeAugmented (n E : ℕ) (edges : List (ℕ × ℕ)) (cost deg s2e : Mat Num) : Option Bool :=
  compareMat (pyEdgeToDegreeAugmented edges cost deg s2e) (edgeToDegreeAugmented E deg s2e edges cost (Mat.fill E n 0))

/-- python_tsp/test/ut_graphical_model.py, `IterateRelaxedGraph`. -/
def utTspRelaxed (inp : TspInputs) (e2d : Mat Num) (N : ℕ) : Option Bool :=
  compareArr ((pyTspRelaxed inp N ⟨e2d, none, none, ⟨0, inp.numEdges, fun _ _ => 0⟩, none⟩).map Prod.snd)
    ((tspRelaxed inp N (tspInit inp e2d) (Arr.fill inp.numEdges 0, Arr.fill inp.numEdges 0)).map (fun r => r.2.2))

end Verif.Model
