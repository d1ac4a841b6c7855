import Verif.Model.UnitTests
import Verif.Model.KcTeams
import Verif.Model.KsatGen
import Verif.Model.KsatCall
import Verif.Model.PyKcCall
import Verif.Model.PyTspSolve
import Verif.Model.TspSolve
import Verif.Model.TspIO
import Verif.Model.TspPost

/-!
Model of how the unit tests draw their inputs: the departments and teams of /repo/test/python_kc_mwm/test (ut_utils.py:83-257, ut_knapsack.py,
ut_graphical_model.py), the formulas of /repo/test/python_ksat (test/impalib_unit_tests.py:13-78, src/graphical_model.py:118-163) and the cost
matrices and cuts of /repo/test/python_tsp/test.  Every random number is a parameter.  The test itself is run by the functions of
Verif/Model/UnitTests.lean.
-/

namespace Verif.Model
open Verif Num

/-! ## Assignment -/

/-- python_kc_mwm/test/ut_utils.py:110-257 has the statements of `team_reward_generation` of Impa.py without the rewards; the model of the latter is
used with this data, and the rewards are thrown away. -/
def noRewards : TeamData := ⟨0, fun _ => 0, fun _ => 0, 0, fun _ _ => 0, fun _ _ => 0, fun _ _ => 0⟩

/-- python_kc_mwm/test/ut_utils.py:83-108 `prune_teams`: nothing is pruned. -/
def utPairs (n : ℕ) : List (ℕ × ℕ) :=
  let units := (List.range n).map (· + 1)
  units.flatMap (fun a => units.map (fun b => (a, b)))

/-- python_kc_mwm/test/ut_knapsack.py:14-22: the number of teams and the weights of every department.  Without departments `teams_types_per_department[0]`
fails, and `np.array(…, dtype=np.int32)` fails for rows of different lengths. -/
def utTable (caps types : List ℕ) : Option (ℕ × List (List ℕ)) := do
  let g ← generateTeams noRewards caps types (utPairs caps.length)
  let first ← g.types[0]?
  if g.weights.all (fun row => row.length == first.length) then some (first.length, g.weights) else none

/-- python_kc_mwm/test/ut_knapsack.py:24-58: one department; `row` are its weights, `reward` the drawn costs of the teams. -/
def utDept (cap T : ℕ) (row : List ℕ) (reward : ℕ → Num) : UtDept :=
  let nz := (List.range row.length).filter (fun t => row.getD t 0 ≠ 0)
  ⟨cap, nz, nz.length, ⟨T, fun t => row.getD t 0⟩, ⟨T, fun t => if row.getD t 0 ≠ 0 then reward t else 0⟩⟩

/-- python_kc_mwm/test/ut_knapsack.py:12-62: the number of teams and the departments of a knapsack test. -/
def utDrawnDepts (caps types : List ℕ) (reward : ℕ → Num) : Option (ℕ × List UtDept) := do
  let (T, weights) ← utTable caps types
  some (T, (List.range caps.length).map (fun d => utDept (caps.getD d 0) T (weights.getD d []) reward))

/-- `KnapsackForward` on drawn departments. -/
def utDrawnForward (caps types : List ℕ) (reward : ℕ → Num) : Option Bool := (utDrawnDepts caps types reward).bind (fun d => utForward d.1 d.2)

/-- `KnapsackBackward` on drawn departments. -/
def utDrawnBackward (caps types : List ℕ) (reward : ℕ → Num) : Option Bool := (utDrawnDepts caps types reward).bind (fun d => utBackward d.1 d.2)

/-- python_kc_mwm/test/ut_knapsack.py:97-156, `ExtrinsicOutputDepartment` on drawn departments; `fwd d` and `bwd d` are the numbers drawn for the
tables of department `d`. -/
def utDrawnOutput (caps types : List ℕ) (reward : ℕ → Num) (fwd bwd : ℕ → ℕ → ℕ → Num) : Option Bool := do
  let (T, ds) ← utDrawnDepts caps types reward
  utOutput T (ds.zipIdx.map (fun p => (p.1, ⟨T + 1, p.1.cap + 1, fwd p.2⟩, ⟨T + 1, p.1.cap + 1, bwd p.2⟩)))

/-- python_kc_mwm/test/ut_graphical_model.py:26-108 and ut_knapsack.py:158-215: the inputs of both programs and the first messages of the departments. -/
def utDrawnInputs (caps types : List ℕ) (P : ℕ) (flag : Bool) (alpha : ℚ) (reward : ℕ → Num) (project : ℕ → ℕ → Num) : Option (KcInputs × Mat Num) := do
  let (T, ds) ← utDrawnDepts caps types reward
  let cell := fun (d t : ℕ) => (ds.getD d (utDept 0 T [] reward)).w.data t
  some (⟨caps.length, T, P, flag, alpha, ⟨T, reward⟩, ⟨caps.length, fun d => caps.getD d 0⟩, ds.map UtDept.nz,
    ⟨caps.length, fun d => (ds.getD d (utDept 0 T [] reward)).sz⟩, ⟨caps.length, T, cell⟩, ⟨P, T, project⟩⟩,
    ⟨caps.length, T, fun d t => (ds.getD d (utDept 0 T [] reward)).m.data t⟩)

/-- python_kc_mwm/test/ut_knapsack.py:158-225, `Team2KnapsackUpdate` on drawn inputs. -/
def utDrawnTeamToKnapsack (caps types : List ℕ) (reward : ℕ → Num) (ext : ℕ → ℕ → Num) (o2t : ℕ → Num) : Option Bool := do
  let (inp, _) ← utDrawnInputs caps types 1 false 0 reward (fun _ _ => 0)
  utTeamToKnapsack inp ⟨inp.numDepartments, inp.numTeams, ext⟩ ⟨inp.numTeams, o2t⟩

/-- python_kc_mwm/test/ut_graphical_model.py:14-119, `Iterate` on drawn inputs.  `initialize` computes the rewards of the teams once more from tables
with 11 rows (src/graphical_model.py:60-67, 173-365), which fails for more departments. -/
def utDrawnIterate (caps types : List ℕ) (P : ℕ) (flag : Bool) (alpha : ℚ) (reward : ℕ → Num) (project : ℕ → ℕ → Num) (N : ℕ) : Option (Bool × Bool) := do
  let (inp, a) ← utDrawnInputs caps types P flag alpha reward project
  if caps.length ≤ 11 then utKcIterate inp a N else none

/-! ## k-SAT -/

/-- python_ksat/test/ut_update_equality_constraint.py:62-69: drawn messages, zero for variables outside the clause. -/
def utClauseMessages (n : ℕ) (clauses : List (List (ℕ × ℤ))) (q : ℕ → ℕ → Num) : Mat Num :=
  ⟨clauses.length, n, fun c v => if ((clauses.getD c []).map Prod.fst).contains v then q c v else 0⟩

/-- python_ksat/test/ut_update_ksat_constraint.py:38-46: drawn messages; only the columns below `k` are tested and set to zero. -/
def utVariableMessages (n k : ℕ) (clauses : List (List (ℕ × ℤ))) (q : ℕ → ℕ → Num) : Mat Num :=
  ⟨clauses.length, n, fun c v => if v < k ∧ ((clauses.getD c []).map Prod.fst).contains v = false then 0 else q c v⟩

/-- python_ksat/test/impalib_unit_tests.py:13-78 has the statements of `create_model_structure` (`generate`); `VariableEc2KsatConstraintUpdate` on the
drawn formula. -/
def utDrawnVariable (n m k : ℕ) (order : List ℕ → List ℕ) (sol : List Bool) (first : ℕ → ℕ) (pick : ℕ → ℕ → ℕ) (sign : ℕ → ℕ → Bool) (cost : ℕ → Num)
    (q : ℕ → ℕ → Num) : Option Bool := do
  let t ← generate n m k order sol first pick sign
  utVariableToKsat (pyKsatInputs false 0 (ksatObject n k t ((List.range n).map cost))) (utClauseMessages n t.clauses q)

/-- `KsatConstraint2VariableEcUpdate` on the drawn formula. -/
def utDrawnClause (n m k : ℕ) (order : List ℕ → List ℕ) (sol : List Bool) (first : ℕ → ℕ) (pick : ℕ → ℕ → ℕ) (sign : ℕ → ℕ → Bool) (cost : ℕ → Num)
    (q : ℕ → ℕ → Num) : Option Bool := do
  let t ← generate n m k order sol first pick sign
  utKsatToVariable (pyKsatInputs false 0 (ksatObject n k t ((List.range n).map cost))) (utVariableMessages n k t.clauses q)

/-- python_ksat/src/graphical_model.py:135-159: one round of the loop over the clauses.  Unlike in `generate`, a clause on the variables of an earlier
one is kept. -/
def plainStep (n k : ℕ) (sol : List Bool) (first : ℕ → ℕ) (pick : ℕ → ℕ → ℕ) (sign : ℕ → ℕ → Bool) (c : ℕ) (st : GenState) : Option GenState := do
  let g ← drawClause n k sol (first c) (pick c) (sign c) c ⟨[], st.used, st.conns⟩
  if c < st.slots.length then some ⟨st.slots.set c g.cl, g.used, g.conns, c + 1⟩ else none

/-- python_ksat/src/graphical_model.py:118-163 `create_incoming_metrics_cost`: the formula. -/
def plainFormula (n m k : ℕ) (order : List ℕ → List ℕ) (sol : List Bool) (first : ℕ → ℕ) (pick : ℕ → ℕ → ℕ) (sign : ℕ → ℕ → Bool) :
    Option KsatTables := do
  let st ← loopUp m (plainStep n k sol first pick sign) ⟨List.replicate m [], [], List.replicate n [], 0⟩
  some ⟨order st.used.dedup, st.slots, st.conns⟩

/-- python_ksat/test/ut_graphical_model.py, `Iterate` on the drawn formula with the drawn costs. -/
def utDrawnKsatIterate (n m k : ℕ) (flag : Bool) (alpha : ℚ) (order : List ℕ → List ℕ) (sol : List Bool) (first : ℕ → ℕ) (pick : ℕ → ℕ → ℕ)
    (sign : ℕ → ℕ → Bool) (cost : ℕ → Num) (N : ℕ) : Option Bool := do
  let t ← plainFormula n m k order sol first pick sign
  let py := ksatObject n k t ((List.range n).map cost)
  let v2k ← ksatStart py
  utKsatIterate (pyKsatInputs flag alpha py) v2k N

/-! ## TSP -/

/-- The edges of the drawn matrix (python_tsp/test/impalib_unit_tests.py:44-53). -/
def utEdges (sym : Bool) (n : ℕ) (r : ℕ → ℕ → Num) : List (ℕ × ℕ) := nonzeroEdges (costMatrix sym n r)

/-- python_tsp/test/ut_update_equality_constraint.py:41-48 and ut_input_output.py:22-31: drawn messages, zero for nodes that are no end of the edge. -/
def utEdgeMessages (n : ℕ) (edges : List (ℕ × ℕ)) (q : ℕ → ℕ → Num) : Mat Num :=
  ⟨n * n - n, n, fun e v => if e < edges.length ∧ v ≠ (edges.getD e (0, 0)).1 ∧ v ≠ (edges.getD e (0, 0)).2 then 0 else q e v⟩

/-- python_tsp/test/ut_update_equality_constraint.py:74-81 (and 99-106, ut_input_output.py:44-51): drawn messages, zero for edges outside the cut. -/
def utCutMessages (n : ℕ) (cuts : List (List ℕ)) (q : ℕ → ℕ → Num) : Mat Num :=
  ⟨cuts.length, n * n - n, fun i e => if (cuts.getD i []).contains e then q i e else 0⟩

/-- `ExtrinsicOutputEdgeEcRelaxedGraphUpdate` on drawn inputs. -/
def utDrawnExtrinsicRelaxed (sym : Bool) (n : ℕ) (r q : ℕ → ℕ → Num) : Option Bool :=
  utTspExtrinsicRelaxed (n * n - n) (utEdgeMessages n (utEdges sym n r) q)

/-- `ExtrinsicOutputEdgeEcAugmentedGraphUpdate` on drawn inputs. -/
def utDrawnExtrinsicAugmented (sym : Bool) (n : ℕ) (r q : ℕ → ℕ → Num) (cuts : List (List ℕ)) (y : ℕ → ℕ → Num) : Option Bool :=
  utTspExtrinsicAugmented (n * n - n) (utEdgeMessages n (utEdges sym n r) q) (utCutMessages n cuts y)

/-- `DegreeConstraint2EdgeEcUpdate` on drawn inputs. -/
def utDrawnDegree (sym : Bool) (n : ℕ) (r q : ℕ → ℕ → Num) : Option Bool := utDegree n (n * n - n) (utEdges sym n r) ⟨n * n - n, n, q⟩

/-- `SubtourConstraints2EdgeEcUpdate` on drawn inputs. -/
def utDrawnSubtour (n : ℕ) (cuts : List (List ℕ)) (y : ℕ → ℕ → Num) : Option Bool := utSubtour (n * n - n) cuts ⟨cuts.length, n * n - n, y⟩

/-- `EdgeEc2DegreeConstraintRelaxedGraphUpdate` on drawn inputs. -/
def utDrawnEdgeRelaxed (sym : Bool) (n : ℕ) (r q : ℕ → ℕ → Num) : Option Bool := do
  let (_, table) ← tspTables n (costMatrix sym n r) (utEdges sym n r)
  utEdgeToDegreeRelaxed n (n * n - n) (utEdges sym n r) table (utEdgeMessages n (utEdges sym n r) q)

/-- `EdgeEc2SubtourConstraintsUpdate` on drawn inputs. -/
def utDrawnEdgeCut (sym : Bool) (n : ℕ) (r q : ℕ → ℕ → Num) (cuts : List (List ℕ)) (y : ℕ → ℕ → Num) : Option Bool := do
  let (costs, _) ← tspTables n (costMatrix sym n r) (utEdges sym n r)
  utEdgeToSubtour (n * n - n) (utEdges sym n r) cuts costs (utEdgeMessages n (utEdges sym n r) q) (utCutMessages n cuts y)

/-- `EdgeEc2DegreeConstraintAugmentedGraphUpdate` on drawn inputs. -/
def utDrawnEdgeAugmented (sym : Bool) (n : ℕ) (r q : ℕ → ℕ → Num) (cuts : List (List ℕ)) (y : ℕ → ℕ → Num) : Option Bool := do
  let (_, table) ← tspTables n (costMatrix sym n r) (utEdges sym n r)
  utEdgeToDegreeAugmented n (n * n - n) (utEdges sym n r) table (utEdgeMessages n (utEdges sym n r) q) (utCutMessages n cuts y)

/-- The drawn matrix as the tables of Python and as the native side reads them (`edge_connections_pure.npy` and so on): inputs and start messages. -/
def utTspInputs (sym : Bool) (n : ℕ) (r : ℕ → ℕ → Num) (flag : Bool) (alpha : ℚ) : Option (TspInputs × Mat Num) :=
  (tspTables n (costMatrix sym n r) (utEdges sym n r)).bind
    (fun t => tspDecode n (n * n - n) flag alpha (tspFlatten (costMatrix sym n r) (utEdges sym n r) t.1 t.2))

/-- python_tsp/test/ut_graphical_model.py:38-86, `IterateRelaxedGraph` on drawn inputs. -/
def utDrawnTspRelaxed (sym : Bool) (n : ℕ) (r : ℕ → ℕ → Num) (flag : Bool) (alpha : ℚ) (N : ℕ) : Option Bool := do
  let (inp, e2d) ← utTspInputs sym n r flag alpha
  utTspRelaxed inp e2d N

/-- python_tsp/test/ut_graphical_model.py:87-136 and include/ut_graphical_model.hpp:240-269, `IterateAugmentedGraph`: the relaxed run and then rounds with
cuts.  `fuel` bounds the number of rounds of either program; `none` means that one of them is still running.  The outer `order` is the order in
which the C++ program visits its hash map. -/
def utTspAugmented (inp : TspInputs) (e2d : Mat Num) (thr : Num) (order : ℕ → List (ℕ × ℕ) → List ℕ) (N fuel : ℕ) : Option (Option Bool) := do
  let p ← pyTspSolve ⟨inp, N, false, true, thr⟩ fuel ⟨e2d, none, none, ⟨0, inp.numEdges, fun _ _ => 0⟩, none⟩
  let q ← tspSolve (tspSetup inp N false true thr 50 50 order) fuel (tspStart inp e2d)
  some (compareArr (p.map PyTspSolver.intr) (q.map TspState.intr))

/-- `IterateAugmentedGraph` on drawn inputs. -/
def utDrawnTspAugmented (sym : Bool) (n : ℕ) (r : ℕ → ℕ → Num) (flag : Bool) (alpha : ℚ) (thr : Num) (order : ℕ → List (ℕ × ℕ) → List ℕ) (N fuel : ℕ) : Option (Option Bool) :=
  match utTspInputs sym n r flag alpha with
  | none => some none
  | some (inp, e2d) => utTspAugmented inp e2d thr order N fuel

end Verif.Model
