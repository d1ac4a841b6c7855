import Verif.Model.KcCall
import Verif.Model.KsatCall
import Verif.Model.PyKc
import Verif.Model.PyKsat

/-!
Model of whole runs of the pure Python programs of /repo/test/python_kc_mwm/src and /repo/test/python_ksat/src.

Assignment: `initialize`, `iterate`, `pre_analysis` and `post_analysis` of `GraphicalModelKcMwm`
(/repo/test/python_kc_mwm/src/graphical_model.py:32-147, 368-405 and after).  Its methods `prune_teams` (149-178),
`team_reward_generation` (180-365) and those of the analysis have the same text as those of `ImpaKcMwm` in /repo/src/impa/Impa.py up to
names, types of numbers and printing, so their models are used again.  `results_composed` is a local variable there (it is printed);
the model returns it.  The post-processing is always the one by departments (option 1 of Impa.py).

k-SAT: `initialize` (message part), `run_impa` and `hard_decision_analysis` of `GraphicalModel`
(/repo/test/python_ksat/src/graphical_model.py:66-93, 165-230).  Lines 84-90 have the same text as Impa.py:2348-2353 (`ksatStart`), lines
205-221 the same as `get_summary` of Impa.py.  There is no post-processing (the flag is not stored).
-/

namespace Verif.Model
open Verif Num

/-- graphical_model.py:32-147 `initialize`: the attributes used by `iterate` and those used by the analysis.  `num_teams` is the number of
team costs in the file; the assertion in line 93 compares it with the number of rows of pair costs.  Rows of different lengths are a
`ValueError`.  Simplification: if the number of generated teams is another one, this is an error (fewer are an `IndexError` in line 110;
with more, the reads of later columns in knapsack.py fail). -/
def pyKcInitialize (d : TeamData) (l : KcLoad) : Option (KcPy × KcTeamsPy) := do
  let first ← l.pairCosts[0]?
  let combos ← pruneTeams d l.caps.length
  let g ← generateTeams d l.caps l.types combos
  let types ← g.types[0]?
  let costs ← (if ∀ r ∈ l.pairCosts, r.length = first.length then some (transposeRows first.length l.pairCosts) else none)
  if l.teamCosts.length = l.pairCosts.length ∧ (∀ r ∈ g.weights, r.length = l.teamCosts.length) then
    some ({ numTeams := l.teamCosts.length, numProjects := first.length, maxState := l.caps, weights := g.weights,
            reward := l.teamCosts, rewardProject := costs },
          { caps := l.caps, weights := g.weights, types := types, last := g.last, combos := combos })
  else none

/-- A list of rows as a table with `m` rows and `n` columns. -/
def tableOfRows {α : Type} (m n : ℕ) (x : α) (rows : List (List α)) : Mat α := ⟨m, n, fun i j => (rows.getD i []).getD j x⟩

/-- What the methods called by `iterate` read; the lists of nonzero weights are not stored (they are computed in knapsack.py). -/
def pyKcInputs (flag : Bool) (alpha : ℚ) (py : KcPy) : KcInputs where
  numDepartments := py.maxState.length
  numTeams := py.numTeams
  numProjects := py.numProjects
  flag := flag
  alpha := alpha
  reward := Arr.ofList py.reward
  maxState := Arr.ofList py.maxState
  nzs := []
  sizes := Arr.fill 0 0
  weights := tableOfRows py.maxState.length py.numTeams 0 py.weights
  rewardProject := tableOfRows py.numProjects py.numTeams 0 py.rewardProject

/-- graphical_model.py:106-113: the initial messages from teams to departments. -/
def pyKcStart (inp : KcInputs) : Mat Num :=
  ⟨inp.numDepartments, inp.numTeams, fun d t => if inp.weights.data d t ≠ 0 then inp.reward.data t else 0⟩

/-- graphical_model.py:368-405 `iterate`: `(intrinsic_output, intrinsic_out_mwm)`. -/
def pyKcIterate (numIter : ℕ) (flag : Bool) (alpha : ℚ) (py : KcPy) : Option (List Num × Mat Num) := do
  let inp := pyKcInputs flag alpha py
  let (ext, mwm) ← pyKcSolve inp (pyKcStart inp) numIter
  let output ← npAdd ext.toList py.reward
  some (output, mwm)

/-- A run of main_kc_mwm.py in /repo/test/python_kc_mwm/src: `initialize`, `iterate`, `pre_analysis`, `post_analysis`. -/
def pyKcCall (d : TeamData) (numIter : ℕ) (flag : Bool) (alpha : ℚ) (post : Bool) (threshold : Num) (l : KcLoad) : Option KcResult := do
  let (py, teams) ← pyKcInitialize d l
  let (beliefs, mwm) ← pyKcIterate numIter flag alpha py
  let p := decisionMatrix threshold mwm
  if post then do
    let out ← kcPost teams false py.numTeams threshold mwm beliefs
    let entries ← resultEntries teams (matchedPairs p) out
    some ⟨beliefs, out.final.sel, entries⟩
  else do
    let (_, locs) ← analyseTeams teams (selectedTeams p)
    let entries ← (List.range (selectedTeams p).length).mapM (plainEntry teams (matchedPairs p) (selectedTeams p) locs)
    some ⟨beliefs, selectedTeams p, entries⟩

/-- graphical_model.py:66-93 of the k-SAT program: what the methods called by `run_impa` read.  Clauses have `k` literals. -/
def pyKsatInputs (flag : Bool) (alpha : ℚ) (py : KsatPy) : KsatInputs where
  numVars := py.numVars
  numConstraints := py.numConstraints
  k := py.k
  flag := flag
  alpha := alpha
  used := py.used
  conns := py.conns
  conx := tableOfRows py.numConstraints py.k 0 py.conx
  conxType := tableOfRows py.numConstraints py.k 0 py.conxType
  cost := Arr.ofList py.cost

/-- graphical_model.py:165-230 `run_impa` and `hard_decision_analysis`: beliefs, decisions, and active variables, inactive variables and
violated clauses. -/
def pyKsatCall (n k numIter : ℕ) (flag : Bool) (alpha : ℚ) (threshold : Num) (t : KsatTables) (cost : List Num) :
    Option (List Num × List Bool × KsatSummary) := do
  let inp := pyKsatInputs flag alpha (ksatObject n k t cost)
  let v2k ← ksatStart (ksatObject n k t cost)
  let ext ← pyKsatSolve inp v2k numIter
  let used ← pyUsedCosts n t.used inp.cost
  let beliefs ← npAdd ext.toList used.toList
  let sum ← getSummary t (hardDecisions threshold beliefs)
  some (beliefs, hardDecisions threshold beliefs, sum)

end Verif.Model
