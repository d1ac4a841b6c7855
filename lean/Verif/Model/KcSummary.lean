import Verif.Model.KcCall

/-!
Model of what `ImpaKcMwm.results_analysis` prints after the list of teams (/repo/src/impa/Impa.py:2115-2232).  The printed lines are the
fields of `KcSummary`.
-/

namespace Verif.Model
open Verif Num

/-- The printed lines.  `value`: "Total Value LHS" (Impa.py:2198); `loads`: "has a used capacity" of the units (2170-2175); `over`: "Post-Processing
Exceeded Capacity Flag" (2180-2183); `types`: "Types of Teams … Counts" (2190-2195); `numTeams`: "Total number of selected teams" (2199-2204);
`numProjects`: "Total number of Matched Projects" (2205-2210); `allMatched`: "Matching All Projects to Teams" (2228-2231); `weight`: "Total
Weight RHS" (2232). -/
structure KcSummary where
  value : Num
  loads : List ℤ
  over : Bool
  types : List (ℕ × ℕ)
  numTeams : ℕ
  numProjects : ℕ
  allMatched : Bool
  weight : Num
deriving DecidableEq

/-- Impa.py:2134-2140: `total_value`, `team_type` and `post_processing_team_departments_weights`. -/
def sumTeams (py : KcPy) (teams : KcTeamsPy) (kept : List ℕ) : Option (Num × List ℕ × List ℤ) :=
  loopList kept (fun i s => do
    let r ← py.reward[i]?
    let t ← teams.types[i]?
    let loads ← loopUp teams.caps.length (fun j loads => do
      let row ← teams.weights[j]?
      let w ← row[i]?
      let old ← loads[j]?
      if w ≠ 0 then some (loads.set j (old + (w : ℤ))) else some loads) s.2.2
    some (s.1 + r, s.2.1 ++ [t], loads)) (0, [], List.replicate teams.caps.length 0)

/-- `np.unique(l, return_counts=True)`: the different entries in ascending order, each with the number of times it occurs. -/
def uniqueCounts (l : List ℕ) : List (ℕ × ℕ) := ((List.range (l.foldl max 0 + 1)).filter (fun t => l.contains t)).map (fun t => (t, l.count t))

/-- Impa.py:2215-2219: the project of a pair.  `ic` is `post_processing_ic_combination` if `post_process_flag` is set. -/
def weighedProject (pairs : List (ℕ × ℕ)) (ic : Option (List (Option (ℕ × ℕ)))) (c : ℕ × ℕ) : Option ℕ :=
  match ic with
  | none => some c.1
  | some ic =>
    if ((reusedPairs pairs).map (fun c => c.1.2)).contains c.2 then do
      let picks ← ic.mapM id
      let p ← (picks.filter (fun d => d.2 == c.2))[0]?
      some p.1
    else some c.1

/-- Impa.py:2211-2222: `total_weight` and `total_weight_used_teams`. -/
def sumPairs (py : KcPy) (pairs : List (ℕ × ℕ)) (ic : Option (List (Option (ℕ × ℕ)))) (kept : List ℕ) : Option (Num × List ℕ) :=
  loopList pairs (fun c s => do
    let p ← weighedProject pairs ic c
    if kept.contains c.2 && !s.2.contains c.2 then do
      let row ← py.rewardProject[p]?
      let r ← row[c.2]?
      some (s.1 + r, s.2 ++ [c.2])
    else some s) (0, [])

/-- Impa.py:2115-2232: one entry of `project_array` per kept team. -/
def kcSummary (py : KcPy) (teams : KcTeamsPy) (pairs : List (ℕ × ℕ)) (ic : Option (List (Option (ℕ × ℕ)))) (kept : List ℕ) : Option KcSummary := do
  let (value, types, loads) ← sumTeams py teams kept
  let (weight, _) ← sumPairs py pairs ic kept
  some { value := -value, loads := loads, over := exceeded teams.caps loads, types := uniqueCounts types, numTeams := kept.length,
         numProjects := kept.length, allMatched := kept.length == py.numProjects, weight := weight }

/-- main_kc_mwm.py:61-74 with the printed lines as outcome (see `kcCall`). -/
def kcPrinted (d : TeamData) (numIter : ℕ) (flag : Bool) (alpha : ℚ) (post : Bool) (option : ℕ) (threshold : Num) (l : KcLoad) :
    Option KcSummary := do
  let (py, teams) ← kcInitialize d l
  let (beliefs, mwm) ← kcIteratePy numIter flag alpha py
  let p := decisionMatrix threshold mwm
  if post then do
    let byTeams ← (if option = 1 then some false else if option = 2 then some true else none)
    let out ← kcPost teams byTeams py.numTeams threshold mwm beliefs
    let _ ← resultEntries teams (matchedPairs p) out
    kcSummary py teams (matchedPairs p) (some out.ic) out.final.sel
  else do
    let (_, locs) ← analyseTeams teams (selectedTeams p)
    let _ ← (List.range (selectedTeams p).length).mapM (plainEntry teams (matchedPairs p) (selectedTeams p) locs)
    kcSummary py teams (matchedPairs p) none (selectedTeams p)

end Verif.Model
