import Verif.Model.KcIO
import Verif.Model.KcPost

/-!
Model of a whole run of the assignment solver as in /repo/src/impa/main_kc_mwm.py:61-74: `initialize`, `iterate`, `pre_analysis` and
`post_analysis` of `ImpaKcMwm` (/repo/src/impa/Impa.py:1137-2220) on a new object.  Reading the input file and printing are not modelled;
totals that are only printed (Impa.py:2166-2232) are in KcSummary.lean.
-/

namespace Verif.Model
open Verif Num

/-- The entries of `input_load` that are used (Impa.py:1162-1164, 1218-1219): capacities of the units, types of teams, costs of the teams,
and for every team the costs of its projects. -/
structure KcLoad where
  caps : List ℕ
  types : List ℕ
  teamCosts : List Num
  pairCosts : List (List Num)

/-- `np.array(rows).T` for rows of length `n`. -/
def transposeRows (n : ℕ) (rows : List (List Num)) : List (List Num) :=
  (List.range n).map (fun p => rows.map (fun r => r.getD p 0))

/-- Impa.py:1154-1240 `initialize`: the attributes used by `iterate` and those used by the analysis.  The generated rewards are only counted;
the costs come from the input.  Without teams in the input or without units this is an `IndexError`; rows of different lengths are a
`ValueError`; the last condition is the assertion on the number of columns (the one on the rows always holds). -/
def kcInitialize (d : TeamData) (l : KcLoad) : Option (KcPy × KcTeamsPy) := do
  let first ← l.pairCosts[0]?
  let combos ← pruneTeams d l.caps.length
  let g ← generateTeams d l.caps l.types combos
  let types ← g.types[0]?
  let costs ← (if ∀ r ∈ l.pairCosts, r.length = first.length then some (transposeRows first.length l.pairCosts) else none)
  if g.rewards.length = l.pairCosts.length then
    some ({ numTeams := g.rewards.length, numProjects := first.length, maxState := l.caps, weights := g.weights,
            reward := l.teamCosts, rewardProject := costs },
          { caps := l.caps, weights := g.weights, types := types, last := g.last, combos := combos })
  else none

/-- Impa.py:2126-2164 without post-processing: the entry of the `i`-th selected team, with all its projects. -/
def plainEntry (py : KcTeamsPy) (pairs : List (ℕ × ℕ)) (sel locs : List ℕ) (i : ℕ) : Option ((ℕ × ℕ) × ℕ × List ℕ × List ℕ) := do
  let team ← sel[i]?
  let t ← py.types[team]?
  let loc ← locs[i]?
  let c ← py.combos[loc]?
  let hits := pairs.filter (fun c => c.2 == team)
  some (c, t, hits.map (fun q => q.2 + 1), hits.map (fun q => q.1 + 1))

/-- What is left after a run: `intrinsic_output`, `intermediate_selected_teams_indices` and `results_composed`. -/
structure KcResult where
  beliefs : List Num
  kept : List ℕ
  entries : List ((ℕ × ℕ) × ℕ × List ℕ × List ℕ)

/-- main_kc_mwm.py:61-74.  `option` is `post_process_option`; another option than 1 or 2 leaves `intermediate_selected_teams_indices`
unset, which is an `AttributeError`.  The removal loops run at most once per team (C32). -/
def kcCall (d : TeamData) (numIter : ℕ) (flag : Bool) (alpha : ℚ) (post : Bool) (option : ℕ) (threshold : Num) (l : KcLoad) :
    Option KcResult := do
  let (py, teams) ← kcInitialize d l
  let (beliefs, mwm) ← kcIteratePy numIter flag alpha py
  let p := decisionMatrix threshold mwm
  if post then do
    let byTeams ← (if option = 1 then some false else if option = 2 then some true else none)
    let out ← kcPost teams byTeams py.numTeams threshold mwm beliefs
    let entries ← resultEntries teams (matchedPairs p) out
    some ⟨beliefs, out.final.sel, entries⟩
  else do
    let (_, locs) ← analyseTeams teams (selectedTeams p)
    let entries ← (List.range (selectedTeams p).length).mapM (plainEntry teams (matchedPairs p) (selectedTeams p) locs)
    some ⟨beliefs, selectedTeams p, entries⟩

end Verif.Model
