import Verif.Model.KcTeams

/-!
Model of the decision, the analysis and the post-processing of `ImpaKcMwm` (/repo/src/impa/Impa.py:1567-2220).  Printing is not modelled; the
totals that are only printed are in KcSummary.lean.  Unit pairs are numbered from 1 as in `available_combinations`; units, teams and projects from 0.
`np.int` in `apply_post_processing_teams_brute` (removed from recent numpy) is read as `int`.
-/

namespace Verif.Model
open Verif Num

/-- Impa.py:1611-1612: `P[P > threshold] = 0` and then `P[P < threshold] = 1`, on one entry. -/
def decideEntry (threshold x : Num) : Num :=
  let y := if gt x threshold then 0 else x
  if lt y threshold then fin 1 else y

/-- Impa.py:1608-1612: the decision matrix `P`. -/
def decisionMatrix (threshold : Num) (a : Mat Num) : Mat Num := ⟨a.rows, a.cols, fun i j => decideEntry threshold (a.data i j)⟩

/-- Impa.py:1579, `np.where(p_mwm == 1)`: the (project, team) pairs in row-major order. -/
def matchedPairs (p : Mat Num) : List (ℕ × ℕ) :=
  (List.range p.rows).flatMap (fun i => ((List.range p.cols).filter (fun j => p.data i j = fin 1)).map (fun j => (i, j)))

/-- Impa.py:1580-1581: `np.unique` of the second components (ascending). -/
def selectedTeams (p : Mat Num) : List ℕ :=
  (List.range p.cols).filter (fun j => ((matchedPairs p).map Prod.snd).contains j)

/-- Impa.py:1641-1648 `check_unbalanced_flag`: delete the columns that are zero, then the rows that are zero. -/
def dropZeros (p : Mat Num) : Mat Num :=
  let cols := (List.range p.cols).filter (fun j => !(List.range p.rows).all (fun i => p.data i j = 0))
  let rows := (List.range p.rows).filter (fun i => !cols.all (fun j => p.data i j = 0))
  ⟨rows.length, cols.length, fun i j => p.data (rows.getD i 0) (cols.getD j 0)⟩

/-- `np.array_equal(sums, np.ones(n))` for the sums of `m` vectors `x 0, …` of length `l`. -/
def sumsAreOnes (n m l : ℕ) (x : ℕ → ℕ → Num) : Bool :=
  m == n && (List.range m).all (fun i => (List.range l).foldl (fun s j => s + x i j) 0 = fin 1)

/-- Impa.py:1590-1629 `check_match`: the flag `valid_match` (`match_metric` is only returned, never used). -/
def validMatch (threshold : Num) (a : Mat Num) : Bool :=
  let p := decisionMatrix threshold a
  let q := if a.rows ≠ a.cols then dropZeros p else p
  let n := min a.rows a.cols
  sumsAreOnes n q.cols q.rows (fun j i => q.data i j) && sumsAreOnes n q.rows q.cols q.data

/-- The attributes used by the analysis: capacities, generated teams (`types` is `teams_types`) and unit pairs. -/
structure KcTeamsPy where
  caps : List ℕ
  weights : List (List ℕ)
  types : List ℕ
  last : List ℤ
  combos : List (ℕ × ℕ)
deriving DecidableEq

/-- Impa.py:1711: index of the first pair whose last index is at least `i`; `StopIteration` if there is none. -/
def locate (last : List ℤ) (i : ℕ) : Option ℕ := last.findIdx? (fun x => (i : ℤ) ≤ x)

/-- Impa.py:1695-1712: loads of the units and locations of the selected teams. -/
def analyseTeams (py : KcTeamsPy) (selected : List ℕ) : Option (List ℤ × List ℕ) :=
  loopList selected (fun i s => do
    let _ ← py.types[i]?
    let loads ← loopUp py.caps.length (fun j loads => do
      let row ← py.weights[j]?
      let w ← row[i]?
      let old ← loads[j]?
      if w ≠ 0 then some (loads.set j (old + (w : ℤ))) else some loads) s.1
    let loc ← locate py.last i
    let _ ← py.combos[loc]?
    some (loads, s.2 ++ [loc])) (List.replicate py.caps.length 0, [])

/-- Impa.py:1726-1732: `capacity_exceeded_flag`. -/
def exceeded (caps : List ℕ) (loads : List ℤ) : Bool :=
  (List.range caps.length).any (fun d => (caps.getD d 0 : ℤ) < loads.getD d 0)

/-- Impa.py:1763-1779: the pairs whose team occurred before, each with the first pair of that team. -/
def reusedPairs (pairs : List (ℕ × ℕ)) : List ((ℕ × ℕ) × (ℕ × ℕ)) :=
  (pairs.foldl (fun (s : List (ℕ × ℕ) × List ((ℕ × ℕ) × (ℕ × ℕ))) p =>
    match s.1.find? (fun q => q.2 == p.2) with
    | none => (s.1 ++ [p], s.2)
    | some q => (s.1, s.2 ++ [(p, q)])) ([], [])).2

/-- Impa.py:1852-1858: the pair with the smaller belief; `none` stands for the initial `0` of the list. -/
def pickPair (a : Mat Num) (c : (ℕ × ℕ) × (ℕ × ℕ)) : Option (Option (ℕ × ℕ)) := do
  let x ← a.rd c.1.1 c.1.2
  let (m, r) := if lt x (fin 1000000000) then (x, some c.1) else (fin 1000000000, none)
  let y ← a.rd c.2.1 c.2.2
  some (if lt y m then some c.2 else r)

/-- The variables of the removal loop. -/
structure Removal where
  sel : List ℕ
  locs : List ℕ
  loads : List ℤ

/-- The unit pair of a selected team: `available_combinations[team_locations[np.where(sel == i)[0][0]]]`. -/
def pairOf (combos : List (ℕ × ℕ)) (st : Removal) (i : ℕ) : Option (ℕ × ℕ) := do
  let loc ← st.locs[st.sel.idxOf i]?
  combos[loc]?

/-- `department in np.array(pair) - 1`. -/
def inPair (d : ℕ) (c : ℕ × ℕ) : Bool := d + 1 == c.1 || d + 1 == c.2

/-- `np.where(loads > max_state)[0]`. -/
def overloaded (caps : List ℕ) (loads : List ℤ) : List ℕ :=
  (List.range caps.length).filter (fun d => (caps.getD d 0 : ℤ) < loads.getD d 0)

/-- Python's `max` of a list of floats; `ValueError` if it is empty. -/
def pyMax : List Num → Option Num
  | [] => none
  | x :: l => some (l.foldl (fun m y => if gt y m then y else m) x)

/-- `a.searchsorted(x)` of an ascending array: the number of smaller entries. -/
def searchSorted (a : List ℕ) (x : ℕ) : ℕ := (a.filter (fun y => y < x)).length

/-- Floating-point `==`. -/
def numEq (a b : Num) : Bool := decide (a = b) && !decide (a = nan)

/-- Impa.py:1917-1931 and 2074-2089: the loads after a team of type `t` from the units of `c` is removed. -/
def unload (t : ℕ) (c : ℕ × ℕ) (loads : List ℤ) : Option (List ℤ) := do
  let sub (d : ℕ) (x : ℤ) (l : List ℤ) : Option (List ℤ) := do
    let old ← l[d - 1]?
    some (l.set (d - 1) (old - x))
  if t = 1 then sub c.1 1 loads
  else if t = 2 then do sub c.2 1 (← sub c.1 1 loads)
  else if t = 3 then sub c.1 2 loads
  else if t = 4 then do sub c.2 1 (← sub c.1 2 loads)
  else if t = 5 then do sub c.2 2 (← sub c.1 2 loads)
  else some loads

/-- Impa.py:1899-1931 and 2053-2089: remove the first selected team whose belief equals the largest belief among `cands`. -/
def removeTeam (py : KcTeamsPy) (belief : List Num) (st : Removal) (cands : List ℕ) : Option Removal := do
  let bs ← st.sel.mapM (fun i => belief[i]?)
  let cs ← cands.mapM (fun i => bs[searchSorted st.sel i]?)
  let m ← pyMax cs
  let pos ← bs.findIdx? (fun b => numEq b m)
  let team ← st.sel[pos]?
  let loc ← st.locs[st.sel.idxOf team]?
  let c ← py.combos[loc]?
  let t ← py.types[team]?
  let loads ← unload t c st.loads
  some ⟨st.sel.filter (fun i => i ≠ team), st.locs.erase loc, loads⟩

/-- Impa.py:1890-1894: the selected teams of department `d`. -/
def teamsOf (py : KcTeamsPy) (st : Removal) (d : ℕ) : Option (List ℕ) := do
  let cs ← st.sel.mapM (pairOf py.combos st)
  some (((st.sel.zip cs).filter (fun p => inPair d p.2)).map Prod.fst)

/-- Impa.py:1881-1931: one round of `apply_post_processing_departments_brute`; `over` is not empty. -/
def roundDepartments (py : KcTeamsPy) (belief : List Num) (st : Removal) (over : List ℕ) : Option Removal := do
  let d ← over[0]?
  let cands ← teamsOf py st d
  removeTeam py belief st cands

/-- Impa.py:2000-2027: the teams considered for department `d`, with their pairs: those with both units overloaded, else all. -/
def teamsOver (py : KcTeamsPy) (st : Removal) (over : List ℕ) (d : ℕ) : Option (List (ℕ × (ℕ × ℕ))) := do
  let cs ← st.sel.mapM (pairOf py.combos st)
  let l := (st.sel.zip cs).filter (fun p => inPair d p.2 && over.contains (p.2.1 - 1) && over.contains (p.2.2 - 1))
  if l = [] then some ((st.sel.zip cs).filter (fun p => inPair d p.2)) else some l

/-- Impa.py:1992-2089: one round of `apply_post_processing_teams_brute`. -/
def roundTeams (py : KcTeamsPy) (belief : List Num) (st : Removal) (over : List ℕ) : Option Removal := do
  let l ← loopList over (fun d l => do
    let x ← teamsOver py st over d
    some (l ++ x.filter (fun y => !l.contains y))) []
  let chosen := if l.all (fun p => p.2.1 == p.2.2) then l else l.filter (fun p => p.2.1 ≠ p.2.2)
  removeTeam py belief st (chosen.map Prod.fst)

/-- Impa.py:1881-1931 and 1992-2089: `while any(loads > max_state)`; `none` also if `fuel` rounds are not enough. -/
def removalLoop (py : KcTeamsPy) (round : Removal → List ℕ → Option Removal) : ℕ → Removal → Option Removal
  | fuel, st =>
    if overloaded py.caps st.loads = [] then some st
    else match fuel with
      | 0 => none
      | fuel + 1 => (round st (overloaded py.caps st.loads)).bind (removalLoop py round fuel)

/-- What the post-processing leaves: `post_processing_ic_combination`, the kept teams with their locations (`team_locations` is changed in
place) and the tracked loads. -/
structure KcPostOut where
  ic : List (Option (ℕ × ℕ))
  final : Removal

/-- Impa.py:1567-1588, 1806-1824 with post-processing option 1 (`byTeams = false`, Impa.py:1828-1938) or 2 (1940-2096). -/
def kcPost (py : KcTeamsPy) (byTeams : Bool) (fuel : ℕ) (threshold : Num) (a : Mat Num) (belief : List Num) : Option KcPostOut := do
  let p := decisionMatrix threshold a
  let sel := selectedTeams p
  let (loads, locs) ← analyseTeams py sel
  let ic ← (reusedPairs (matchedPairs p)).mapM (pickPair a)
  let st : Removal := ⟨sel, locs, loads⟩
  if exceeded py.caps loads then do
    let st ← removalLoop py (if byTeams then roundTeams py belief else roundDepartments py belief) fuel st
    some ⟨ic, st⟩
  else some ⟨ic, st⟩

/-- Impa.py:2126-2164: the entry of `results_composed` for the `i`-th kept team: units, type, and the teams and projects (from 1). -/
def resultEntry (py : KcTeamsPy) (pairs : List (ℕ × ℕ)) (out : KcPostOut) (i : ℕ) :
    Option ((ℕ × ℕ) × ℕ × List ℕ × List ℕ) := do
  let team ← out.final.sel[i]?
  let hits ← (if ((reusedPairs pairs).map (fun c => c.1.2)).contains team then do
      let picks ← out.ic.mapM id
      let p ← (picks.filter (fun c => c.2 == team))[0]?
      some (pairs.filter (fun c => c.1 == p.1))
    else some (pairs.filter (fun c => c.2 == team)))
  let t ← py.types[team]?
  let loc ← out.final.locs[i]?
  let c ← py.combos[loc]?
  some (c, t, hits.map (fun q => q.2 + 1), hits.map (fun q => q.1 + 1))

/-- Impa.py:2098-2164 `results_analysis`, up to `results_composed`. -/
def resultEntries (py : KcTeamsPy) (pairs : List (ℕ × ℕ)) (out : KcPostOut) : Option (List ((ℕ × ℕ) × ℕ × List ℕ × List ℕ)) :=
  (List.range out.final.sel.length).mapM (resultEntry py pairs out)

end Verif.Model
