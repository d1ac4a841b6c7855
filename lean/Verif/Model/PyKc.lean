import Verif.Model.PyNp
import Verif.Model.KcRun

/-!
Model of the pure Python assignment solver of /repo/test/python_kc_mwm/src: knapsack.py, project_inequality_constraint.py,
update_or_inequality_constraint.py, update_equality_constraint.py, input_output.py and `iterate` of graphical_model.py.

The inputs are those of the C++ solver (`KcInputs`); the fields `nzs` and `sizes` are not used, the Python program finds the
non-zero weights itself.  Weights and capacities are natural numbers.  `none` stands for a Python exception.
-/

namespace Verif.Model
open Verif Num

/-- `[i for i, e in enumerate(weight_vector) if e != 0]` (knapsack.py:30 and others). -/
def pyNz (w : Arr ℕ) : List ℕ := (List.range w.size).filter (fun i => decide (w.data i ≠ 0))

/-- `rows[j][a]` for a list of rows. -/
def rowsRd (rows : List (Arr Num)) (j a : ℕ) : Option Num := do
  let r ← rows[j]?
  r.rd a

/-- knapsack.py:40-49, the new row of forward messages for team `t`.  The builtin `min(x, y)` is `y if y < x else x`. -/
def pyFwdRow (cap : ℕ) (w : Arr ℕ) (m : Arr Num) (t : ℕ) (init : Arr Num) : Option (Arr Num) :=
  Arr.genM (cap + 1) (fun a => do
    let wt ← w.rd t
    if wt ≤ a ∧ ¬ (t = 0 ∧ a ≠ wt) then do
      let y ← init.rd (a - wt)
      let mt ← m.rd t
      let x ← init.rd a
      some (cmin (y + mt) x)
    else init.rd a)

/-- knapsack.py:52-58: how many more copies of the row are appended after team `t`. -/
def pyFwdGap (T : ℕ) (nz : List ℕ) (t : ℕ) : Option ℕ :=
  if nz.length ≠ T then
    if t + 1 ∉ nz then do
      let back ← nz.getLast?
      if t + 1 ≥ back ∧ t + 1 < T then some (T - (t + 1))
      else if t + 1 < back then do
        let next ← nz[upperBound nz t]?
        some (next - t - 1)
      else some 0
    else some 0
  else some 0

/-- knapsack.py:23-60 `Knapsack.forward`; `T` is the length of `transition_model`. -/
def pyForward (T cap : ℕ) (w : Arr ℕ) (m : Arr Num) : Option (List (Arr Num)) := do
  let init := knapInitF cap
  let nz := pyNz w
  let first ← nz[0]?
  let st := if first ≠ 0 then List.replicate first init else []
  let (st, _) ← loopList nz (fun t s => do
    let row ← pyFwdRow cap w m t s.2
    let k ← pyFwdGap T nz t
    some (s.1 ++ [row] ++ List.replicate k row, row)) (st, init)
  some (init :: st)

/-- knapsack.py:80-89, the new row of backward messages for team `t`. -/
def pyBwdRow (cap : ℕ) (w : Arr ℕ) (m : Arr Num) (t : ℕ) (init : Arr Num) : Option (Arr Num) :=
  Arr.genM (cap + 1) (fun a => do
    let wt ← w.rd t
    if (t > 0 ∧ a + wt ≤ cap) ∨ (a = 0 ∧ t = 0) then do
      let x ← init.rd a
      let y ← init.rd (a + wt)
      let mt ← m.rd t
      some (cmin x (y + mt))
    else init.rd a)

/-- knapsack.py:94-100: how many more copies of the row are appended after team `t`.  For `t = 0` the number `t - 1` is
negative: it is in no list and takes neither branch.  An index `-1` into the list would be its last element; `old_index` is
never 0 there, so the model leaves that case out (`none`). -/
def pyBwdGap (T : ℕ) (nz : List ℕ) (t : ℕ) : Option ℕ :=
  if nz.length ≠ T then
    if t = 0 then some 0
    else if t - 1 ∉ nz then do
      let first ← nz[0]?
      if t - 1 ≤ first then some first
      else do
        let next := upperBound nz (t - 1)
        let prev ← (if next = 0 then none else nz[next - 1]?)
        some (t - prev - 1)
    else some 0
  else some 0

/-- knapsack.py:62-104 `Knapsack.backward`. -/
def pyBackward (T cap : ℕ) (w : Arr ℕ) (m : Arr Num) : Option (List (Arr Num)) := do
  let init : Arr Num := Arr.fill (cap + 1) 0
  let nz := pyNz w
  let last ← nz.getLast?
  let st := if last ≠ T - 1 then List.replicate (T - 1 - last) init else []
  let (st, _) ← loopList nz.reverse (fun t s => do
    let row ← pyBwdRow cap w m t s.2
    let k ← pyBwdGap T nz t
    some (s.1 ++ [row] ++ List.replicate k row, row)) (st, init)
  some (st.reverse ++ [init])

/-- knapsack.py:127-131, one step of collecting the path metrics of team `t`. -/
def pyPaths (cap wt : ℕ) (mt : Num) (t : ℕ) (F B : List (Arr Num)) (i : ℕ) (p : List Num × List Num) :
    Option (List Num × List Num) := do
  let (solid, dash) := p
  let solid ←
    if i + wt ≤ cap then do
      let f ← rowsRd F t i
      let b ← rowsRd B (t + 1) (i + wt)
      some (solid ++ [f + b + mt])
    else some solid
  let f ← rowsRd F t i
  let b ← rowsRd B (t + 1) i
  some (solid, dash ++ [f + b])

/-- knapsack.py:120-132, body of the loop over the teams with non-zero weight. -/
def pyOut (cap : ℕ) (w : Arr ℕ) (m : Arr Num) (F B : List (Arr Num)) (t : ℕ) (out : Arr Num) : Option (Arr Num) := do
  let wt ← w.rd t
  let mt ← m.rd t
  let (solid, dash) ←
    if t = 0 then do
      let f ← rowsRd F t t
      let b ← rowsRd B (t + 1) wt
      let b0 ← rowsRd B (t + 1) 0
      some ([f + b + mt], [f + b0])
    else loopUp (cap + 1) (pyPaths cap wt mt t F B) ([], [])
  let s ← minElement solid
  let d ← minElement dash
  out.wr t (s - d - mt)

/-- knapsack.py:106-134: `forward_backward` and `extrinsic_output_department_lhs` for one department. -/
def pyKnapMessages (T cap : ℕ) (w : Arr ℕ) (m : Arr Num) : Option (Arr Num) := do
  let F ← pyForward T cap w m
  let B ← pyBackward T cap w m
  loopList (pyNz w) (pyOut cap w m F B) (Arr.fill T 0)

/-- project_inequality_constraint.py:38-45 `constraint_rule`. -/
def pyRule (unbalanced : Bool) (x : Num) : Num := if unbalanced then npMin2 x 0 else x

/-- project_inequality_constraint.py:17-36 `project_inequality_constraint_update`; the minimum of an empty slice is an
error. -/
def pyProjectUpdate (unbalanced : Bool) (A : Mat Num) : Option (Mat Num) :=
  Mat.genM A.rows A.cols (fun p => Arr.genM A.cols (fun j => do
    let x ← (if j = 0 then npMin (((List.range A.cols).drop 1).map (A.data p))
      else if j < A.cols - 1 then do
        let lo ← npMin (((List.range A.cols).take j).map (A.data p))
        let hi ← npMin (((List.range A.cols).drop (j + 1)).map (A.data p))
        some (npMin2 lo hi)
      else npMin (((List.range A.cols).take (A.cols - 1)).map (A.data p)))
    some (-(pyRule unbalanced x))))

/-- update_or_inequality_constraint.py:21-51 `oric_to_project_ec_update` with `oric_activation`, whose two branches have the
same text.  Returns `oric_to_eq_constraint_m` and `eq_constraint_to_project_m`. -/
def pyOricToProject (P T : ℕ) (e2o : Mat Num) (t2o : Arr Num) (reward : Mat Num) : Option (Mat Num × Mat Num) := do
  let o ← Mat.genM P T (fun p => Arr.genM T (fun t => do
    let xs ← ((List.range P).filter (fun q => decide (q ≠ p))).mapM (fun q => e2o.rd q t)
    let mn ← npMin xs
    let m ← t2o.rd t
    some (-(npMin2 mn (-m)))))
  let e ← npAdd2 o reward
  some (o, e)

/-- update_or_inequality_constraint.py:53-56 `oric_to_team_update`. -/
def pyOricToTeam (e2o : Mat Num) : Option (Arr Num) :=
  Arr.genM e2o.cols (fun t => npMin ((List.range e2o.rows).map (fun p => e2o.data p t)))

/-- knapsack.py:151-172 `team_to_department_update`. -/
def pyTeamToDepartment (D T : ℕ) (weights : Mat ℕ) (reward : Arr Num) (ext : Mat Num) (o2t : Arr Num) : Option (Mat Num) :=
  Mat.genM D T (fun d => do
    let wd ← weights.rdRow d
    let others := (List.range D).filter (fun u => decide (u ≠ d))
    let (row, total) ← loopList others (fun u s => do
      let wu ← weights.rdRow u
      let both := (pyNz wd).filter (fun t => decide (t ∈ pyNz wu))
      let row ← loopList both (fun t row => do
        let r ← reward.rd t
        let x ← ext.rd u t
        let o ← o2t.rd t
        row.wr t (r + x + o)) s.1
      some (row, s.2 ++ both)) (Arr.fill T 0, [])
    let unique := (pyNz wd).filter (fun t => decide (t ∉ total))
    loopList unique (fun t row => do
      let r ← reward.rd t
      let o ← o2t.rd t
      row.wr t (r + o)) row)

/-- The members that change in the loop: `team_to_knapsack_m`, `extrinsic_output_department_dummy`,
`extrinsic_output_department`, `extrinsic_output_department_old` (`none`: not set yet), `eq_constraint_to_oric_m`,
`oric_to_eq_constraint_m`, `project_to_eq_constraint_m`, `oric_to_team_m`, `extrinsic_output_team` (`none`: not set yet),
`intrinsic_out_mwm`. -/
structure PyKcState where
  a : Mat Num
  dummy : Mat Num
  ext : Mat Num
  extOld : Option (Mat Num)
  e2o : Mat Num
  o2e : Mat Num
  p2e : Mat Num
  o2t : Arr Num
  outTeam : Option (Arr Num)
  outMwm : Mat Num

/-- graphical_model.py:98-104 and knapsack.py:18-19. -/
def pyKcInit (inp : KcInputs) (a : Mat Num) : PyKcState :=
  let dt := Mat.fill inp.numDepartments inp.numTeams 0
  let pt := Mat.fill inp.numProjects inp.numTeams 0
  ⟨a, dt, dt, none, pt, pt, pt, Arr.fill inp.numTeams 0, none, pt⟩

/-- graphical_model.py:370-383: the loop over the departments; knapsack.py:134 stores the row. -/
def pyKcDepts (inp : KcInputs) (a dummy : Mat Num) : Option (Mat Num) :=
  loopUp inp.numDepartments (fun d dummy => do
    let cap ← inp.maxState.rd d
    let w ← inp.weights.rdRow d
    let m ← a.rdRow d
    let row ← pyKnapMessages m.size cap w m
    dummy.wrRow d row) dummy

/-- graphical_model.py:369-403, one iteration; `unbalanced_flag` is set in lines 87-90. -/
def pyKcIter (inp : KcInputs) (iter : ℕ) (s : PyKcState) : Option PyKcState := do
  let dummy ← pyKcDepts inp s.a s.dummy
  let (ext, extOld) ← pyFilter inp.flag inp.alpha iter dummy s.extOld
  let t2o ← npAdd1 (npSumAxis0 ext) inp.reward
  let (o2e, e2p) ← pyOricToProject inp.numProjects inp.numTeams s.e2o t2o inp.rewardProject
  let p2e ← pyProjectUpdate (decide (inp.numProjects ≠ inp.numTeams)) e2p
  let e2o ← npAdd2 p2e inp.rewardProject
  let o2t ← pyOricToTeam e2o
  let op ← npAdd2 o2e p2e
  let outMwm ← npAdd2 op inp.rewardProject
  let a ← pyTeamToDepartment inp.numDepartments inp.numTeams inp.weights inp.reward ext o2t
  let outTeam ← npAdd1 (npSumAxis0 ext) o2t
  some ⟨a, dummy, ext, extOld, e2o, o2e, p2e, o2t, some outTeam, outMwm⟩

/-- graphical_model.py:368-405 `iterate`: the extrinsic outputs of the teams and the intrinsic outputs of the pairs.  Line
405 adds the costs of the teams to the former. -/
def pyKcSolve (inp : KcInputs) (a : Mat Num) (numIter : ℕ) : Option (Arr Num × Mat Num) := do
  let s ← loopUp numIter (pyKcIter inp) (pyKcInit inp a)
  let out ← s.outTeam
  some (out, s.outMwm)

end Verif.Model
