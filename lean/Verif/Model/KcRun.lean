import Verif.Model.Knapsack
import Verif.Model.TeamKnapsack
import Verif.Model.Oric
import Verif.Model.Equality

/-!
Model of `GraphicalModelKcMwm` (/repo/include/impalib/graphical_model.hpp) and of `OutputsKcMwm`
(/repo/include/impalib/input_output.hpp).  Capacities, weights and sizes are natural numbers (the code uses `int`).
-/

namespace Verif.Model
open Verif Num

/-- The inputs after decoding (input_output.hpp:22-28, members of `InputsKcMwm`), the array
`pNON_ZERO_WEIGHT_INDICES_SIZES_PY` that `iterate` receives again, and the constructor arguments. -/
structure KcInputs where
  numDepartments : ℕ
  numTeams : ℕ
  numProjects : ℕ
  flag : Bool
  alpha : ℚ
  reward : Arr Num
  maxState : Arr ℕ
  nzs : List (List ℕ)
  sizes : Arr ℕ
  weights : Mat ℕ
  rewardProject : Mat Num

/-- The mutable members: `Team2KnapsackM`, `extrinsicOutputDepartmentDummy_`, `extrinsicOutputDepartment_`,
`extrinsicOutputDepartmentOld_` (knapsack.hpp:21), `team2OricM_`, `eqConstraint2OricM_`, `oric2EqConstraintM_`,
`eqConstraint2ProjectM_`, `project2EqConstraintM_`, `oric2PackageM_`, and the outputs `ExtrinsicOutputTeam`,
`IntrinsicOutMwm`. -/
structure KcState where
  a : Mat Num
  dummy : Mat Num
  ext : Mat Num
  extOld : Mat Num
  t2o : Arr Num
  e2o : Mat Num
  o2e : Mat Num
  e2p : Mat Num
  p2e : Mat Num
  o2t : Arr Num
  outTeam : Arr Num
  outMwm : Arr Num

/-- graphical_model.hpp:78-106, knapsack.hpp:62-66, input_output.hpp:119-127: everything starts at zero, except the messages
from teams to departments, which are an input. -/
def kcInit (inp : KcInputs) (a : Mat Num) : KcState :=
  let dt := Mat.fill inp.numDepartments inp.numTeams 0
  let pt := Mat.fill inp.numProjects inp.numTeams 0
  let t := Arr.fill inp.numTeams 0
  ⟨a, dt, dt, dt, t, pt, pt, pt, pt, t, t, Arr.fill (inp.numProjects * inp.numTeams) 0⟩

/-- graphical_model.hpp:145-158: one department of one iteration.  State: dummy, filtered and remembered messages. -/
def kcDept (inp : KcInputs) (iter : ℕ) (a : Mat Num) (d : ℕ) (s : Mat Num × Mat Num × Mat Num) :
    Option (Mat Num × Mat Num × Mat Num) := do
  let cap ← inp.maxState.rd d
  let nz ← inp.nzs[d]?
  let sz ← inp.sizes.rd d
  let w ← inp.weights.rdRow d
  let m ← a.rdRow d
  let out ← s.1.rdRow d
  let row ← knapMessages inp.numTeams cap nz sz w m out
  let dummy ← s.1.wrRow d row
  let (ext, old) ← filterAt inp.flag inp.alpha iter dummy d (s.2.1, s.2.2)
  some (dummy, ext, old)

/-- input_output.hpp:138-145 `OutputsKcMwm::intrinsic_out_mwm_update`. -/
def kcIntrinsic (numTeams : ℕ) (o2e p2e reward : Mat Num) (out : Arr Num) : Option (Arr Num) :=
  loopUp reward.rows (fun p out => loopUp reward.cols (fun t out => do
    let o ← o2e.rd p t
    let y ← p2e.rd p t
    let r ← reward.rd p t
    out.wr (p + t + p * (numTeams - 1)) (o + y + r)) out) out

/-- input_output.hpp:155-162 `OutputsKcMwm::extrinsic_output_team_update`. -/
def kcExtrinsic (ext : Mat Num) (o2t out : Arr Num) : Option (Arr Num) := do
  let out ← o2t.copyTo out
  addRowsL ext out

/-- graphical_model.hpp:143-168, one iteration. -/
def kcIter (inp : KcInputs) (iter : ℕ) (s : KcState) : Option KcState := do
  let (dummy, ext, extOld) ← loopUp inp.numDepartments (kcDept inp iter s.a) (s.dummy, s.ext, s.extOld)
  let t2o ← teamToOric inp.numTeams ext s.t2o inp.reward
  let (o2e, e2p) ← oricToProjectUpdate inp.numProjects inp.numTeams s.e2o t2o s.o2e s.e2p inp.rewardProject
  let p2e ← projectInequalityUpdate inp.numTeams e2p s.p2e
  let e2o ← projectToOric p2e s.e2o inp.rewardProject
  let o2t ← oricToTeamUpdate e2o s.o2t
  let outMwm ← kcIntrinsic inp.numTeams o2e p2e inp.rewardProject s.outMwm
  let a ← teamToKnapsack inp.numDepartments inp.numTeams inp.nzs s.a inp.reward ext o2t
  some ⟨a, dummy, ext, extOld, t2o, e2o, o2e, e2p, p2e, o2t, s.outTeam, outMwm⟩

/-- graphical_model.hpp:142-171 `GraphicalModelKcMwm::iterate`. -/
def kcIterate (inp : KcInputs) (numIter : ℕ) (s : KcState) : Option KcState := do
  let s ← loopUp numIter (kcIter inp) s
  let out ← kcExtrinsic s.ext s.o2t s.outTeam
  some { s with outTeam := out }

/-- Wrapper.cpp:30-48 `WrapperKcMwm`, without the decoding of the inputs: construct, iterate once, return the extrinsic
outputs of the teams and the intrinsic outputs of the pairs. -/
def kcSolve (inp : KcInputs) (a : Mat Num) (numIter : ℕ) : Option (Arr Num × Arr Num) := do
  let s ← kcIterate inp numIter (kcInit inp a)
  some (s.outTeam, s.outMwm)

end Verif.Model
