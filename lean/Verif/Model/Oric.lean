import Verif.Model.ProjectInequality

/-!
Model of /repo/include/impalib/update_or_inequality_constraint.hpp.
-/

namespace Verif.Model
open Verif Num

/-- update_or_inequality_constraint.hpp:79-83, one forward stage of team `t`. -/
def oricFwdStage (eq2oric : Mat Num) (team2oric : Arr Num) (t : ℕ) (stage : ℕ) (fwd : Mat Num) : Option (Mat Num) := do
  let f0 ← fwd.rd stage 0
  let fwd ← fwd.wr (stage + 1) 0 f0
  let g1 ← fwd.rd stage 1
  let g0 ← fwd.rd stage 0
  let e ← eq2oric.rd stage t
  let m ← team2oric.rd t
  fwd.wr (stage + 1) 1 (cmin g1 (g0 + e + m))

/-- update_or_inequality_constraint.hpp:92-96, one backward stage of team `t`. -/
def oricBwdStage (eq2oric : Mat Num) (team2oric : Arr Num) (t : ℕ) (stage : ℕ) (bwd : Mat Num) : Option (Mat Num) := do
  let b0 ← bwd.rd (stage + 1) 0
  let b1 ← bwd.rd (stage + 1) 1
  let e ← eq2oric.rd stage t
  let m ← team2oric.rd t
  let bwd ← bwd.wr stage 0 (cmin b0 (b1 + e + m))
  let c1 ← bwd.rd (stage + 1) 1
  bwd.wr stage 1 c1

/-- update_or_inequality_constraint.hpp:101-107, the messages for one project of team `t`.  The state is
(`rOric2EqConstraintM`, `rEqConstraint2ProjectM`). -/
def oricOut (fwd bwd : Mat Num) (team2oric : Arr Num) (reward : Mat Num) (t p : ℕ) (st : Mat Num × Mat Num) :
    Option (Mat Num × Mat Num) := do
  let (oric2eq, eq2proj) := st
  let f1 ← fwd.rd p 1
  let b0 ← bwd.rd (p + 1) 0
  let minimumValue := cmin f1 b0
  let minimumValue := cmin minimumValue 0
  let m ← team2oric.rd t
  let oric2eq ← oric2eq.wr p t (m - minimumValue)
  let o ← oric2eq.rd p t
  let r ← reward.rd p t
  let eq2proj ← eq2proj.wr p t (o + r)
  some (oric2eq, eq2proj)

/-- update_or_inequality_constraint.hpp:67-109, body of the loop over teams. -/
def oricBody (numProjects : ℕ) (eq2oric : Mat Num) (team2oric : Arr Num) (reward : Mat Num) (t : ℕ)
    (st : Mat Num × Mat Num × Mat Num × Mat Num) : Option (Mat Num × Mat Num × Mat Num × Mat Num) := do
  let (fwd, bwd, oric2eq, eq2proj) := st
  let fwd ← fwd.wrRow 0 initFwd2
  let fwd ← loopUp numProjects (oricFwdStage eq2oric team2oric t) fwd
  let bwd ← bwd.wrRow numProjects initBwd2
  let bwd ← loopDown numProjects (oricBwdStage eq2oric team2oric t) bwd
  let (oric2eq, eq2proj) ← loopUp numProjects (oricOut fwd bwd team2oric reward t) (oric2eq, eq2proj)
  some (fwd, bwd, oric2eq, eq2proj)

/-- update_or_inequality_constraint.hpp:56-110 `OrInequalityConstraint::oric_to_project_eq_constraint_update`.
Returns the new (`rOric2EqConstraintM`, `rEqConstraint2ProjectM`). -/
def oricToProjectUpdate (numProjects numTeams : ℕ) (eq2oric : Mat Num) (team2oric : Arr Num)
    (oric2eq eq2proj reward : Mat Num) : Option (Mat Num × Mat Num) := do
  let fwd := Mat.fill (numProjects + 1) 2 0
  let bwd := Mat.fill (numProjects + 1) 2 0
  let (_, _, o, e) ← loopUp numTeams (oricBody numProjects eq2oric team2oric reward) (fwd, bwd, oric2eq, eq2proj)
  some (o, e)

/-- update_or_inequality_constraint.hpp:129-132, one comparison of the minimum search for team `t`. -/
def oricTeamMin (eq2oric : Mat Num) (t p : ℕ) (minValue : Num) : Option Num := do
  let e ← eq2oric.rd p t
  some (if lt e minValue then e else minValue)

/-- update_or_inequality_constraint.hpp:123-135, body of the loop over teams; the search starts at the literal
`1000000` (line 125). -/
def oricTeamBody (eq2oric : Mat Num) (t : ℕ) (out : Arr Num) : Option (Arr Num) := do
  let minValue ← loopUp eq2oric.rows (oricTeamMin eq2oric t) (fin 1000000)
  out.wr t minValue

/-- update_or_inequality_constraint.hpp:120-136 `OrInequalityConstraint::oric_to_team_update`. -/
def oricToTeamUpdate (eq2oric : Mat Num) (oric2team : Arr Num) : Option (Arr Num) :=
  loopUp oric2team.size (oricTeamBody eq2oric) oric2team

end Verif.Model
