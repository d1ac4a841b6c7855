import Verif.Arr

/-!
Model of /repo/include/impalib/project_inequality_constraint.hpp.
-/

namespace Verif.Model
open Verif Num

/-- project_inequality_constraint.hpp:57-60: the vectors `initial_forward_messages` (`0, inf`) and
`initial_backward_messages` (`0, 0`) of `maxStateIc_ + 1 = 2` entries (`maxStateIc_ = 1`, line 19). -/
def initFwd2 : Arr Num := ⟨2, fun k => if k = 0 then 0 else pinf⟩
def initBwd2 : Arr Num := ⟨2, fun _ => 0⟩

/-- project_inequality_constraint.hpp:65-69, one forward stage of project `p`. -/
def projFwdStage (eq2proj : Mat Num) (p : ℕ) (stage : ℕ) (fwd : Mat Num) : Option (Mat Num) := do
  let f0 ← fwd.rd stage 0
  let fwd ← fwd.wr (stage + 1) 0 f0
  let g1 ← fwd.rd stage 1
  let g0 ← fwd.rd stage 0
  let x ← eq2proj.rd p stage
  fwd.wr (stage + 1) 1 (cmin g1 (g0 + x))

/-- project_inequality_constraint.hpp:75-79, one backward stage of project `p`. -/
def projBwdStage (eq2proj : Mat Num) (p : ℕ) (stage : ℕ) (bwd : Mat Num) : Option (Mat Num) := do
  let b0 ← bwd.rd (stage + 1) 0
  let b1 ← bwd.rd (stage + 1) 1
  let x ← eq2proj.rd p stage
  let bwd ← bwd.wr stage 0 (cmin b0 (b1 + x))
  let c1 ← bwd.rd (stage + 1) 1
  bwd.wr stage 1 c1

/-- project_inequality_constraint.hpp:84-87, the message to one team. -/
def projOut (fwd bwd : Mat Num) (p team : ℕ) (out : Mat Num) : Option (Mat Num) := do
  let f1 ← fwd.rd team 1
  let b0 ← bwd.rd (team + 1) 0
  let minimumValue := cmin f1 b0
  out.wr p team (-(cmin minimumValue 0))

/-- project_inequality_constraint.hpp:54-89, body of the loop over projects.  The state is
(forward table, backward table, output). -/
def projBody (numTeams : ℕ) (eq2proj : Mat Num) (p : ℕ) (st : Mat Num × Mat Num × Mat Num) :
    Option (Mat Num × Mat Num × Mat Num) := do
  let (fwd, bwd, out) := st
  let fwd ← fwd.wrRow 0 initFwd2
  let fwd ← loopUp numTeams (projFwdStage eq2proj p) fwd
  let bwd ← bwd.wrRow numTeams initBwd2
  let bwd ← loopDown numTeams (projBwdStage eq2proj p) bwd
  let out ← loopUp numTeams (projOut fwd bwd p) out
  some (fwd, bwd, out)

/-- project_inequality_constraint.hpp:45-90 `InequalityConstraint::project_inequality_constraint_update`.
`proj2eq` is the in/out parameter `rProject2EqConstraintM`; the new value is returned. -/
def projectInequalityUpdate (numTeams : ℕ) (eq2proj proj2eq : Mat Num) : Option (Mat Num) := do
  let fwd := Mat.fill (numTeams + 1) 2 0
  let bwd := Mat.fill (numTeams + 1) 2 0
  let (_, _, out) ← loopUp proj2eq.rows (projBody numTeams eq2proj) (fwd, bwd, proj2eq)
  some out

end Verif.Model
