import Verif.Model.KcRun
import Verif.Spec.KcRun

/-! Well-formed inputs of the assignment solver. -/

namespace Verif.Spec
open Verif Model

/-- The inputs describe the problem with weights `wf d t`, capacities `cap d`, team costs `w t` and pair costs `R p t`: at
least one project, every department used by some team, every team fits alone in each of its departments and uses at most
two departments, all costs finite. -/
structure KcOk (inp : KcInputs) (wf : ℕ → ℕ → ℕ) (cap : ℕ → ℕ) (w : ℕ → ℚ) (R : ℕ → ℕ → ℚ) : Prop where
  projects : 0 < inp.numProjects
  cap_size : inp.maxState.size = inp.numDepartments
  cap_data : ∀ d < inp.numDepartments, inp.maxState.data d = cap d
  nzs_length : inp.nzs.length = inp.numDepartments
  sizes_size : inp.sizes.size = inp.numDepartments
  weights_rows : inp.weights.rows = inp.numDepartments
  dept : ∀ d < inp.numDepartments, DeptOk inp.numTeams (cap d) (inp.nzs.getD d []) (inp.sizes.data d)
    ⟨inp.weights.cols, inp.weights.data d⟩ (wf d)
  two : ∀ t < inp.numTeams, (depts inp.numDepartments wf t).card ≤ 2
  reward : inp.reward.Is inp.numTeams w
  rewardProject : inp.rewardProject.Is inp.numProjects inp.numTeams R

end Verif.Spec
