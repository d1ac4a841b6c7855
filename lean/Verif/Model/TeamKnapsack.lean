import Verif.Arr

/-!
Model of /repo/include/impalib/knapsack.hpp: `team_to_knapsack_update`.  `nzs` is `rNonZeroWeightIndices`.
-/

namespace Verif.Model
open Verif Num

/-- `set_intersection(a, b, buffer of size cap)` on sorted ranges without repetitions: the elements of `a` that are in
`b`; writing past the end of the buffer is undefined. -/
def setIntersection (cap : ℕ) (a b : List ℕ) : Option (List ℕ) :=
  let r := a.filter (fun l => decide (l ∈ b))
  if r.length ≤ cap then some r else none

/-- `v.erase(std::find(v.begin(), v.end(), l))`; erasing the end iterator (element not found) is undefined. -/
def eraseFound (v : List ℕ) (l : ℕ) : Option (List ℕ) := if l ∈ v then some (v.erase l) else none

/-- knapsack.hpp:345-355, body of the loop over the teams shared by departments `d` and `t`.  State: messages and
`unique_edge_department`. -/
def teamToKnapShared (reward : Arr Num) (ext : Mat Num) (oric : Arr Num) (d t l : ℕ) (s : Mat Num × List ℕ) :
    Option (Mat Num × List ℕ) := do
  let r ← reward.rd l
  let x ← ext.rd t l
  let o ← oric.rd l
  let m ← s.1.wr d l (r + x + o)
  let u ← eraseFound s.2 l
  some (m, u)

/-- knapsack.hpp:334-357, body of the loop over the other departments. -/
def teamToKnapOther (numTeams : ℕ) (nzs : List (List ℕ)) (reward : Arr Num) (ext : Mat Num) (oric : Arr Num) (d t : ℕ)
    (s : Mat Num × List ℕ) : Option (Mat Num × List ℕ) := do
  let a ← nzs[d]?
  let b ← nzs[t]?
  let inter ← setIntersection numTeams a b
  loopList inter (teamToKnapShared reward ext oric d t) s

/-- knapsack.hpp:360-363, body of the loop over the teams left in `unique_edge_department`. -/
def teamToKnapUnique (reward oric : Arr Num) (d u : ℕ) (m : Mat Num) : Option (Mat Num) := do
  let r ← reward.rd u
  let o ← oric.rd u
  m.wr d u (r + o)

/-- knapsack.hpp:325-364, body of the loop over departments.  `remaining_departments` is `0..numDepartments-1` without
position `d`. -/
def teamToKnapDept (numDepartments numTeams : ℕ) (nzs : List (List ℕ)) (reward : Arr Num) (ext : Mat Num) (oric : Arr Num)
    (d : ℕ) (m : Mat Num) : Option (Mat Num) := do
  let u ← nzs[d]?
  let rest ← if d < numDepartments then some ((List.range numDepartments).eraseIdx d) else none
  let (m, u) ← loopList rest (teamToKnapOther numTeams nzs reward ext oric d) (m, u)
  loopList u (teamToKnapUnique reward oric d) m

/-- knapsack.hpp:320-365 `Knapsack::team_to_knapsack_update`. -/
def teamToKnapsack (numDepartments numTeams : ℕ) (nzs : List (List ℕ)) (m : Mat Num) (reward : Arr Num) (ext : Mat Num)
    (oric : Arr Num) : Option (Mat Num) :=
  loopUp ext.rows (teamToKnapDept numDepartments numTeams nzs reward ext oric) m

end Verif.Model
