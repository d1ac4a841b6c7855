import Verif.Arr

/-!
Model of /repo/include/impalib/knapsack.hpp: `forward`, `backward`, `extrinsic_output_department_lhs`.

All three functions only use the row of one department; the model takes that row: `nz` is
`rNonZeroWeightIndices[department_index]`, `sz` is `pNON_ZERO_WEIGHT_INDICES_SIZES_PY[department_index]`, `w` is
`rTeamsWeightsPerDepartment[department_index]`, `m` is `rTeam2KnapsackM[department_index]`.
Simplifications: weights are natural numbers (unit counts; negative weights are not modelled); `std::binary_search` and
`std::upper_bound` are given by their meaning on sorted ranges (membership; index of the first larger element).
-/

namespace Verif.Model
open Verif Num

/-- `std::upper_bound(v.begin(), v.end(), t) - v.begin()` on a sorted `v`. -/
def upperBound (v : List ℕ) (t : ℕ) : ℕ := v.findIdx (fun x => decide (t < x))

/-- `for (j = lo; j < hi; j++) table[j] = row;` -/
def fillUp (lo hi : ℕ) (row : Arr Num) (st : Mat Num) : Option (Mat Num) :=
  loopUp (hi - lo) (fun i st => st.wrRow (lo + i) row) st

/-- `for (j = hi; j > lo; j--) table[j] = row;` -/
def fillDown (hi lo : ℕ) (row : Arr Num) (st : Mat Num) : Option (Mat Num) :=
  loopDown (hi - lo) (fun i st => st.wrRow (lo + 1 + i) row) st

/-- knapsack.hpp:84-85: state 0 costs nothing, the other states are impossible. -/
def knapInitF (cap : ℕ) : Arr Num := ⟨cap + 1, fun a => if a = 0 then 0 else pinf⟩

/-- knapsack.hpp:102-118, one cell of forward stage `t + 1`. -/
def knapFwdCell (w : Arr ℕ) (m : Arr Num) (t : ℕ) (init : Arr Num) (a : ℕ) (st : Mat Num) : Option (Mat Num) := do
  let wt ← w.rd t
  if wt ≤ a ∧ ¬ (t = 0 ∧ a ≠ wt) then do
    let x ← init.rd a
    let y ← init.rd (a - wt)
    let mt ← m.rd t
    st.wr (t + 1) a (cmin x (y + mt))
  else do
    let x ← init.rd a
    st.wr (t + 1) a x

/-- knapsack.hpp:123-146: copy the current messages to the stages up to the next team with non-zero weight. -/
def knapFwdGap (T : ℕ) (nz : List ℕ) (t : ℕ) (init : Arr Num) (st : Mat Num) : Option (Mat Num) :=
  if nz.length ≠ T then
    if t + 1 ∉ nz then do
      let back ← nz.getLast?
      if t + 1 ≥ back ∧ t + 1 < T then fillUp (t + 2) (T + 1) init st
      else if t + 1 < back then do
        let next ← nz[upperBound nz t]?
        fillUp (t + 2) (next + 1) init st
      else some st
    else some st
  else some st

/-- knapsack.hpp:99-147, body of the loop over the teams with non-zero weight.  State: table and
`initial_forward_messages`. -/
def knapFwdBody (T cap : ℕ) (nz : List ℕ) (w : Arr ℕ) (m : Arr Num) (l : ℕ) (s : Mat Num × Arr Num) :
    Option (Mat Num × Arr Num) := do
  let (st, init) := s
  let t ← nz[l]?
  let st ← loopUp (cap + 1) (knapFwdCell w m t init) st
  let init ← st.rdRow (t + 1)
  let st ← knapFwdGap T nz t init st
  some (st, init)

/-- knapsack.hpp:76-148 `Knapsack::forward`. -/
def knapForward (T cap : ℕ) (nz : List ℕ) (sz : ℕ) (w : Arr ℕ) (m : Arr Num) (st : Mat Num) : Option (Mat Num) := do
  let init := knapInitF cap
  let st ← st.wrRow 0 init
  let first ← nz[0]?
  let st ← if first ≠ 0 then fillUp 1 (first + 1) init st else some st
  let (st, _) ← loopUp sz (knapFwdBody T cap nz w m) (st, init)
  some st

/-- knapsack.hpp:190-206, one cell of backward stage `t`. -/
def knapBwdCell (cap : ℕ) (w : Arr ℕ) (m : Arr Num) (t : ℕ) (init : Arr Num) (a : ℕ) (st : Mat Num) :
    Option (Mat Num) := do
  let wt ← w.rd t
  if (t > 0 ∧ a + wt ≤ cap) ∨ (a = 0 ∧ t = 0) then do
    let x ← init.rd a
    let y ← init.rd (a + wt)
    let mt ← m.rd t
    st.wr t a (cmin x (y + mt))
  else do
    let x ← init.rd a
    st.wr t a x

/-- knapsack.hpp:211-234: copy the current messages to the stages down to the previous team with non-zero weight.
`t - 1` is a signed `int` in the code; for `t = 0` it is `-1`, which is in no list and takes neither branch. -/
def knapBwdGap (T sz : ℕ) (nz : List ℕ) (t : ℕ) (init : Arr Num) (st : Mat Num) : Option (Mat Num) :=
  if (sz : ℤ) - 1 ≠ T then
    if t = 0 then some st
    else if t - 1 ∉ nz then do
      let first ← nz[0]?
      if t - 1 ≤ first then do
        let st ← fillDown (t - 1) 0 init st
        st.wrRow 0 init
      else do
        let next := upperBound nz (t - 1)
        let prev ← if next = 0 then none else nz[next - 1]?
        fillDown (t - 1) prev init st
    else some st
  else some st

/-- knapsack.hpp:187-235, body of the loop over the teams with non-zero weight. -/
def knapBwdBody (T cap sz : ℕ) (nz : List ℕ) (w : Arr ℕ) (m : Arr Num) (l : ℕ) (s : Mat Num × Arr Num) :
    Option (Mat Num × Arr Num) := do
  let (st, init) := s
  let t ← nz[l]?
  let st ← loopUp (cap + 1) (knapBwdCell cap w m t init) st
  let init ← st.rdRow t
  let st ← knapBwdGap T sz nz t init st
  some (st, init)

/-- knapsack.hpp:163-236 `Knapsack::backward`. -/
def knapBackward (T cap : ℕ) (nz : List ℕ) (sz : ℕ) (w : Arr ℕ) (m : Arr Num) (st : Mat Num) : Option (Mat Num) := do
  let init : Arr Num := Arr.fill (cap + 1) 0
  let st ← st.wrRow T init
  let last ← if sz = 0 then none else nz[sz - 1]?
  let first ← nz[0]?
  let st ← if (last : ℤ) ≠ (T : ℤ) - 1 then fillDown (T - 1) first init st else some st
  let (st, _) ← loopDown sz (knapBwdBody T cap sz nz w m) (st, init)
  some st

/-- `*min_element(v.begin(), v.end())`; dereferencing the end iterator of an empty range is out of range. -/
def minElement : List Num → Option Num
  | [] => none
  | x :: xs => some (xs.foldl cmin x)

/-- knapsack.hpp:281-296, one step of collecting the path metrics of a team. -/
def knapPaths (cap wt : ℕ) (mt : Num) (t : ℕ) (F B : Mat Num) (i : ℕ) (p : List Num × List Num) :
    Option (List Num × List Num) := do
  let (solid, dash) := p
  let solid ←
    if i + wt ≤ cap then do
      let f ← F.rd t i
      let b ← B.rd (t + 1) (i + wt)
      some (solid ++ [f + b + mt])
    else some solid
  let f ← F.rd t i
  let b ← B.rd (t + 1) i
  some (solid, dash ++ [f + b])

/-- knapsack.hpp:262-305, body of the loop over teams: `out` is the row of the department. -/
def knapOut (cap : ℕ) (w : Arr ℕ) (m : Arr Num) (F B : Mat Num) (t : ℕ) (out : Arr Num) : Option (Arr Num) := do
  let wt ← w.rd t
  if wt ≠ 0 then do
    let mt ← m.rd t
    let (solid, dash) ←
      if t = 0 then do
        let f ← F.rd t t
        let b ← B.rd (t + 1) wt
        let b0 ← B.rd (t + 1) 0
        some ([f + b + mt], [f + b0])
      else loopUp (cap + 1) (knapPaths cap wt mt t F B) ([], [])
    let s ← minElement solid
    let d ← minElement dash
    out.wr t (s - d - mt)
  else out.wr t 0

/-- knapsack.hpp:251-307 `Knapsack::extrinsic_output_department_lhs`, on the row of the department. -/
def knapExtrinsic (cap : ℕ) (w : Arr ℕ) (m : Arr Num) (F B : Mat Num) (out : Arr Num) : Option (Arr Num) :=
  loopUp w.size (knapOut cap w m F B) out

/-- graphical_model.hpp:145-157: the three calls in sequence for one department, with fresh tables. -/
def knapMessages (T cap : ℕ) (nz : List ℕ) (sz : ℕ) (w : Arr ℕ) (m : Arr Num) (out : Arr Num) : Option (Arr Num) := do
  let F ← knapForward T cap nz sz w m (Mat.fill (T + 1) (cap + 1) 0)
  let B ← knapBackward T cap nz sz w m (Mat.fill (T + 1) (cap + 1) 0)
  knapExtrinsic cap w m F B out

end Verif.Model
