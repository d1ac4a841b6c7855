import Verif.Model.TspIO
import Verif.Model.KsatIO

/-!
The readers of the native side (/repo/include/impalib/input_output.hpp) with 32-bit `int`: the products and sums of `int` that give positions in the
arguments are computed step by step, and a result above `INT_MAX` (undefined in C++) is `none`.  The numbers of nodes, edges, teams and so on are
arguments of type `int` and therefore in range.  Adding an `int` to a pointer does not overflow.  All else is as in `tspDecode`, `kcDecode` and
`ksatDecode`.
-/

namespace Verif.Model.Int32
open Verif Num Model

/-- The value of an `int` expression. -/
def chk (x : ℕ) : Option ℕ := if x ≤ 2147483647 then some x else none

/-- `copy(p + w * i, p + w * (i + 1), ..)`. -/
def row {α : Type} (mem : List α) (w i : ℕ) : Option (List α) := do
  let a ← chk (w * i)
  let j ← chk (i + 1)
  let b ← chk (w * j)
  slice mem a b

/-- input_output.hpp:242-263. -/
def tspDecode (n numEdges : ℕ) (flag : Bool) (alpha : ℚ) (f : TspFlat) : Option (TspInputs × Mat Num) := do
  let costs ← slice f.costs 0 numEdges
  let (edges, e2d, degCost) ← loopUp numEdges (fun i s => do
      let p ← row f.edges 2 i
      let u ← p[0]?
      let v ← p[1]?
      let a ← row f.e2d n i
      let a ← s.2.1.wrRow i (Arr.ofList a)
      let d ← row f.degCost n i
      let d ← s.2.2.wrRow i (Arr.ofList d)
      some (s.1 ++ [(u, v)], a, d))
    (([] : List (ℕ × ℕ)), Mat.fill numEdges n (0 : Num), Mat.fill numEdges n (0 : Num))
  let matrix ← loopUp n (fun v m => do
      let r ← row f.matrix n v
      m.wrRow v (Arr.ofList r)) (Mat.fill n n (0 : Num))
  some ({ numNodes := n, numEdges := numEdges, edges := edges, cost := Arr.ofList costs, costMatrix := matrix, degCost := degCost,
          flag := flag, alpha := alpha }, e2d)

/-- input_output.hpp:62-108. -/
def kcDecode (numDepartments numTeams numProjects : ℕ) (flag : Bool) (alpha : ℚ) (f : KcFlat) : Option (KcInputs × Mat Num) := do
  let reward ← slice f.reward 0 numTeams
  let maxState ← slice f.maxState 0 numDepartments
  let (nzs, a, weights) ← loopUp numDepartments (fun d s => do
      let size ← f.sizes[d]?
      let a ← row f.messages numTeams d
      let a ← s.2.1.wrRow d (Arr.ofList a)
      let w ← row f.weights numTeams d
      let w ← s.2.2.wrRow d (Arr.ofList w)
      let start ← chk (f.maxSize * d)
      let nz ← slice f.nz start (size + start)
      some (s.1 ++ [nz], a, w))
    (([] : List (List ℕ)), Mat.fill numDepartments numTeams (0 : Num), Mat.fill numDepartments numTeams (0 : ℕ))
  let rewardProject ← loopUp numProjects (fun p m => do
      let r ← row f.rewardProject numTeams p
      m.wrRow p (Arr.ofList r)) (Mat.fill numProjects numTeams (0 : Num))
  some ({ numDepartments := numDepartments, numTeams := numTeams, numProjects := numProjects, flag := flag, alpha := alpha,
          reward := Arr.ofList reward, maxState := Arr.ofList maxState, nzs := nzs, sizes := Arr.ofList f.sizes,
          weights := weights, rewardProject := rewardProject }, a)

/-- input_output.hpp:141: `project_index + team_index + project_index * (numTeams_ - 1)`, for at least one team. -/
def mwmIndex (numTeams p t : ℕ) : Option ℕ := do
  let a ← chk (p + t)
  let b ← chk (p * (numTeams - 1))
  chk (a + b)

/-- input_output.hpp:390-428. -/
def ksatDecode (numVars numConstraints numUsed k : ℕ) (flag : Bool) (alpha : ℚ) (f : KsatFlat) : Option (KsatInputs × Mat Num) := do
  let used ← slice f.used 0 numUsed
  let cost ← slice f.cost 0 numVars
  let sizes ← slice f.sizes 0 numVars
  let (conx, ty, v2k) ← loopUp numConstraints (fun i s => do
      let c ← row f.conx k i
      let conx ← s.1.wrRow i (Arr.ofList c)
      let t ← row f.conxType k i
      let ty ← s.2.1.wrRow i (Arr.ofList t)
      let m ← row f.messages numVars i
      let v2k ← s.2.2.wrRow i (Arr.ofList m)
      some (conx, ty, v2k))
    (Mat.fill numConstraints k (0 : ℕ), Mat.fill numConstraints k (0 : ℤ), Mat.fill numConstraints numVars (0 : Num))
  let (conns, _) ← loopUp numVars (fun j s =>
      if j ∈ used then do
        let size ← sizes[j]?
        let l ← slice f.conns s.2 (s.2 + size)
        let next ← chk (s.2 + size)
        some (s.1 ++ [l], next)
      else some (s.1 ++ [[]], s.2))
    (([] : List (List ℕ)), 0)
  some ({ numVars := numVars, numConstraints := numConstraints, k := k, flag := flag, alpha := alpha, used := used,
          conns := conns, conx := conx, conxType := ty, cost := Arr.ofList cost }, v2k)

end Verif.Model.Int32
