import Verif.Model.MinScan

/-!
Model of /repo/include/impalib/subtour_elimination_constraint.hpp (the update; the filtering is in
`Model/Filter.lean`).  `deltas` models `rDeltaSIndicesList`.
-/

namespace Verif.Model
open Verif Num

/-- subtour_elimination_constraint.hpp:92-103: one output. -/
def subtourOut (fwd bwd : Arr Num) (c : ℕ) (e : ℕ) (out : Mat Num) : Option (Mat Num) := do
  let f ← fwd.rd e
  let b ← bwd.rd (e + 1)
  out.wr c e (cmin (-(cmin f b)) 0)

/-- subtour_elimination_constraint.hpp:65-104: body of the loop over constraints. -/
def subtourBody (e2s : Mat Num) (deltas : List (List ℕ)) (c : ℕ) (st : Arr Num × Arr Num × Mat Num) :
    Option (Arr Num × Arr Num × Mat Num) := do
  let (fwd, bwd, out) := st
  let l ← deltas[c]?
  let fwd ← scanFwd (fun e => e2s.rd c e) l fwd
  let bwd ← scanBwd (fun e => e2s.rd c e) l bwd
  let out ← loopList l (subtourOut fwd bwd c) out
  some (fwd, bwd, out)

/-- subtour_elimination_constraint.hpp:58-105 `SubtourEliminationConstraint::subtour_constraints_to_edge_ec_update`. -/
def subtourUpdate (numEdges : ℕ) (e2s : Mat Num) (deltas : List (List ℕ)) (out : Mat Num) : Option (Mat Num) := do
  let (_, _, out) ← loopUp deltas.length (subtourBody e2s deltas)
    (Arr.fill (numEdges + 1) 0, Arr.fill (numEdges + 1) 0, out)
  some out

end Verif.Model
