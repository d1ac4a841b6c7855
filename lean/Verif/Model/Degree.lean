import Verif.Model.MinScan

/-!
Model of /repo/include/impalib/update_degree_constraint.hpp (the update; the filtering is in `Model/Filter.lean`).
`edges` models `rEdgeConnections` (rows of two entries) as a list of pairs.
-/

namespace Verif.Model
open Verif Num

/-- update_degree_constraint.hpp:79-92: indices pushed to `connections_first` (in the order of the loop). -/
def connFirst (edges : List (ℕ × ℕ)) (node : ℕ) : List ℕ :=
  (List.range edges.length).filter (fun i => match edges[i]? with
    | some e => node == e.1
    | none => false)

/-- update_degree_constraint.hpp:79-92: indices pushed to `connections_second` (`else if`, so self loops are skipped). -/
def connSecond (edges : List (ℕ × ℕ)) (node : ℕ) : List ℕ :=
  (List.range edges.length).filter (fun i => match edges[i]? with
    | some e => !(node == e.1) && node == e.2
    | none => false)

/-- update_degree_constraint.hpp:115-121 and 147-153: one output. -/
def degreeOut (fwd bwd : Arr Num) (node : ℕ) (e : ℕ) (out : Mat Num) : Option (Mat Num) := do
  let f ← fwd.rd e
  let b ← bwd.rd (e + 1)
  out.wr e node (-(cmin f b))

/-- update_degree_constraint.hpp:94-121 (and again 126-153): one group of edges of a node. -/
def degreeGroup (e2d : Mat Num) (node : ℕ) (l : List ℕ) (st : Arr Num × Arr Num × Mat Num) :
    Option (Arr Num × Arr Num × Mat Num) := do
  let (fwd, bwd, out) := st
  let fwd ← scanFwd (fun e => e2d.rd e node) l fwd
  let bwd ← scanBwd (fun e => e2d.rd e node) l bwd
  let out ← loopList l (degreeOut fwd bwd node) out
  some (fwd, bwd, out)

/-- update_degree_constraint.hpp:77-154: body of the loop over nodes.  The scratch arrays are reset (123-124) only
between the two groups, not at the start of a node. -/
def degreeNode (e2d : Mat Num) (edges : List (ℕ × ℕ)) (node : ℕ) (st : Arr Num × Arr Num × Mat Num) :
    Option (Arr Num × Arr Num × Mat Num) := do
  let (fwd, bwd, out) ← degreeGroup e2d node (connFirst edges node) st
  degreeGroup e2d node (connSecond edges node) (Arr.fill fwd.size 0, Arr.fill bwd.size 0, out)

/-- update_degree_constraint.hpp:70-155 `DegreeConstraint::degree_constraint_to_edge_ec_update`. -/
def degreeUpdate (numNodes numEdges : ℕ) (e2d : Mat Num) (edges : List (ℕ × ℕ)) (out : Mat Num) : Option (Mat Num) := do
  let (_, _, out) ← loopUp numNodes (degreeNode e2d edges) (Arr.fill (numEdges + 1) 0, Arr.fill (numEdges + 1) 0, out)
  some out

end Verif.Model
