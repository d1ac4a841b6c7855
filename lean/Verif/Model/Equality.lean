import Verif.Model.Filter

/-!
Model of /repo/include/impalib/update_equality_constraint.hpp.  `edges` models `rEdgeConnections` as a list of pairs,
`deltas` models `rDeltaSIndicesList`.
-/

namespace Verif

/-- `v.push_back(row)` on a vector of rows (rows of other lengths would make the table ragged: rejected). -/
def Mat.pushRow {α : Type} (m : Mat α) (row : Arr α) : Option (Mat α) :=
  if row.size = m.cols then some ⟨m.rows + 1, m.cols, fun k l => if k = m.rows then row.data l else m.data k l⟩
  else none

end Verif

namespace Verif.Model
open Verif Num

/-- update_equality_constraint.hpp:182-188, 235-240: `acc` plus every row of the table, row by row. -/
def addRows (m : Mat Num) (acc : Arr Num) : Option (Arr Num) :=
  loopUp m.rows (fun c acc => do
    let row ← m.rdRow c
    acc.addTo row acc) acc

/-- update_equality_constraint.hpp:80-84: `intermediate` plus every row; here the row is the first operand. -/
def addRowsL (m : Mat Num) (acc : Arr Num) : Option (Arr Num) :=
  loopUp m.rows (fun c acc => do
    let row ← m.rdRow c
    row.addTo acc acc) acc

/-- update_equality_constraint.hpp:74-88 `EqualityConstraint::team_eq_constraint_to_oric_update`. -/
def teamToOric (numTeams : ℕ) (dept : Mat Num) (team2oric reward : Arr Num) : Option (Arr Num) := do
  let s ← addRowsL dept (Arr.fill numTeams 0)
  s.addTo reward team2oric

/-- update_equality_constraint.hpp:98-108 `EqualityConstraint::project_eq_constraint_to_oric_update`. -/
def projectToOric (proj2eq eq2oric reward : Mat Num) : Option (Mat Num) :=
  loopUp proj2eq.rows (fun p out => do
    let x ← proj2eq.rdRow p
    let r ← reward.rdRow p
    let o ← out.rdRow p
    let row ← x.addTo r o
    out.wrRow p row) eq2oric

/-- update_equality_constraint.hpp:266-279 `EqualityConstraint::flip_matrix`. -/
def flipMatrix (m : Mat Num) (edges : List (ℕ × ℕ)) (flipped : Mat Num) : Option (Mat Num) :=
  loopUp edges.length (fun l out => do
    let e ← edges[l]?
    let x ← m.rd l e.2
    let out ← out.wr l e.1 x
    let y ← m.rd l e.1
    out.wr l e.2 y) flipped

/-- update_equality_constraint.hpp:120-136 `EqualityConstraint::edge_ec_to_degree_constraint_relaxed_graph_update`. -/
def edgeToDegreeRelaxed (numEdges : ℕ) (edges : List (ℕ × ℕ)) (cost d2e e2d : Mat Num) : Option (Mat Num) := do
  let flipped ← flipMatrix d2e edges d2e
  loopUp numEdges (fun e out => do
    let x ← flipped.rdRow e
    let c ← cost.rdRow e
    let o ← out.rdRow e
    let row ← x.addTo c o
    out.wrRow e row) e2d

/-- update_equality_constraint.hpp:163-169 and 189-195: sum of the two degree messages of each edge. -/
def combineDegree (numEdges : ℕ) (edges : List (ℕ × ℕ)) (d2e : Mat Num) : Option (Arr Num) :=
  loopUp numEdges (fun i out => do
    let e ← edges[i]?
    let x ← d2e.rd i e.1
    let y ← d2e.rd i e.2
    out.wr i (x + y)) (Arr.fill numEdges 0)

/-- update_equality_constraint.hpp:151-216 `EqualityConstraint::edge_ec_to_subtour_constraints_update`.
The result is the vector of rows it returns. -/
def edgeToSubtour (numEdges : ℕ) (deltas : List (List ℕ)) (cost : Arr Num) (d2e s2e : Mat Num) (edges : List (ℕ × ℕ)) :
    Option (Mat Num) :=
  if deltas.length = 1 then do
    let comb ← combineDegree numEdges edges d2e
    let l ← deltas[0]?
    let row ← loopList l (fun e row => do
      let x ← comb.rd e
      let c ← cost.rd e
      row.wr e (x + c)) (Arr.fill numEdges 0)
    (⟨0, numEdges, fun _ _ => 0⟩ : Mat Num).pushRow row
  else do
    let sub ← addRows s2e (Arr.fill numEdges 0)
    let comb ← combineDegree numEdges edges d2e
    loopUp deltas.length (fun i out => do
      let l ← deltas[i]?
      let row ← loopList l (fun e row => do
        let s ← sub.rd e
        let x ← comb.rd e
        let c ← cost.rd e
        let own ← s2e.rd i e
        row.wr e (s + x + c - own)) (Arr.fill numEdges 0)
      out.pushRow row) (⟨0, numEdges, fun _ _ => 0⟩ : Mat Num)

/-- update_equality_constraint.hpp:229-255 `EqualityConstraint::edge_ec_to_degree_constraint_augmented_graph_update`. -/
def edgeToDegreeAugmented (numEdges : ℕ) (d2e s2e : Mat Num) (edges : List (ℕ × ℕ)) (cost e2d : Mat Num) :
    Option (Mat Num) := do
  let sub ← addRows s2e (Arr.fill numEdges 0)
  loopUp edges.length (fun i out => do
    let e ← edges[i]?
    let s ← sub.rd i
    let x ← d2e.rd i e.2
    let c ← cost.rd i e.1
    let out ← out.wr i e.1 (s + x + c)
    let y ← d2e.rd i e.1
    let c' ← cost.rd i e.2
    out.wr i e.2 (s + y + c')) e2d

/-- update_equality_constraint.hpp:298-302: costs of the used variables, zero for the others. -/
def usedCosts (numVars : ℕ) (used : List ℕ) (cost : Arr Num) : Option (Arr Num) :=
  loopList used (fun n out => do
    let c ← cost.rd n
    out.wr n c) (Arr.fill numVars 0)

/-- update_equality_constraint.hpp:304-311: total message of every variable. -/
def variableSums (numVars : ℕ) (k2v : Mat Num) (conns : List (List ℕ)) (costs : Arr Num) : Option (Arr Num) :=
  loopUp numVars (fun i sums => do
    let l ← conns[i]?
    let sums ← loopList l (fun c sums => do
      let s ← sums.rd i
      let x ← k2v.rd c i
      sums.wr i (s + x)) sums
    let s ← sums.rd i
    let c ← costs.rd i
    sums.wr i (s + c)) (Arr.fill numVars 0)

/-- update_equality_constraint.hpp:313-324: write sum minus own message if it is larger in magnitude than the entry. -/
def variableOut (sums : Arr Num) (k2v : Mat Num) (conns : List (List ℕ)) (v : ℕ) (out : Mat Num) : Option (Mat Num) := do
  let l ← conns[v]?
  loopList l (fun c out => do
    let o ← out.rd c v
    let s ← sums.rd v
    let x ← k2v.rd c v
    if lt (abs o) (abs (s - x)) then out.wr c v (s - x) else some out) out

/-- update_equality_constraint.hpp:291-325 `EqualityConstraint::variable_ec_to_ksat_constraint_update`.
Lines 294-296 first reset the output to zero. -/
def variableToKsat (numVars : ℕ) (k2v v2k : Mat Num) (used : List ℕ) (cost : Arr Num) (conns : List (List ℕ)) :
    Option (Mat Num) := do
  let out := Mat.fill v2k.rows v2k.cols 0
  let costs ← usedCosts numVars used cost
  let sums ← variableSums numVars k2v conns costs
  loopList used (variableOut sums k2v conns) out

end Verif.Model
