import Verif.Model.PyNp
import Verif.Model.TspRun

/-!
Model of the message passing of the pure Python TSP solver: /repo/test/python_tsp/src/update_degree_constraint.py,
subtour_elimination_constraint.py, update_equality_constraint.py, input_output.py and the two message passing loops of
graphical_model.py.
-/

namespace Verif.Model
open Verif Num

/-- update_degree_constraint.py:45: edges that start at the node. -/
def pyConnFirst (edges : List (ℕ × ℕ)) (node : ℕ) : List ℕ :=
  (List.range edges.length).filter (fun i => edges[i]?.elim false (fun e => node == e.1))

/-- update_degree_constraint.py:57: edges that end at the node. -/
def pyConnSecond (edges : List (ℕ × ℕ)) (node : ℕ) : List ℕ :=
  (List.range edges.length).filter (fun i => edges[i]?.elim false (fun e => node == e.2))

/-- update_degree_constraint.py:47, 59 and subtour_elimination_constraint.py:48: `l[:i] + l[i + 1 :]`. -/
def pyRemaining (l : List ℕ) (i : ℕ) : List ℕ := l.take i ++ l.drop (i + 1)

/-- update_degree_constraint.py:46-56 and again 58-68: one group of edges of a node. -/
def pyDegreeGroup (e2d : Mat Num) (node : ℕ) (l : List ℕ) (out : Mat Num) : Option (Mat Num) :=
  loopUp l.length (fun i out => do
    let e ← l[i]?
    let xs ← (pyRemaining l i).mapM (fun j => e2d.rd j node)
    let m ← npMin xs
    out.wr e node (-m)) out

/-- update_degree_constraint.py:26-70 `DegreeConstraint.degree_constraint_to_edge_ec_update`. -/
def pyDegreeUpdate (numNodes numEdges : ℕ) (e2d : Mat Num) (edges : List (ℕ × ℕ)) : Option (Mat Num) :=
  loopUp numNodes (fun node out => do
    let out ← pyDegreeGroup e2d node (pyConnFirst edges node) out
    pyDegreeGroup e2d node (pyConnSecond edges node) out) (Mat.fill numEdges numNodes 0)

/-- subtour_elimination_constraint.py:24-65 `SubtourEliminationConstraint.subtour_constraints_to_edge_ec_update`; `min` is
the builtin on a numpy vector, an error if it is empty.  The table is built transposed and transposed back (61). -/
def pySubtourUpdate (numEdges : ℕ) (e2s : Mat Num) (deltas : List (List ℕ)) : Option (Mat Num) :=
  loopUp deltas.length (fun c out => do
    let l ← deltas[c]?
    loopUp l.length (fun i out => do
      let e ← l[i]?
      let xs ← (pyRemaining l i).mapM (fun j => e2s.rd c j)
      let m ← minElement xs
      out.wr c e (-(npMax2 m 0))) out) (Mat.fill deltas.length numEdges 0)

/-- update_equality_constraint.py:114-122 `EqualityConstraint.flip_matrix`. -/
def pyFlip (m : Mat Num) (edges : List (ℕ × ℕ)) : Option (Mat Num) :=
  loopUp edges.length (fun i out => do
    let e ← edges[i]?
    let x ← m.rd i e.2
    let out ← out.wr i e.1 x
    let y ← m.rd i e.1
    out.wr i e.2 y) m

/-- update_equality_constraint.py:31-37 `edge_ec_to_degree_constraint_relaxed_graph_update`. -/
def pyEdgeToDegreeRelaxed (edges : List (ℕ × ℕ)) (cost deg : Mat Num) : Option (Mat Num) := do
  let f ← pyFlip deg edges
  npAdd2 f cost

/-- `v = np.zeros(n); v[l] = f(l)`: assignment at a list of indices. -/
def pyAssign (n : ℕ) (l : List ℕ) (f : ℕ → Option Num) : Option (Arr Num) :=
  loopList l (fun e out => do
    let x ← f e
    out.wr e x) (Arr.fill n 0)

/-- `np.sum(m, axis=1)[e]`. -/
def npRowSum (m : Mat Num) (e : ℕ) : Option Num :=
  if e < m.rows then some (npSum ((List.range m.cols).map (m.data e))) else none

/-- `np.sum(np.array(m).T[:, rows], axis=1)[e]`: the sum of entry `e` of the given rows. -/
def pySumRows (m : Mat Num) (rows : List ℕ) (e : ℕ) : Option Num := do
  let xs ← rows.mapM (fun k => m.rd k e)
  some (npSum xs)

/-- update_equality_constraint.py:39-90 `edge_ec_to_subtour_constraints_update`. -/
def pyEdgeToSubtour (numEdges : ℕ) (deg s2e : Mat Num) (deltas : List (List ℕ)) (cost : Arr Num) : Option (Mat Num) :=
  if deltas.length = 1 then do
    let l ← deltas[0]?
    let row ← pyAssign numEdges l (fun e => do
      let d ← npRowSum deg e
      let c ← cost.rd e
      some (d + c))
    some ⟨1, numEdges, fun _ => row.data⟩
  else
    Mat.genM deltas.length numEdges (fun k => do
      let l ← deltas[k]?
      let d ← pyAssign numEdges l (npRowSum deg)
      let c ← pyAssign numEdges l cost.rd
      let s ← pyAssign numEdges l (pySumRows s2e ((List.range deltas.length).filter (fun j => decide (j ≠ k))))
      let ds ← npAdd1 d s
      npAdd1 ds c)

/-- update_equality_constraint.py:92-112 `edge_ec_to_degree_constraint_augmented_graph_update`; without any subtour
constraint the sum over axis 1 is an error. -/
def pyEdgeToDegreeAugmented (edges : List (ℕ × ℕ)) (cost deg s2e : Mat Num) : Option (Mat Num) :=
  if s2e.rows = 0 then none else do
    let f ← pyFlip deg edges
    let r ← loopUp edges.length (fun i out => do
      let e ← edges[i]?
      let x ← (npSumAxis0 s2e).rd i
      let out ← out.wr i e.1 x
      out.wr i e.2 x) (Mat.fill f.rows f.cols 0)
    let rf ← npAdd2 r f
    npAdd2 rf cost

/-- The members that change in the loops: `edge_ec_to_degree_constraint_m`, `degree_constraint_to_eq_constraint_m` and
`degree_constraint_to_eq_constraint_m_old` of the degree constraint, `subtour_constraints_to_edge_ec_m` and
`subtour_constraints_to_edge_ec_m_old` of the subtour constraint; `none` for those that are not set yet. -/
structure PyTspState where
  e2d : Mat Num
  deg : Option (Mat Num)
  degOld : Option (Mat Num)
  s2e : Mat Num
  subOld : Option (Mat Num)

/-- graphical_model.py:178-186, one iteration of `iterate_relaxed_graph`. -/
def pyTspRelaxedIter (inp : TspInputs) (iter : ℕ) (st : PyTspState) : Option PyTspState := do
  let dummy ← pyDegreeUpdate inp.numNodes inp.numEdges st.e2d inp.edges
  let (deg, degOld) ← pyFilter inp.flag inp.alpha iter dummy st.degOld
  let e2d ← pyEdgeToDegreeRelaxed inp.edges inp.degCost deg
  some { st with e2d := e2d, deg := some deg, degOld := degOld }

/-- graphical_model.py:175-190 `iterate_relaxed_graph` with input_output.py:23-30; returns the state and the intrinsic
outputs. -/
def pyTspRelaxed (inp : TspInputs) (numIter : ℕ) (st : PyTspState) : Option (PyTspState × Arr Num) := do
  let st ← loopUp numIter (pyTspRelaxedIter inp) st
  let deg ← st.deg
  let ext ← Arr.genM deg.rows (npRowSum deg)
  let intr ← npAdd1 ext inp.cost
  some (st, intr)

/-- graphical_model.py:266-291, one iteration of `iterate_augmented_graph`. -/
def pyTspAugmentedIter (inp : TspInputs) (deltas : List (List ℕ)) (iter : ℕ) (st : PyTspState) : Option PyTspState := do
  let dummy ← pyDegreeUpdate inp.numNodes inp.numEdges st.e2d inp.edges
  let (deg, degOld) ← pyFilter inp.flag inp.alpha iter dummy st.degOld
  let e2s ← pyEdgeToSubtour inp.numEdges deg st.s2e deltas inp.cost
  let subDummy ← pySubtourUpdate inp.numEdges e2s deltas
  let (s2e, subOld) ← pyFilter inp.flag inp.alpha iter subDummy st.subOld
  let e2d ← pyEdgeToDegreeAugmented inp.edges inp.degCost deg s2e
  some ⟨e2d, some deg, degOld, s2e, subOld⟩

/-- graphical_model.py:253-261: reset of the messages from edges to degree constraints. -/
def pyTspReset (inp : TspInputs) (e2d : Mat Num) : Option (Mat Num) :=
  loopUp inp.edges.length (fun i e2d => do
    let e ← inp.edges[i]?
    let cost ← inp.costMatrix.rd e.1 e.2
    let e2d ← e2d.wr i e.1 cost
    e2d.wr i e.2 cost) e2d

/-- graphical_model.py:250-298 `iterate_augmented_graph` with input_output.py:32-43; returns the state and the intrinsic
outputs. -/
def pyTspAugmented (inp : TspInputs) (reset : Bool) (deltas : List (List ℕ)) (numIter : ℕ) (st : PyTspState) :
    Option (PyTspState × Arr Num) := do
  let e2d ← (if reset then pyTspReset inp st.e2d else some st.e2d)
  let st ← loopUp numIter (pyTspAugmentedIter inp deltas) { st with e2d := e2d }
  let deg ← st.deg
  let d ← Arr.genM deg.rows (npRowSum deg)
  let ext ← (if st.s2e.rows = 0 then none else npAdd1 d (npSumAxis0 st.s2e))
  let intr ← npAdd1 ext inp.cost
  some (st, intr)

/-- graphical_model.py:199-200, 214-215: zero messages for new subtour constraints. -/
def pyTspAddCuts (k : ℕ) (st : PyTspState) : PyTspState := { st with s2e := Mat.pushZeros k st.s2e }

end Verif.Model
