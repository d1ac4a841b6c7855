import Verif.Model.PyNp
import Verif.Model.KsatRun

/-!
Model of the pure Python k-SAT solver: /repo/test/python_ksat/src/update_ksat_constraint.py,
update_equality_constraint.py, input_output.py and the loop of graphical_model.py.  The lists of lists `constraint_connections` and
`constraint_connections_type` are the tables `conx` and `ty` that the C++ solver receives (Python would also accept clauses
of different lengths).
-/

namespace Verif.Model
open Verif Num

/-- update_ksat_constraint.py:35-36: the variables of clause `c`, other than `v`, whose literal has type `s`. -/
def pyOthers (conx : Mat ℕ) (ty : Mat ℤ) (c v : ℕ) (s : ℤ) : List ℕ :=
  ((List.range conx.cols).filter (fun i => decide (ty.data c i = s) && decide (conx.data c i ≠ v))).map (conx.data c)

/-- update_ksat_constraint.py:37-44: `optimum_solid_messages`.  Both results of `np.where` are computed before one is
chosen; on an empty list the first branch is taken. -/
def pySolid (V : Mat Num) (conx : Mat ℕ) (ty : Mat ℤ) (c v : ℕ) (s : ℤ) : Option Num :=
  if (pyOthers conx ty c v 1).length = 0 then some (if s = 1 then ninf else pinf)
  else do
    let x ← (pyOthers conx ty c v 1).mapM (V.rd c)
    let a ← npMax (x.map (fun y => -y))
    let b ← npMin x
    some (if s = 1 then a else b)

/-- update_ksat_constraint.py:45-52: `optimum_dashed_messages`. -/
def pyDashed (V : Mat Num) (conx : Mat ℕ) (ty : Mat ℤ) (c v : ℕ) (s : ℤ) : Option Num :=
  if (pyOthers conx ty c v (-1)).length = 0 then some (if s = 1 then ninf else pinf)
  else do
    let x ← (pyOthers conx ty c v (-1)).mapM (V.rd c)
    let a ← npMax x
    let b ← npMin (x.map (fun y => -y))
    some (if s = 1 then a else b)

/-- update_ksat_constraint.py:34-57, body of the loop over the variables of clause `c`. -/
def pyKsatOut (V : Mat Num) (conx : Mat ℕ) (ty : Mat ℤ) (c i : ℕ) (out : Mat Num) : Option (Mat Num) := do
  let v ← conx.rd c i
  let s ← ty.rd c i
  let a ← pySolid V conx ty c v s
  let b ← pyDashed V conx ty c v s
  out.wr c v (if s = 1 then cmin 0 (cmax a b) else cmax 0 (cmin a b))

/-- update_ksat_constraint.py:27-59 `KSatConstraint.ksat_constraint_to_variable_ec_update`. -/
def pyKsatUpdate (C n : ℕ) (V : Mat Num) (conx : Mat ℕ) (ty : Mat ℤ) : Option (Mat Num) :=
  loopUp C (fun c out => loopUp conx.cols (pyKsatOut V conx ty c) out) (Mat.fill C n 0)

/-- update_equality_constraint.py:36-37 (and graphical_model.py:188-190): costs of the used variables, zero for the
others. -/
def pyUsedCosts (n : ℕ) (used : List ℕ) (cost : Arr Num) : Option (Arr Num) :=
  loopList used (fun v out => do
    let c ← cost.rd v
    out.wr v c) (Arr.fill n 0)

/-- update_equality_constraint.py:31-46 `EqualityConstraint.variable_ec_to_ksat_constraint_update`. -/
def pyVariableUpdate (C n : ℕ) (K : Mat Num) (used : List ℕ) (cost : Arr Num) (conns : List (List ℕ)) :
    Option (Mat Num) := do
  let costs ← pyUsedCosts n used cost
  let sums ← npAdd1 (npSumAxis0 K) costs
  loopList used (fun v out => do
    let l ← conns[v]?
    loopList l (fun c out => do
      let s ← sums.rd v
      let x ← K.rd c v
      out.wr c v (s - x)) out) (Mat.fill C n 0)

/-- The members of the Python solver that change in the loop: `variable_ec_to_ksat_constraint_m`,
`ksat_constraint_to_eq_constraint_m_old` (`none` until set) and `extrinsic_output_variable_ec`. -/
structure PyKsatState where
  v2k : Mat Num
  old : Option (Mat Num)
  extr : Arr Num

/-- graphical_model.py:171-181, one iteration of `GraphicalModelKsat.run_impa`. -/
def pyKsatIter (inp : KsatInputs) (iter : ℕ) (st : PyKsatState) : Option PyKsatState := do
  let dummy ← pyKsatUpdate inp.numConstraints inp.numVars st.v2k inp.conx inp.conxType
  let (k2v, old) ← pyFilter inp.flag inp.alpha iter dummy st.old
  let v2k ← pyVariableUpdate inp.numConstraints inp.numVars k2v inp.used inp.cost inp.conns
  some ⟨v2k, old, npSumAxis0 k2v⟩

/-- graphical_model.py:165-187 `GraphicalModelKsat.run_impa`, the extrinsic outputs. -/
def pyKsatSolve (inp : KsatInputs) (v2k : Mat Num) (numIter : ℕ) : Option (Arr Num) := do
  let st ← loopUp numIter (pyKsatIter inp) ⟨v2k, none, Arr.fill inp.numVars 0⟩
  some st.extr

end Verif.Model
