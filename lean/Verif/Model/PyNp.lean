import Verif.Model.Knapsack

/-!
# numpy operations used by the pure Python solvers

The pure Python solvers (/repo/test/python_kc_mwm/src, /repo/test/python_ksat/src, /repo/test/python_tsp/src) work on
numpy arrays of doubles.  A numpy array of one or two dimensions is an `Arr` or a `Mat`.  Exceptions (`IndexError`,
`ValueError` for the minimum of nothing, `UnboundLocalError`) are `none`.  Simplification: negative indices, which count
from the end in Python, do not occur (indices are natural numbers).
-/

namespace Verif

/-- An array computed entry by entry; an exception in any entry is an exception. -/
def Arr.genM (n : ℕ) (f : ℕ → Option Num) : Option (Arr Num) :=
  ((List.range n).mapM f).map (fun l => ⟨n, fun i => l.getD i 0⟩)

/-- A table computed row by row. -/
def Mat.genM (m n : ℕ) (f : ℕ → Option (Arr Num)) : Option (Mat Num) :=
  ((List.range m).mapM f).map (fun l => ⟨m, n, fun i j => (l.getD i (Arr.fill n 0)).data j⟩)

end Verif

namespace Verif.Model
open Verif Num

/-- `np.minimum(a, b)` on numbers: a NaN wins. -/
def npMin2 (a b : Num) : Num := if a = nan ∨ b = nan then nan else cmin a b

/-- `np.maximum(a, b)` on numbers: a NaN wins. -/
def npMax2 (a b : Num) : Num := if a = nan ∨ b = nan then nan else cmax a b

/-- `np.min(v)`; `ValueError` on an empty array. -/
def npMin : List Num → Option Num
  | [] => none
  | x :: xs => some (xs.foldl npMin2 x)

/-- `np.max(v)`; `ValueError` on an empty array. -/
def npMax : List Num → Option Num
  | [] => none
  | x :: xs => some (xs.foldl npMax2 x)

/-- `np.sum(v)`. -/
def npSum (l : List Num) : Num := l.foldl (· + ·) 0

/-- `a + b` for two arrays of the same shape. -/
def npAdd1 (a b : Arr Num) : Option (Arr Num) :=
  if a.size = b.size then some ⟨a.size, fun i => a.data i + b.data i⟩ else none

/-- `a + b` for two tables of the same shape. -/
def npAdd2 (a b : Mat Num) : Option (Mat Num) :=
  if a.rows = b.rows ∧ a.cols = b.cols then some ⟨a.rows, a.cols, fun i j => a.data i j + b.data i j⟩ else none

/-- `c * a` for a number and a table. -/
def npScale (c : Num) (a : Mat Num) : Mat Num := ⟨a.rows, a.cols, fun i j => c * a.data i j⟩

/-- `np.sum(m, axis=0)`: python_ksat/src/update_equality_constraint.py:39 (first part) and input_output.py:20-21
`extrinsic_output_variable_ec_update`. -/
def npSumAxis0 (m : Mat Num) : Arr Num := ⟨m.cols, fun j => npSum ((List.range m.rows).map (fun i => m.data i j))⟩

/-- The filtering functions, all with the same text: python_kc_mwm/src/knapsack.py:136-149
`process_extrinsic_output_department`, python_ksat/src/update_ksat_constraint.py:61-75,
python_tsp/src/update_degree_constraint.py:74-88 and subtour_elimination_constraint.py:68-81 `process_filtering`.
Arguments: the raw table and the remembered table (`none`: not yet set, an `AttributeError` when read).  Returns the
filtered table and the remembered table.  No branch is taken for `filtering_flag` and `alpha == 0`; the local variable is
then unset. -/
def pyFilter (flag : Bool) (alpha : ℚ) (iter : ℕ) (dummy : Mat Num) (old : Option (Mat Num)) :
    Option (Mat Num × Option (Mat Num)) :=
  if iter = 0 ∧ flag = true ∧ alpha ≠ 0 then
    some (npScale (fin (1 - alpha)) dummy, some (npScale (fin (1 - alpha)) dummy))
  else if iter > 0 ∧ flag = true ∧ alpha ≠ 0 then do
    let o ← old
    let r ← npAdd2 (npScale (fin alpha) o) (npScale (fin (1 - alpha)) dummy)
    some (r, some r)
  else if flag = false then some (dummy, old)
  else none

end Verif.Model
