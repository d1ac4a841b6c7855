import Verif.Model.PyNp

/-!
Model of the functions that decide whether a unit test has passed: `check_agreement` (/repo/test/python_kc_mwm/test/ut_utils.py:10-35,
/repo/test/python_ksat/test/ut_utils.py:9-34 and /repo/test/python_tsp/test/ut_utils.py:9-34, the same code) and
`check_forward_backward_results` (/repo/test/python_kc_mwm/test/ut_utils.py:37-83).  An array is the list of its entries.  The result `some true`
stands for "PASSED", `some false` for "FAILED", `none` for an exception.  Reading the files is not modelled; arithmetic is exact.
-/

namespace Verif.Model
open Verif Num

/-- `a / b` in numpy; a zero divisor is positive (it is the result of `abs`). -/
def npDiv : Num → Num → Num
  | nan, _ => nan
  | _, nan => nan
  | fin a, fin b => if b ≠ 0 then fin (a / b) else if a = 0 then nan else if 0 < a then pinf else ninf
  | fin _, pinf => fin 0
  | fin _, ninf => fin 0
  | pinf, fin b => if 0 ≤ b then pinf else ninf
  | ninf, fin b => if 0 ≤ b then ninf else pinf
  | _, _ => nan

/-- The constant `1e-30`. -/
def tiny : ℚ := 1 / 10 ^ 30

/-- `abs(np.max(y_pure) + 1e-30)`. -/
def scaleOf (y : List Num) : Option Num := do
  let top ← npMax y
  some (Num.abs (top + fin tiny))

/-- ut_utils.py:10-35 `check_agreement`. -/
def checkAgreement (rtol atol : ℚ) (y z : List Num) : Option Bool := do
  if y.length ≠ z.length then none else do
    let err := List.zipWith (fun a b => Num.abs (a - b)) y z
    let maxAbs ← npMax err
    let scale ← scaleOf y
    let maxRel ← npMax (err.map (fun e => npDiv e scale))
    some (!(gt maxAbs (fin atol) || gt maxRel (fin rtol)))

/-- `a - b` for arrays of one dimension: equal lengths, or one of the arrays has a single entry, which is then used for all. -/
def npSubBroadcast (a b : List Num) : Option (List Num) :=
  if a.length = b.length then some (List.zipWith (· - ·) a b)
  else match a, b with
    | [x], _ => some (b.map (fun y => x - y))
    | _, [y] => some (a.map (fun x => x - y))
    | _, _ => none

/-- `np.nanmax`: the maximum of the entries that are not NaN; NaN if there is none; `ValueError` on an empty array. -/
def npNanmax (l : List Num) : Option Num :=
  if l = [] then none else some ((npMax (l.filter (fun x => x ≠ nan))).getD nan)

/-- The truth value of a number in Python: everything but zero is true. -/
def truthy (x : Num) : Bool := x ≠ fin 0

/-- A Python bool compared with a number. -/
def boolGt (b : Bool) (q : ℚ) : Bool := decide (q < if b then 1 else 0)

/-- ut_utils.py:66-69: the errors of one pair of files. -/
def tableErrors (y z : List Num) : Option (Num × Num) := do
  let a := y.filter (fun x => x ≠ pinf)
  let b := z.filter (fun x => x ≠ pinf)
  let d ← npSubBroadcast a b
  let err := (d.map Num.abs).filter (fun x => x ≠ pinf)
  let m ← npNanmax err
  let scale ← scaleOf a
  if y.length = z.length then some (m, npDiv m scale) else none

/-- ut_utils.py:37-83 `check_forward_backward_results` for the given pairs of files; the report evaluates `np.max` of the errors and
fails if there are none. -/
def checkTables (rtol atol : ℚ) (files : List (List Num × List Num)) : Option Bool := do
  let s ← loopList files (fun f (s : List Num × List Num × List Bool) => do
    let e ← tableErrors f.1 f.2
    let as := s.1 ++ [e.1]
    let rs := s.2.1 ++ [e.2]
    some (as, rs, s.2.2 ++ [boolGt (as.any truthy) atol || boolGt (rs.any truthy) rtol])) ([], [], [])
  let _ ← npMax s.1
  let _ ← npMax s.2.1
  some (!s.2.2.any id)

end Verif.Model
