import Verif.Arr

/-!
# Damping ("filtering") of messages

The four `process_filtering` functions contain the same code for one row of the message table; they differ in the rows
they visit.  Messages are `Num`; the rate `alpha` is a finite number.
-/

namespace Verif

/-- `copy(src.begin(), src.end(), dst.begin())`; writing past the end of `dst` is undefined. -/
def Arr.copyTo {α : Type} (src dst : Arr α) : Option (Arr α) :=
  if src.size ≤ dst.size then some ⟨dst.size, fun i => if i < src.size then src.data i else dst.data i⟩ else none

/-- `transform(a.begin(), a.end(), b.begin(), dst.begin(), plus)`. -/
def Arr.addTo (a b dst : Arr Num) : Option (Arr Num) :=
  if a.size ≤ b.size ∧ a.size ≤ dst.size then
    some ⟨dst.size, fun i => if i < a.size then a.data i + b.data i else dst.data i⟩
  else none

/-- `transform(a.begin(), a.end(), a.begin(), [w](c) { return c * w; })`. -/
def Arr.scale (w : Num) (a : Arr Num) : Arr Num := ⟨a.size, fun i => a.data i * w⟩

end Verif

namespace Verif.Model
open Verif Num

/-- One row of filtering: update_degree_constraint.hpp:171-205, subtour_elimination_constraint.hpp:126-161,
update_ksat_constraint.hpp:141-160, knapsack.hpp:382-418.  Arguments: the raw row, the output row and the remembered row;
returns the new output row and the new remembered row. -/
def filterRow (flag : Bool) (alpha : ℚ) (iter : ℕ) (dummy out old : Arr Num) : Option (Arr Num × Arr Num) :=
  if flag ∧ alpha ≠ 0 then do
    let d := Arr.scale (fin (1 - alpha)) dummy
    let o := Arr.scale (fin alpha) old
    let out ←
      if iter = 0 then d.copyTo out
      else do
        let s ← d.addTo o (Arr.fill d.size 0)
        s.copyTo out
    let old ← out.copyTo old
    some (out, old)
  else do
    let out ← dummy.copyTo out
    some (out, old)

/-- Filtering of row `e` of the tables.  knapsack.hpp:377-419 `Knapsack::process_extrinsic_output_department`
(`e` = department). -/
def filterAt (flag : Bool) (alpha : ℚ) (iter : ℕ) (dummy : Mat Num) (e : ℕ) (s : Mat Num × Mat Num) :
    Option (Mat Num × Mat Num) := do
  let d ← dummy.rdRow e
  let u ← s.1.rdRow e
  let o ← s.2.rdRow e
  let (u, o) ← filterRow flag alpha iter d u o
  let out ← s.1.wrRow e u
  let old ← s.2.wrRow e o
  some (out, old)

/-- update_degree_constraint.hpp:166-207 `DegreeConstraint::process_filtering` with `rows = numEdgeVariables_`,
subtour_elimination_constraint.hpp:117-163 `SubtourEliminationConstraint::process_filtering` with
`rows = rDeltaSIndicesList.size()`, update_ksat_constraint.hpp:139-161 `KsatConstraint::process_filtering` with
`rows = numConstraints_`.  State: output table and remembered table. -/
def processFiltering (rows : ℕ) (flag : Bool) (alpha : ℚ) (iter : ℕ) (dummy : Mat Num) (s : Mat Num × Mat Num) :
    Option (Mat Num × Mat Num) :=
  loopUp rows (filterAt flag alpha iter dummy) s

/-- A run of `K` iterations whose raw messages are `raw 0, raw 1, ...` (graphical_model.hpp:317-319, 476-483, 941-946:
the loop variable `iter` starts at 0 in every run). -/
def filterRun (rows : ℕ) (flag : Bool) (alpha : ℚ) (raw : ℕ → Mat Num) (K : ℕ) (s : Mat Num × Mat Num) :
    Option (Mat Num × Mat Num) :=
  loopUp K (fun iter s => processFiltering rows flag alpha iter (raw iter) s) s

end Verif.Model
