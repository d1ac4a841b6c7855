import Verif.Model.ProjectInequality

/-!
Model of /repo/include/impalib/update_ksat_constraint.hpp (the clause update; the filtering is in `Model/Filter.lean`).

`conx : Mat ℕ` and `conxType : Mat ℤ` model `rConstraintsConnections` and `rConstraintsConnectionsType`
(one row of `k` entries per clause).
-/

namespace Verif.Model
open Verif Num

/-- The recurring expression `rVariableEc2KsatConstraintM[c][conx[stage]]*conx_type[stage]`
(update_ksat_constraint.hpp:89, 97, 100, 102, 110, 123): the incoming message of literal `stage` of clause `c`. -/
def ksatLit (v2k : Mat Num) (conx : Mat ℕ) (conxType : Mat ℤ) (c stage : ℕ) : Option Num := do
  let v ← conx.rd c stage
  let x ← v2k.rd c v
  let ty ← conxType.rd c stage
  some (x * fin (ty : ℚ))

/-- update_ksat_constraint.hpp:85-90, one forward stage. -/
def ksatFwdStage (v2k : Mat Num) (conx : Mat ℕ) (conxType : Mat ℤ) (c stage : ℕ) (fwd : Mat Num) : Option (Mat Num) := do
  let f0 ← fwd.rd stage 0
  let fwd ← fwd.wr (stage + 1) 0 f0
  let g1 ← fwd.rd stage 1
  let g0 ← fwd.rd stage 0
  let x ← ksatLit v2k conx conxType c stage
  fwd.wr (stage + 1) 1 (cmin (g1 + cmin 0 x) (g0 + x))

/-- update_ksat_constraint.hpp:94-103, one backward stage. -/
def ksatBwdStage (k : ℕ) (v2k : Mat Num) (conx : Mat ℕ) (conxType : Mat ℤ) (c stage : ℕ) (bwd : Mat Num) :
    Option (Mat Num) := do
  let x ← ksatLit v2k conx conxType c stage
  let bwd ←
    if stage + 1 = k then bwd.wr stage 0 x
    else do
      let b0 ← bwd.rd (stage + 1) 0
      let b1 ← bwd.rd (stage + 1) 1
      bwd.wr stage 0 (cmin b0 (b1 + x))
  let c1 ← bwd.rd (stage + 1) 1
  bwd.wr stage 1 (cmin c1 (c1 + x))

/-- update_ksat_constraint.hpp:108-126, the message to one literal's variable, written only if it is larger in
magnitude than the entry already there. -/
def ksatOut (k : ℕ) (v2k : Mat Num) (conx : Mat ℕ) (conxType : Mat ℤ) (fwd bwd : Mat Num) (c stage : ℕ)
    (out : Mat Num) : Option (Mat Num) := do
  let x ← ksatLit v2k conx conxType c stage
  let f0 ← fwd.rd stage 0
  let f1 ← fwd.rd stage 1
  let b1 ← bwd.rd (stage + 1) 1
  let solid := cmin (f0 + b1 + x) (f1 + x + b1)
  let dashed ←
    if stage + 1 = k then some (f1 + b1)
    else do
      let b0 ← bwd.rd (stage + 1) 0
      some (cmin (f0 + b0) (f1 + b1))
  let v ← conx.rd c stage
  let ty ← conxType.rd c stage
  let new := (solid - dashed - x) * fin (ty : ℚ)
  let old ← out.rd c v
  if lt (abs old) (abs new) then out.wr c v new else some out

/-- update_ksat_constraint.hpp:73-127, body of the loop over clauses. -/
def ksatBody (k : ℕ) (v2k : Mat Num) (conx : Mat ℕ) (conxType : Mat ℤ) (c : ℕ) (st : Mat Num × Mat Num × Mat Num) :
    Option (Mat Num × Mat Num × Mat Num) := do
  let (fwd, bwd, out) := st
  let fwd ← fwd.wrRow 0 initFwd2
  let fwd ← loopUp k (ksatFwdStage v2k conx conxType c) fwd
  let bwd ← bwd.wrRow k initBwd2
  let bwd ← loopDown k (ksatBwdStage k v2k conx conxType c) bwd
  let out ← loopUp k (ksatOut k v2k conx conxType fwd bwd c) out
  some (fwd, bwd, out)

/-- update_ksat_constraint.hpp:63-128 `KsatConstraint::ksat_constraint_to_variable_ec_update`.
Lines 66-68 first reset the output to zero. -/
def ksatToVariableUpdate (numConstraints k : ℕ) (v2k out : Mat Num) (conx : Mat ℕ) (conxType : Mat ℤ) : Option (Mat Num) := do
  let out := Mat.fill out.rows out.cols 0
  let fwd := Mat.fill (k + 1) 2 0
  let bwd := Mat.fill (k + 1) 2 0
  let (_, _, out) ← loopUp numConstraints (ksatBody k v2k conx conxType) (fwd, bwd, out)
  some out

end Verif.Model
