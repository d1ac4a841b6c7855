import Verif.Model.KsatConstraint
import Verif.Model.Equality

/-!
Model of `GraphicalModelKsat` (/repo/include/impalib/graphical_model.hpp) and of its output class.
-/

namespace Verif.Model
open Verif Num

/-- The inputs after decoding (input_output.hpp:319-325, members of `InputsKsat`) and the constructor arguments. -/
structure KsatInputs where
  numVars : ℕ
  numConstraints : ℕ
  k : ℕ
  flag : Bool
  alpha : ℚ
  used : List ℕ
  conns : List (List ℕ)
  conx : Mat ℕ
  conxType : Mat ℤ
  cost : Arr Num

/-- The mutable members: `VariableEc2KsatConstraintM`, `KsatConstraint2EqConstraintDummyM_`,
`KsatConstraint2EqConstraintM_`, and `ksatConstraint2EqConstraintOld` of the filtering class. -/
structure KsatState where
  v2k : Mat Num
  dummy : Mat Num
  k2v : Mat Num
  old : Mat Num

/-- graphical_model.hpp:909-910 and update_ksat_constraint.hpp:51: all clause messages start at zero. -/
def ksatInit (inp : KsatInputs) (v2k : Mat Num) : KsatState :=
  ⟨v2k, Mat.fill inp.numConstraints inp.numVars 0, Mat.fill inp.numConstraints inp.numVars 0,
    Mat.fill inp.numConstraints inp.numVars 0⟩

/-- graphical_model.hpp:942-950, one iteration. -/
def ksatIter (inp : KsatInputs) (iter : ℕ) (st : KsatState) : Option KsatState := do
  let dummy ← ksatToVariableUpdate inp.numConstraints inp.k st.v2k st.dummy inp.conx inp.conxType
  let (k2v, old) ← processFiltering inp.numConstraints inp.flag inp.alpha iter dummy (st.k2v, st.old)
  let v2k ← variableToKsat inp.numVars k2v st.v2k inp.used inp.cost inp.conns
  some ⟨v2k, dummy, k2v, old⟩

/-- input_output.hpp:437-445 `OutputsKsat::update_extrinsic`: adds to the values already there. -/
def ksatExtrinsic (numVars numConstraints : ℕ) (k2v : Mat Num) (out : Arr Num) : Option (Arr Num) :=
  loopUp numVars (fun i out => loopUp numConstraints (fun j out => do
    let o ← out.rd i
    let x ← k2v.rd j i
    out.wr i (o + x)) out) out

/-- graphical_model.hpp:940-953 `GraphicalModelKsat::iterate`. -/
def ksatIterate (inp : KsatInputs) (numIter : ℕ) (s : KsatState × Arr Num) : Option (KsatState × Arr Num) := do
  let st ← loopUp numIter (ksatIter inp) s.1
  let out ← ksatExtrinsic inp.numVars inp.numConstraints st.k2v s.2
  some (st, out)

/-- Wrapper.cpp:128-144 `WrapperKsat`, without the decoding of the inputs: construct, iterate once, return the
extrinsic outputs. -/
def ksatSolve (inp : KsatInputs) (v2k : Mat Num) (numIter : ℕ) : Option (Arr Num) := do
  let (_, out) ← ksatIterate inp numIter (ksatInit inp v2k, Arr.fill inp.numVars 0)
  some out

end Verif.Model
