import Verif.Model.KsatCall
import Verif.Model.RoundedTsp

/-!
The k-SAT solver with rounding: the same code as in `Model/KsatConstraint.lean`, the k-SAT part of `Model/Equality.lean`, `Model/KsatRun.lean`,
`Model/KsatIO.lean` and `Model/KsatCall.lean`, but the result of every addition, subtraction and multiplication on messages and costs is rounded by
a function `r`, in the order of the C++ and Python expressions.  Everything else is as in `Model/RoundedTsp.lean`.
-/

namespace Verif.Model.Rounded
open Verif Num Model

/-- update_ksat_constraint.hpp:89, 97, 100, 102, 110, 123. -/
def ksatLit (r : ℚ → Num) (v2k : Mat Num) (conx : Mat ℕ) (conxType : Mat ℤ) (c stage : ℕ) : Option Num := do
  let v ← conx.rd c stage
  let x ← v2k.rd c v
  let ty ← conxType.rd c stage
  some (rn r (x * fin (ty : ℚ)))

/-- update_ksat_constraint.hpp:85-90. -/
def ksatFwdStage (r : ℚ → Num) (v2k : Mat Num) (conx : Mat ℕ) (conxType : Mat ℤ) (c stage : ℕ) (fwd : Mat Num) : Option (Mat Num) := do
  let f0 ← fwd.rd stage 0
  let fwd ← fwd.wr (stage + 1) 0 f0
  let g1 ← fwd.rd stage 1
  let g0 ← fwd.rd stage 0
  let x ← ksatLit r v2k conx conxType c stage
  fwd.wr (stage + 1) 1 (cmin (rn r (g1 + cmin 0 x)) (rn r (g0 + x)))

/-- update_ksat_constraint.hpp:94-103. -/
def ksatBwdStage (r : ℚ → Num) (k : ℕ) (v2k : Mat Num) (conx : Mat ℕ) (conxType : Mat ℤ) (c stage : ℕ) (bwd : Mat Num) :
    Option (Mat Num) := do
  let x ← ksatLit r v2k conx conxType c stage
  let bwd ←
    if stage + 1 = k then bwd.wr stage 0 x
    else do
      let b0 ← bwd.rd (stage + 1) 0
      let b1 ← bwd.rd (stage + 1) 1
      bwd.wr stage 0 (cmin b0 (rn r (b1 + x)))
  let c1 ← bwd.rd (stage + 1) 1
  bwd.wr stage 1 (cmin c1 (rn r (c1 + x)))

/-- update_ksat_constraint.hpp:108-126. -/
def ksatOut (r : ℚ → Num) (k : ℕ) (v2k : Mat Num) (conx : Mat ℕ) (conxType : Mat ℤ) (fwd bwd : Mat Num) (c stage : ℕ)
    (out : Mat Num) : Option (Mat Num) := do
  let x ← ksatLit r v2k conx conxType c stage
  let f0 ← fwd.rd stage 0
  let f1 ← fwd.rd stage 1
  let b1 ← bwd.rd (stage + 1) 1
  let solid := cmin (rn r (rn r (f0 + b1) + x)) (rn r (rn r (f1 + x) + b1))
  let dashed ←
    if stage + 1 = k then some (rn r (f1 + b1))
    else do
      let b0 ← bwd.rd (stage + 1) 0
      some (cmin (rn r (f0 + b0)) (rn r (f1 + b1)))
  let v ← conx.rd c stage
  let ty ← conxType.rd c stage
  let new := rn r (rn r (rn r (solid - dashed) - x) * fin (ty : ℚ))
  let old ← out.rd c v
  if lt (abs old) (abs new) then out.wr c v new else some out

/-- update_ksat_constraint.hpp:73-127. -/
def ksatBody (r : ℚ → Num) (k : ℕ) (v2k : Mat Num) (conx : Mat ℕ) (conxType : Mat ℤ) (c : ℕ) (st : Mat Num × Mat Num × Mat Num) :
    Option (Mat Num × Mat Num × Mat Num) := do
  let (fwd, bwd, out) := st
  let fwd ← fwd.wrRow 0 initFwd2
  let fwd ← loopUp k (ksatFwdStage r v2k conx conxType c) fwd
  let bwd ← bwd.wrRow k initBwd2
  let bwd ← loopDown k (ksatBwdStage r k v2k conx conxType c) bwd
  let out ← loopUp k (ksatOut r k v2k conx conxType fwd bwd c) out
  some (fwd, bwd, out)

/-- update_ksat_constraint.hpp:63-128. -/
def ksatToVariableUpdate (r : ℚ → Num) (numConstraints k : ℕ) (v2k out : Mat Num) (conx : Mat ℕ) (conxType : Mat ℤ) : Option (Mat Num) := do
  let out := Mat.fill out.rows out.cols 0
  let fwd := Mat.fill (k + 1) 2 0
  let bwd := Mat.fill (k + 1) 2 0
  let (_, _, out) ← loopUp numConstraints (ksatBody r k v2k conx conxType) (fwd, bwd, out)
  some out

/-- update_equality_constraint.hpp:304-311. -/
def variableSums (r : ℚ → Num) (numVars : ℕ) (k2v : Mat Num) (conns : List (List ℕ)) (costs : Arr Num) : Option (Arr Num) :=
  loopUp numVars (fun i sums => do
    let l ← conns[i]?
    let sums ← loopList l (fun c sums => do
      let s ← sums.rd i
      let x ← k2v.rd c i
      sums.wr i (rn r (s + x))) sums
    let s ← sums.rd i
    let c ← costs.rd i
    sums.wr i (rn r (s + c))) (Arr.fill numVars 0)

/-- update_equality_constraint.hpp:313-324. -/
def variableOut (r : ℚ → Num) (sums : Arr Num) (k2v : Mat Num) (conns : List (List ℕ)) (v : ℕ) (out : Mat Num) : Option (Mat Num) := do
  let l ← conns[v]?
  loopList l (fun c out => do
    let o ← out.rd c v
    let s ← sums.rd v
    let x ← k2v.rd c v
    if lt (abs o) (abs (rn r (s - x))) then out.wr c v (rn r (s - x)) else some out) out

/-- update_equality_constraint.hpp:291-325. -/
def variableToKsat (r : ℚ → Num) (numVars : ℕ) (k2v v2k : Mat Num) (used : List ℕ) (cost : Arr Num) (conns : List (List ℕ)) :
    Option (Mat Num) := do
  let out := Mat.fill v2k.rows v2k.cols 0
  let costs ← usedCosts numVars used cost
  let sums ← variableSums r numVars k2v conns costs
  loopList used (variableOut r sums k2v conns) out

/-- graphical_model.hpp:942-950. -/
def ksatIter (r : ℚ → Num) (inp : KsatInputs) (iter : ℕ) (st : KsatState) : Option KsatState := do
  let dummy ← ksatToVariableUpdate r inp.numConstraints inp.k st.v2k st.dummy inp.conx inp.conxType
  let (k2v, old) ← processFiltering r inp.numConstraints inp.flag inp.alpha iter dummy (st.k2v, st.old)
  let v2k ← variableToKsat r inp.numVars k2v st.v2k inp.used inp.cost inp.conns
  some ⟨v2k, dummy, k2v, old⟩

/-- input_output.hpp:437-445. -/
def ksatExtrinsic (r : ℚ → Num) (numVars numConstraints : ℕ) (k2v : Mat Num) (out : Arr Num) : Option (Arr Num) :=
  loopUp numVars (fun i out => loopUp numConstraints (fun j out => do
    let o ← out.rd i
    let x ← k2v.rd j i
    out.wr i (rn r (o + x))) out) out

/-- Wrapper.cpp:128-144 and graphical_model.hpp:940-953. -/
def ksatSolve (r : ℚ → Num) (inp : KsatInputs) (v2k : Mat Num) (numIter : ℕ) : Option (Arr Num) := do
  let st ← loopUp numIter (ksatIter r inp) (ksatInit inp v2k)
  ksatExtrinsic r inp.numVars inp.numConstraints st.k2v (Arr.fill inp.numVars 0)

/-- Wrapper.cpp:128-144. -/
def ksatWrapper (r : ℚ → Num) (numIter numVars numConstraints numUsed k : ℕ) (flag : Bool) (alpha : ℚ) (f : KsatFlat) (out : List Num) :
    Option (List Num) := do
  let (inp, v2k) ← ksatDecode numVars numConstraints numUsed k flag alpha f
  let ext ← ksatSolve r inp v2k numIter
  let ext ← slice ext.toList 0 numVars
  if ext.length ≤ out.length then some (ext ++ out.drop ext.length) else none

/-- Impa.py:2443-2486. -/
def ksatBeliefs (r : ℚ → Num) (numIter : ℕ) (flag : Bool) (alpha : ℚ) (py : KsatPy) : Option (List Num) := do
  let f ← ksatFlatten py
  let ext ← ksatWrapper r numIter py.numVars py.numConstraints py.used.length py.k flag alpha f (List.replicate py.numVars 0)
  let used ← loopList py.used (fun v (u : Arr Num) => do
    let c ← py.cost[v]?
    u.wr v c) (Arr.fill py.numVars 0)
  if ext.length = used.size then some (List.zipWith (fun x y => rn r (x + y)) ext used.toList) else none

/-- Impa.py:2443-2515. -/
def ksatCall (r : ℚ → Num) (n k numIter : ℕ) (flag : Bool) (alpha : ℚ) (threshold : Num) (order order' : List ℕ → List ℕ) (post : Bool)
    (ppElements : ℕ) (sol : List Bool) (t : KsatTables) (cost : List Num) : Option KsatResult := do
  let beliefs ← ksatBeliefs r numIter flag alpha (ksatObject n k t cost)
  let first ← getSummary t (hardDecisions threshold beliefs)
  let st ← decideAndPost t threshold order order' post ppElements beliefs
  let sim ← averageSimilarity t sol st.sum
  some ⟨beliefs, st, first.unsat.length != 0 && post, sim⟩

end Verif.Model.Rounded
