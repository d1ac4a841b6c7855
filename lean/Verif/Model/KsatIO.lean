import Verif.Model.KsatRun
import Verif.Model.KcIO

/-!
Model of the interface of the k-SAT solver: `GraphicalModelKsat.initialize` (message part), `process_inputs_ctypes`, the call in
`run_impa` (/repo/src/impa/Impa.py), `InputsKsat::process_inputs` (/repo/include/impalib/input_output.hpp) and
`WrapperKsat` (/repo/src/impa/Wrapper.cpp).
-/

namespace Verif.Model
open Verif Num

/-- The attributes of `GraphicalModelKsat` that are used. -/
structure KsatPy where
  numVars : ℕ
  numConstraints : ℕ
  k : ℕ
  used : List ℕ
  conns : List (List ℕ)
  conx : List (List ℕ)
  conxType : List (List ℤ)
  cost : List Num

/-- What `WrapperKsat` receives. -/
structure KsatFlat where
  used : List ℕ
  conns : List ℕ
  sizes : List ℕ
  conx : List ℕ
  conxType : List ℤ
  cost : List Num
  messages : List Num

/-- Impa.py:2337-2353: the initial messages from variables to clauses. -/
def ksatStart (py : KsatPy) : Option (Mat Num) :=
  loopUp py.conx.length (fun i m => loopList (py.conx.getD i []) (fun v m => do
    let c ← py.cost[v]?
    m.wr i v c) m) (Mat.fill py.numConstraints py.numVars 0)

/-- Impa.py:2358-2359, 2561-2597 `process_inputs_ctypes`. -/
def ksatFlatten (py : KsatPy) : Option KsatFlat := do
  let messages ← ksatStart py
  let conx ← flattenRows py.conx
  let conxType ← flattenRows py.conxType
  some { used := py.used, conns := py.conns.flatten, sizes := py.conns.map List.length, conx := conx, conxType := conxType,
         cost := py.cost, messages := flattenMat messages }

/-- input_output.hpp:390-428 `InputsKsat::process_inputs`.  Returns the inputs and `VariableEc2KsatConstraintM`. -/
def ksatDecode (numVars numConstraints numUsed k : ℕ) (flag : Bool) (alpha : ℚ) (f : KsatFlat) : Option (KsatInputs × Mat Num) := do
  let used ← slice f.used 0 numUsed
  let cost ← slice f.cost 0 numVars
  let sizes ← slice f.sizes 0 numVars
  let (conx, ty, v2k) ← loopUp numConstraints (fun i s => do
      let c ← slice f.conx (k * i) (k * (i + 1))
      let conx ← s.1.wrRow i (Arr.ofList c)
      let t ← slice f.conxType (k * i) (k * (i + 1))
      let ty ← s.2.1.wrRow i (Arr.ofList t)
      let m ← slice f.messages (numVars * i) (numVars * (i + 1))
      let v2k ← s.2.2.wrRow i (Arr.ofList m)
      some (conx, ty, v2k))
    (Mat.fill numConstraints k (0 : ℕ), Mat.fill numConstraints k (0 : ℤ), Mat.fill numConstraints numVars (0 : Num))
  let (conns, _) ← loopUp numVars (fun j s =>
      if j ∈ used then do
        let size ← sizes[j]?
        let l ← slice f.conns s.2 (s.2 + size)
        some (s.1 ++ [l], s.2 + size)
      else some (s.1 ++ [[]], s.2))
    (([] : List (List ℕ)), 0)
  some ({ numVars := numVars, numConstraints := numConstraints, k := k, flag := flag, alpha := alpha, used := used,
          conns := conns, conx := conx, conxType := ty, cost := Arr.ofList cost }, v2k)

/-- Wrapper.cpp:128-144 `WrapperKsat`. -/
def ksatWrapper (numIter numVars numConstraints numUsed k : ℕ) (flag : Bool) (alpha : ℚ) (f : KsatFlat) (out : List Num) :
    Option (List Num) := do
  let (inp, v2k) ← ksatDecode numVars numConstraints numUsed k flag alpha f
  let ext ← ksatSolve inp v2k numIter
  let ext ← slice ext.toList 0 numVars
  if ext.length ≤ out.length then some (ext ++ out.drop ext.length) else none

/-- Impa.py:2443-2486, `run_impa` up to the hard decision: the beliefs `intrinsic_out_variable_ec`. -/
def ksatBeliefs (numIter : ℕ) (flag : Bool) (alpha : ℚ) (py : KsatPy) : Option (List Num) := do
  let f ← ksatFlatten py
  let ext ← ksatWrapper numIter py.numVars py.numConstraints py.used.length py.k flag alpha f (List.replicate py.numVars 0)
  let used ← loopList py.used (fun v (u : Arr Num) => do
    let c ← py.cost[v]?
    u.wr v c) (Arr.fill py.numVars 0)
  if ext.length = used.size then some (List.zipWith (· + ·) ext used.toList) else none

end Verif.Model
