import Verif.Model.KsatRun

/-! When the k-SAT solver stays inside its arrays. -/

namespace Verif.Spec
open Verif Num Model

/-- The tables have the sizes that the constructors give them. -/
structure KsatShapes (inp : KsatInputs) (v2k : Mat Num) : Prop where
  cost : inp.cost.size = inp.numVars
  conns : inp.conns.length = inp.numVars
  conx : inp.conx.rows = inp.numConstraints ∧ inp.conx.cols = inp.k
  types : inp.conxType.rows = inp.numConstraints ∧ inp.conxType.cols = inp.k
  v2k : v2k.rows = inp.numConstraints ∧ v2k.cols = inp.numVars

/-- The clauses and the list of used variables name variables that exist, the lists of the variables name clauses that exist. -/
structure NamesExist (inp : KsatInputs) : Prop where
  vars : ∀ c < inp.numConstraints, ∀ s < inp.k, inp.conx.data c s < inp.numVars
  used : ∀ v ∈ inp.used, v < inp.numVars
  clauses : ∀ l ∈ inp.conns, ∀ c ∈ l, c < inp.numConstraints

end Verif.Spec
