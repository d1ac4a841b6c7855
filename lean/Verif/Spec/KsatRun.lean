import Verif.Spec.Clause
import Verif.Spec.Damping

/-! Specification of the min-sum algorithm for k-SAT, with the flooding schedule and damping of clause messages. -/

namespace Verif.Spec
open Verif

/-- The clauses that contain variable `v`. -/
def occurrences (C k : ℕ) (conx : Mat ℕ) (v : ℕ) : Finset ℕ :=
  (Finset.range C).filter (fun c => v ∈ clauseVars k (conx.data c))

/-- `x j c v` is the message from variable `v` to clause `c` at the start of iteration `j`, `r j c v` the min-sum message
from clause `c` to variable `v` in iteration `j`.  `x0` are the initial messages, `w v` is the cost of variable `v`. -/
structure IsKsatTrace (C k n : ℕ) (conx : Mat ℕ) (ty : Mat ℤ) (w : ℕ → ℚ) (flag : Bool) (alpha : ℚ) (x0 : ℕ → ℕ → ℚ)
    (x r : ℕ → ℕ → ℕ → ℚ) : Prop where
  init : ∀ c < C, ∀ v < n, x 0 c v = x0 c v
  clause : ∀ j, ∀ c < C, ∀ v ∈ clauseVars k (conx.data c),
    IsMessage (clauseVars k (conx.data c)) (ClauseSat k (conx.data c) (ty.data c)) (x j c) v (Num.fin (r j c v))
  var : ∀ j, ∀ c < C, ∀ v ∈ clauseVars k (conx.data c),
    x (j + 1) c v = w v + ∑ c' ∈ (occurrences C k conx v).erase c, damped flag alpha (fun i => r i c' v) j

/-- The variable side of the formula tables agrees with the clause side: the used variables include every variable of
every clause, and each variable's list holds exactly its clauses, once each. -/
structure ConnectionsOk (C k n : ℕ) (conx : Mat ℕ) (used : List ℕ) (conns : List (List ℕ)) : Prop where
  used_lt : ∀ v ∈ used, v < n
  used_mem : ∀ c < C, ∀ v ∈ clauseVars k (conx.data c), v ∈ used
  length : conns.length = n
  nodup : ∀ l ∈ conns, l.Nodup
  mem : ∀ v < n, ∀ c, c ∈ conns.getD v [] ↔ c ∈ occurrences C k conx v

end Verif.Spec
