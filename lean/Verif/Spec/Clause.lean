import Verif.Spec.MinSum
import Verif.Arr

/-! Specification of a k-SAT clause. -/

namespace Verif.Spec

/-- The clause with literals `0..k-1`, literal `j` being variable `v j` (sign `ty j = 1`) or its negation
(`ty j = -1`), is satisfied when exactly the variables in `S` are 1. -/
def ClauseSat (k : ℕ) (v : ℕ → ℕ) (ty : ℕ → ℤ) (S : Finset ℕ) : Prop :=
  ∃ j < k, (ty j = 1 ∧ v j ∈ S) ∨ (ty j = -1 ∧ v j ∉ S)

/-- The variables of the clause. -/
def clauseVars (k : ℕ) (v : ℕ → ℕ) : Finset ℕ := (Finset.range k).image v

/-- Well-formed tables of `C` clauses with `k` distinct variables each, out of `n` variables; signs are `1` or `-1`. -/
structure ClauseTables (C k n : ℕ) (conx : Mat ℕ) (ty : Mat ℤ) : Prop where
  conx_rows : conx.rows = C
  conx_cols : conx.cols = k
  ty_rows : ty.rows = C
  ty_cols : ty.cols = k
  conx_lt : ∀ c < C, ∀ s < k, conx.data c s < n
  conx_inj : ∀ c < C, ∀ s < k, ∀ s' < k, conx.data c s = conx.data c s' → s = s'
  sign : ∀ c < C, ∀ s < k, ty.data c s = 1 ∨ ty.data c s = -1

end Verif.Spec
