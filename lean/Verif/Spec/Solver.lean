import Mathlib.Data.Int.Notation
import Mathlib.Data.Int.Order.Basic

/-! What is expected from a SAT solver that gets clauses of nonzero integers. -/

namespace Verif.Spec

/-- The literal `x` under an assignment of the variables 1, 2, ... -/
def IntTrue (σ : ℕ → Bool) (x : ℤ) : Prop := (0 < x ∧ σ x.natAbs = true) ∨ (x < 0 ∧ σ x.natAbs = false)

/-- A list of literals for the variables 1, 2, ... in this order. -/
def SignedList (lits : List ℤ) : Prop := ∀ i x, lits[i]? = some x → x.natAbs = i + 1

/-- A correct solver: a returned list gives every variable one sign and contains a literal of every clause; without a list, no assignment satisfies the
clauses. -/
def CorrectSolver (solve : List (List ℤ) → Option (List ℤ)) : Prop :=
  ∀ G, (∀ lits, solve G = some lits → SignedList lits ∧ ∀ cl ∈ G, ∃ x ∈ cl, x ∈ lits) ∧
    (solve G = none → ∀ σ, ∃ cl ∈ G, ∀ x ∈ cl, ¬ IntTrue σ x)

end Verif.Spec
