import Verif.Spec.Formula

/-! Distances in a formula. -/

namespace Verif.Spec

/-- Variable `u` can be reached from `v` in at most `j` steps, each from a variable of a clause to another variable of the same clause. -/
def Within (F : List (List (ℕ × ℤ))) (v : ℕ) : ℕ → ℕ → Prop
  | 0, u => u = v
  | j + 1, u => Within F v j u ∨ ∃ cl ∈ F, ∃ a ∈ cl, ∃ b ∈ cl, Within F v j a.1 ∧ b.1 = u

/-- Every walk that starts at variable `v` with clause `c`, alternates between clauses and variables and never turns back visits at most `h` clauses. -/
def Depth (F : List (List (ℕ × ℤ))) : ℕ → ℕ → ℕ → Prop
  | 0, _, _ => False
  | h + 1, c, v => ∀ u ∈ varsOf F c, u ≠ v → ∀ c', c' ≠ c → u ∈ varsOf F c' → Depth F h c' u

end Verif.Spec
