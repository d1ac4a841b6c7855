import Mathlib.Data.List.Range

/-! Tables as lists of rows. -/

namespace Verif.Spec

/-- The `m` by `n` table with entries `x i j`, as a list of rows. -/
def table {α : Type} (m n : ℕ) (x : ℕ → ℕ → α) : List (List α) := (List.range m).map (fun i => (List.range n).map (x i))

/-- The list `x 0, …, x (n - 1)`. -/
def listOf {α : Type} (n : ℕ) (x : ℕ → α) : List α := (List.range n).map x

end Verif.Spec
