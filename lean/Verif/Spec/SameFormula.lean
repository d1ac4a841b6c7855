import Verif.Spec.Formula
import Mathlib.Data.List.Perm.Basic

/-! Specification of two formulas that differ only in names, signs and order. -/

namespace Verif.Spec

/-- Formula `F'` is formula `F` with every variable `v` of `used` renamed to `σ v` and negated if `eps v = -1`, with clause `c` moved to place
`ρ c`, and with the literals of each clause in any order. -/
structure SameFormula (σ ρ : ℕ → ℕ) (eps : ℕ → ℤ) (used used' : List ℕ) (F F' : List (List (ℕ × ℤ))) : Prop where
  names : ∀ u ∈ used, ∀ v ∈ used, σ u = σ v → u = v
  used_mem : ∀ v ∈ used, σ v ∈ used'
  signs : ∀ v ∈ used, eps v = 1 ∨ eps v = -1
  length : F'.length = F.length
  places : ∀ c < F.length, ρ c < F.length
  places_inj : ∀ c < F.length, ∀ d < F.length, ρ c = ρ d → c = d
  clause : ∀ c < F.length, (F'.getD (ρ c) []).Perm ((F.getD c []).map (fun l => (σ l.1, eps l.1 * l.2)))

end Verif.Spec
