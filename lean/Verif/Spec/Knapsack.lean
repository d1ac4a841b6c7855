import Verif.Spec.MinSum
import Verif.Arr

/-! Specification of a department's capacity constraint. -/

namespace Verif.Spec
open Verif

/-- The teams `lo ≤ t < hi` that use the department. -/
def users (wf : ℕ → ℕ) (lo hi : ℕ) : Finset ℕ := (Finset.range hi).filter (fun t => lo ≤ t ∧ wf t ≠ 0)

/-- The total weight of a set of teams is within the capacity. -/
def Fits (wf : ℕ → ℕ) (cap : ℕ) (S : Finset ℕ) : Prop := S.sum wf ≤ cap

/-- Well-formed data of one department: `nz` lists, in increasing order, exactly the teams with non-zero weight; there
is at least one of them and each of them fits on its own. -/
structure DeptOk (T cap : ℕ) (nz : List ℕ) (sz : ℕ) (w : Arr ℕ) (wf : ℕ → ℕ) : Prop where
  sorted : nz.Pairwise (· < ·)
  mem : ∀ t, t ∈ nz ↔ t < T ∧ wf t ≠ 0
  nonempty : nz ≠ []
  size : sz = nz.length
  w_size : w.size = T
  w_data : ∀ t < T, w.data t = wf t
  fits : ∀ t ∈ nz, wf t ≤ cap

end Verif.Spec
