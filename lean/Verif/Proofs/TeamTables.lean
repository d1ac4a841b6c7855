import Verif.Model.TeamTables
import Verif.Spec.Units
import Verif.Proofs.KcTeams

/-! Helper lemmas for the shipped tables. -/

namespace Verif.Proofs
open Verif Model Spec

theorem unitCosts_table {u : ℕ} (h1 : 1 ≤ u) (h2 : u ≤ 11) :
    fuTable.getD (u - 1) 0 = (unitCosts u).1 ∧ wuTable.getD (u - 1) 0 = (unitCosts u).2 := by
  interval_cases u <;> decide

/-- The costs of a unit are of one of four kinds. -/
theorem unitCosts_kinds {u : ℕ} (h1 : 1 ≤ u) (h2 : u ≤ 11) :
    unitCosts u = (0, 2) ∨ unitCosts u = (4, 0) ∨ unitCosts u = (0, 1) ∨ unitCosts u = (1, 0) := by
  interval_cases u <;> decide

theorem ratio_order {ex : ℕ → ℚ} {mul : ℚ → ℚ → ℚ} (h : ExpOk ex mul) {u v : ℕ} (hu : 1 ≤ u) (hu' : u ≤ 11) (hv : 1 ≤ v) (hv' : v ≤ 11) :
    ((shippedData ex mul).ratio (v - 1) (u - 1) < (shippedData ex mul).ratio (u - 1) (v - 1) ↔ pairCost u v < pairCost v u) ∧
    ((shippedData ex mul).ratio (v - 1) (u - 1) = (shippedData ex mul).ratio (u - 1) (v - 1) ↔ pairCost v u = pairCost u v) := by
  have h01 := h.falls 0 1 (by omega) (by omega)
  have h12 := h.falls 1 2 (by omega) (by omega)
  have h24 := h.falls 2 4 (by omega) (by omega)
  have m42 := h.mul_lt 4 2 (by omega) (by omega) (by omega) (by omega)
  have m41 := h.mul_lt 4 1 (by omega) (by omega) (by omega) (by omega)
  have m12 := h.mul_lt 1 2 (by omega) (by omega) (by omega) (by omega)
  have m11 := h.mul_lt 1 1 (by omega) (by omega) (by omega) (by omega)
  rw [h.zero] at h01
  unfold shippedData pairCost
  simp only [(unitCosts_table hu hu').1, (unitCosts_table hu hu').2, (unitCosts_table hv hv').1, (unitCosts_table hv hv').2]
  rcases unitCosts_kinds hu hu' with e | e | e | e <;> rcases unitCosts_kinds hv hv' with e' | e' | e' | e' <;>
    simp only [e, e', h.zero, h.one_mul, h.mul_one] <;> constructor <;> constructor <;> intro hh <;>
    first | omega | linarith | (exfalso; linarith)

end Verif.Proofs
