import Verif.Model.KsatMetrics
import Verif.Spec.Planted
import Verif.Spec.Tables
import Verif.Proofs.PyKnapsack
import Verif.Spec.Autarky
import Mathlib.Tactic.Linarith

/-! Closed form of the generated costs. -/

namespace Verif.Proofs
open Verif Num Spec Model

/-- A loop that draws every cost stores exactly the drawn values. -/
theorem metrics_loop {n : ℕ} {body : ℕ → Arr Num → Option (Arr Num)} {q : ℕ → ℚ}
    (hb : ∀ i < n, ∀ a : Arr Num, body i a = a.wr i (fin (q i))) :
    ∃ a, loopUp n body (Arr.fill n 0) = some a ∧ a.toList = listOf n (fun v => fin (q v)) := by
  obtain ⟨a, h1, h2, h3⟩ := loopUp_inv (n := n) (body := body) (s := Arr.fill n 0)
    (P := fun i a => a.size = n ∧ ∀ v < i, a.data v = fin (q v)) ⟨rfl, fun v hv => absurd hv (by omega)⟩ (fun i hi a ⟨h1, h2⟩ => by
      rw [hb i hi, Arr.wr_of_lt (by rw [h1]; exact hi)]
      refine ⟨_, rfl, h1, fun v hv => ?_⟩
      dsimp only
      by_cases e : v = i
      · rw [if_pos e, e]
      · rw [if_neg e]; exact h2 v (by omega))
  refine ⟨a, h1, ?_⟩
  unfold Arr.toList listOf
  rw [h2]
  exact List.map_congr_left fun v hv => h3 v (List.mem_range.mp hv)

/-- A loop that draws nothing leaves zeros. -/
theorem metrics_skip {n m : ℕ} {body : ℕ → Arr Num → Option (Arr Num)} (hb : ∀ i < n, ∀ a : Arr Num, body i a = some a) :
    loopUp n body (Arr.fill m 0) = some (Arr.fill m 0) := by
  obtain ⟨a, h1, h2⟩ := loopUp_inv (n := n) (body := body) (s := Arr.fill m 0) (P := fun _ a => a = Arr.fill m 0) rfl
    (fun i hi a h => ⟨a, hb i hi a, h⟩)
  rw [h1, h2]

/-- Clear variables: the cost is on the side of the planted value and of the threshold. -/
theorem clear_side {var thr : ℚ} {noise : ℕ → ℚ} {sol : List Bool} {v : ℕ} (h : Clear var thr noise v) :
    (asgn sol v = true → plantedCost var sol noise v ≤ 0 ∧ plantedCost var sol noise v ≤ thr) ∧
    (asgn sol v = false → 0 ≤ plantedCost var sol noise v ∧ thr < plantedCost var sol noise v) := by
  unfold Clear at h
  have h1 := abs_nonneg thr
  have h2 := neg_abs_le (noise v)
  have h3 := le_abs_self (noise v)
  have h4 := neg_abs_le thr
  have h5 := le_abs_self thr
  unfold plantedCost
  constructor
  · intro e
    rw [if_pos e]
    constructor <;> linarith
  · intro e
    rw [if_neg (by simp [e])]
    constructor <;> linarith

end Verif.Proofs
