import Verif.Proofs.Limit

/-! Arithmetic and costs that become more and more accurate. -/

namespace Verif.Proofs
open Verif Num Filter Topology Spec

/-- A rounding together with a finite cost matrix. -/
abbrev RoundedCosts (n : ℕ) : Type := (ℚ → Num) × {p : Mat Num × (ℕ → ℕ → ℚ) // p.1.Is n n p.2}

/-- The rounding has accuracy `ε` up to `M`, the costs are within `ε` of `C`. -/
def RoundedCosts.Close {n : ℕ} (C : ℕ → ℕ → ℚ) (i : RoundedCosts n) (M ε : ℚ) : Prop :=
  Accurate i.1 M ε ∧ ∀ u < n, ∀ v < n, |C u v - i.2.val.2 u v| ≤ ε

theorem RoundedCosts.Close.mono {n : ℕ} {C : ℕ → ℕ → ℚ} {i : RoundedCosts n} {M ε M' ε' : ℚ} (h : i.Close C M ε) (hM : M' ≤ M) (hε : ε ≤ ε') :
    i.Close C M' ε' :=
  ⟨Accurate.mono h.1 hM hε, fun u hu v hv => (h.2 u hu v hv).trans hε⟩

/-- Towards exact arithmetic and the costs `C`. -/
def accuracyFilter (n : ℕ) (C : ℕ → ℕ → ℚ) : Filter (RoundedCosts n) where
  sets := {S | ∃ M ε : ℚ, 0 < ε ∧ ∀ i : RoundedCosts n, i.Close C M ε → i ∈ S}
  univ_sets := ⟨0, 1, one_pos, fun _ _ => trivial⟩
  sets_of_superset := by
    rintro S T ⟨M, ε, h1, h2⟩ hS
    exact ⟨M, ε, h1, fun i hi => hS (h2 i hi)⟩
  inter_sets := by
    rintro S T ⟨M, ε, h1, h2⟩ ⟨M', ε', h1', h2'⟩
    exact ⟨max M M', min ε ε', lt_min h1 h1', fun i hi =>
      ⟨h2 i (hi.mono (le_max_left _ _) (min_le_left _ _)), h2' i (hi.mono (le_max_right _ _) (min_le_right _ _))⟩⟩

theorem fine_accuracy (n : ℕ) (C : ℕ → ℕ → ℚ) : Fine (accuracyFilter n C) (fun i => i.1) := fun M ε hε => ⟨M, ε, hε, fun _ hi => hi.1⟩

theorem lim_costs {n : ℕ} {C : ℕ → ℕ → ℚ} {u v : ℕ} (hu : u < n) (hv : v < n) :
    Lim (accuracyFilter n C) (fin (C u v)) (fun i => fin (i.2.val.2 u v)) := by
  refine ⟨_, Eventually.of_forall fun _ => rfl, Metric.tendsto_nhds.mpr fun ε hε => ?_⟩
  obtain ⟨ε', h1, h2⟩ := exists_rat_btwn hε
  refine ⟨0, ε', by exact_mod_cast h1, fun i hi => ?_⟩
  show dist _ _ < ε
  rw [dist_comm, Rat.dist_eq]
  refine lt_of_le_of_lt ?_ h2
  exact_mod_cast hi.2 u hu v hv

/-- A family that tends to a finite number is eventually within `η`. -/
theorem Lim.near {ι : Type} {l : Filter ι} {a : ℚ} {b : ι → Num} (h : Lim l (fin a) b) {η : ℚ} (hη : 0 < η) :
    ∀ᶠ i in l, ∃ c, b i = fin c ∧ |a - c| ≤ η := by
  obtain ⟨p, h1, h2⟩ := h
  have hη' : (0 : ℝ) < η := by exact_mod_cast hη
  filter_upwards [h1, Metric.tendsto_nhds.mp h2 η hη'] with i g1 g2
  refine ⟨p i, g1, ?_⟩
  rw [dist_comm, Rat.dist_eq] at g2
  exact_mod_cast g2.le

end Verif.Proofs
