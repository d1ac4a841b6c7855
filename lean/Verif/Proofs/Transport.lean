import Verif.Proofs.Marginal
import Mathlib.Algebra.BigOperators.Ring.Finset
import Mathlib.Algebra.BigOperators.Group.Finset.Piecewise
import Mathlib.Algebra.Order.Ring.Rat
import Mathlib.Tactic.Linarith
import Mathlib.Tactic.Ring

/-! Min-marginals under renaming of the variables, negation of some of them, and scaling. -/

namespace Verif.Proofs
open Verif Num Spec

/-- The assignment `S` after renaming by `σ` and negation of the variables with `neg`. -/
def flipSet (A : Finset ℕ) (σ : ℕ → ℕ) (neg : ℕ → Prop) [DecidablePred neg] (S : Finset ℕ) : Finset ℕ :=
  (A.filter (fun v => v ∈ S ↔ ¬ neg v)).image σ

section
variable {A : Finset ℕ} {σ : ℕ → ℕ} {neg : ℕ → Prop} [DecidablePred neg] (hσ : ∀ u ∈ A, ∀ v ∈ A, σ u = σ v → u = v)
include hσ

theorem mem_flipSet {S : Finset ℕ} {v : ℕ} (hv : v ∈ A) : σ v ∈ flipSet A σ neg S ↔ (v ∈ S ↔ ¬ neg v) := by
  unfold flipSet
  rw [Finset.mem_image]
  constructor
  · rintro ⟨u, hu, e⟩
    rw [Finset.mem_filter] at hu
    obtain rfl := hσ u hu.1 v hv e
    exact hu.2
  · intro h
    exact ⟨v, Finset.mem_filter.mpr ⟨hv, h⟩, rfl⟩

theorem flipSet_surj {T : Finset ℕ} (hT : T ⊆ A.image σ) : ∃ S ⊆ A, flipSet A σ neg S = T := by
  refine ⟨A.filter (fun v => σ v ∈ T ↔ ¬ neg v), Finset.filter_subset _ _, ?_⟩
  ext u
  constructor
  · intro hu
    obtain ⟨v, hv, rfl⟩ := Finset.mem_image.mp (show u ∈ (A.filter _).image σ from hu)
    rw [Finset.mem_filter, Finset.mem_filter] at hv
    obtain ⟨h1, h2⟩ := hv
    by_cases hn : neg v <;> simp_all
  · intro hu
    obtain ⟨v, hv, rfl⟩ := Finset.mem_image.mp (hT hu)
    rw [mem_flipSet hσ hv, Finset.mem_filter]
    by_cases hn : neg v <;> simp_all

theorem cost_flipSet {x y : ℕ → ℚ} {s : ℚ} (hy : ∀ v ∈ A, y (σ v) = s * (if neg v then -1 else 1) * x v) {S : Finset ℕ} (hS : S ⊆ A) :
    cost y (flipSet A σ neg S) = s * cost x S - s * ∑ v ∈ A, if neg v then x v else 0 := by
  unfold cost flipSet
  rw [Finset.sum_image (fun u hu v hv e => hσ u (Finset.mem_filter.mp hu).1 v (Finset.mem_filter.mp hv).1 e), Finset.sum_filter,
    show ∑ v ∈ S, x v = ∑ v ∈ A, if v ∈ S then x v else 0 by
      rw [← Finset.sum_filter, Finset.filter_mem_eq_inter, Finset.inter_eq_right.mpr hS],
    Finset.mul_sum, Finset.mul_sum, ← Finset.sum_sub_distrib]
  refine Finset.sum_congr rfl fun v hv => ?_
  rw [hy v hv]
  by_cases hn : neg v <;> by_cases hs : v ∈ S <;> simp [hn, hs]

variable {P Q : Finset ℕ → Prop} {x y : ℕ → ℚ} {s : ℚ}

theorem least_transport (hs : 0 < s) (hy : ∀ v ∈ A, y (σ v) = s * (if neg v then -1 else 1) * x v) (hPQ : ∀ S ⊆ A, (Q (flipSet A σ neg S) ↔ P S))
    {c c' : Finset ℕ → Prop} (hc : ∀ S ⊆ A, (c' (flipSet A σ neg S) ↔ c S)) {q : ℚ} (h : IsLeast (costs A P x c) q) :
    IsLeast (costs (A.image σ) Q y c') (s * q - s * ∑ v ∈ A, if neg v then x v else 0) := by
  obtain ⟨⟨S, s1, s2, s3, rfl⟩, hm⟩ := h
  have hsub : ∀ S, flipSet A σ neg S ⊆ A.image σ := fun S => Finset.image_subset_image (Finset.filter_subset _ _)
  refine ⟨⟨flipSet A σ neg S, hsub S, (hPQ S s1).mpr s2, (hc S s1).mpr s3, cost_flipSet hσ hy s1⟩, ?_⟩
  rintro q ⟨T, t1, t2, t3, rfl⟩
  obtain ⟨U, u1, rfl⟩ := flipSet_surj hσ (neg := neg) t1
  rw [cost_flipSet hσ hy u1]
  have := hm ⟨U, u1, (hPQ U u1).mp t2, (hc U u1).mp t3, rfl⟩
  have := mul_le_mul_of_nonneg_left this hs.le
  linarith

theorem marg_transport (hs : 0 < s) (hy : ∀ v ∈ A, y (σ v) = s * (if neg v then -1 else 1) * x v) (hPQ : ∀ S ⊆ A, (Q (flipSet A σ neg S) ↔ P S))
    {v : ℕ} (hv : v ∈ A) {d : ℚ} (h : MarginalDiff A P x v d) :
    MarginalDiff (A.image σ) Q y (σ v) (s * (if neg v then -1 else 1) * d) := by
  obtain ⟨a, b, ha, hb, rfl⟩ := h
  by_cases hn : neg v
  · refine ⟨_, _, least_transport hσ hs hy hPQ (fun S hS => ?_) hb, least_transport hσ hs hy hPQ (fun S hS => ?_) ha, ?_⟩
    · rw [mem_flipSet hσ hv]; simp [hn]
    · rw [mem_flipSet hσ hv]; simp [hn]
    · rw [if_pos hn]; ring
  · refine ⟨_, _, least_transport hσ hs hy hPQ (fun S hS => ?_) ha, least_transport hσ hs hy hPQ (fun S hS => ?_) hb, ?_⟩
    · rw [mem_flipSet hσ hv]; simp [hn]
    · rw [mem_flipSet hσ hv]; simp [hn]
    · rw [if_neg hn]; ring

end
end Verif.Proofs
