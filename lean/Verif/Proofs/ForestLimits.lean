import Verif.Proofs.Forest
import Verif.Spec.Damping
import Mathlib.Algebra.Order.Archimedean.Basic
import Mathlib.Data.Rat.Floor
import Mathlib.Tactic.Positivity
import Mathlib.Tactic.FieldSimp

/-! The two notions of limit used for min-sum on graphs without cycles: constant from some iteration on, and convergence. -/

namespace Verif.Proofs
open Verif Num Spec

theorem limits_const : Limits (fun t s a => ∀ j ≥ t, s j = a) where
  mono h h' j hj := h' j (le_trans h hj)
  squeeze F s a z q C h h' j hj := by
    have h1 := h' j
    rw [Finset.sum_eq_zero (fun i hi => by rw [h i hi j hj]; simp)] at h1
    simp only [mul_zero] at h1
    have := abs_nonpos_iff.mp h1
    linarith
  shift := by
    intro t s a
    constructor
    · intro h j hj; exact h (j + 1) (by omega)
    · intro h j hj
      have := h (j - 1) (by omega)
      beta_reduce at this
      rwa [Nat.sub_add_cancel (by omega)] at this

theorem tends_common (F : Finset ℕ) {s : ℕ → ℕ → ℚ} {a : ℕ → ℚ} (h : ∀ i ∈ F, Tends (s i) (a i)) {ε : ℚ} (he : 0 < ε) :
    ∃ N, ∀ j ≥ N, ∀ i ∈ F, |s i j - a i| < ε := by
  induction F using Finset.induction with
  | empty => exact ⟨0, by simp⟩
  | insert b F hb ih =>
    obtain ⟨N, hN⟩ := ih fun i hi => h i (by simp [hi])
    obtain ⟨M, hM⟩ := h b (by simp) ε he
    refine ⟨max N M, fun j hj i hi => ?_⟩
    rcases Finset.mem_insert.mp hi with rfl | hi
    · exact hM j (le_trans (le_max_right _ _) hj)
    · exact hN j (le_trans (le_max_left _ _) hj) i hi

theorem limits_tends : Limits (fun _ s a => Tends s a) where
  mono _ h := h
  squeeze F s a z q C h h' := by
    intro ε he
    have hpos : 0 < (|C| + 1) * (F.card + 1) := by positivity
    obtain ⟨N, hN⟩ := tends_common F h (div_pos he hpos)
    refine ⟨N, fun j hj => lt_of_le_of_lt (h' j) ?_⟩
    have h1 : ∑ i ∈ F, |s i j - a i| ≤ F.card * (ε / ((|C| + 1) * (F.card + 1))) := by
      have := Finset.sum_le_sum fun i hi => (hN j hj i hi).le
      simpa using this
    have h2 : 0 ≤ ∑ i ∈ F, |s i j - a i| := Finset.sum_nonneg fun i _ => abs_nonneg _
    calc C * ∑ i ∈ F, |s i j - a i| ≤ |C| * ∑ i ∈ F, |s i j - a i| := mul_le_mul_of_nonneg_right (le_abs_self C) h2
      _ ≤ |C| * (F.card * (ε / ((|C| + 1) * (F.card + 1)))) := mul_le_mul_of_nonneg_left h1 (abs_nonneg C)
      _ = ε * (|C| * F.card / ((|C| + 1) * (F.card + 1))) := by ring
      _ < ε * 1 := by
        refine mul_lt_mul_of_pos_left ?_ he
        rw [div_lt_one hpos]
        have : (0 : ℚ) ≤ F.card := by positivity
        nlinarith [abs_nonneg C]
      _ = ε := mul_one ε
  shift := by
    intro t s a
    constructor
    · intro h ε he
      obtain ⟨N, hN⟩ := h ε he
      exact ⟨N, fun j hj => hN (j + 1) (by omega)⟩
    · intro h ε he
      obtain ⟨N, hN⟩ := h ε he
      refine ⟨N + 1, fun j hj => ?_⟩
      have := hN (j - 1) (by omega)
      beta_reduce at this
      rwa [Nat.sub_add_cancel (by omega)] at this

theorem tends_step {b s : ℕ → ℚ} {alpha : ℚ} (ha : |alpha| < 1) (hs : ∀ j, s (j + 1) = alpha * s j + b (j + 1)) (hb : Tends b 0) :
    Tends s 0 := by
  intro ε he
  have h1 : 0 < 1 - |alpha| := by linarith
  obtain ⟨N, hN⟩ := hb (ε / 2 * (1 - |alpha|)) (by positivity)
  have hk : ∀ k, |s (N + k)| ≤ |alpha| ^ k * |s N| + ε / 2 := by
    intro k
    induction k with
    | zero => simp; linarith
    | succ k ih =>
      have h2 := hN (N + k + 1) (by omega)
      rw [sub_zero] at h2
      rw [← Nat.add_assoc, hs]
      calc |alpha * s (N + k) + b (N + k + 1)| ≤ |alpha| * |s (N + k)| + |b (N + k + 1)| := by
            rw [← abs_mul]; exact abs_add_le _ _
        _ ≤ |alpha| * (|alpha| ^ k * |s N| + ε / 2) + ε / 2 * (1 - |alpha|) := by
            have := mul_le_mul_of_nonneg_left ih (abs_nonneg alpha)
            linarith
        _ = |alpha| ^ (k + 1) * |s N| + ε / 2 := by ring
  obtain ⟨M, hM⟩ := exists_pow_lt_of_lt_one (show 0 < ε / 2 / (|s N| + 1) by positivity) ha
  refine ⟨N + M, fun j hj => ?_⟩
  obtain ⟨k, rfl⟩ : ∃ k, j = N + k := ⟨j - N, by omega⟩
  rw [sub_zero]
  refine lt_of_le_of_lt (hk k) ?_
  have h3 : |alpha| ^ k ≤ |alpha| ^ M := pow_le_pow_of_le_one (abs_nonneg _) ha.le (by omega)
  have h4 : |alpha| ^ k * |s N| < ε / 2 := by
    have h5 : |alpha| ^ k < ε / 2 / (|s N| + 1) := lt_of_le_of_lt h3 hM
    rw [lt_div_iff₀ (by positivity)] at h5
    have : 0 ≤ |alpha| ^ k := by positivity
    nlinarith
  linarith

/-- Damping with a factor below one does not change limits. -/
theorem damped_tends {flag : Bool} {alpha : ℚ} {r : ℕ → ℚ} {a : ℚ} (ha : flag = true → |alpha| < 1) (h : Tends r a) :
    Tends (fun j => damped flag alpha r j) a := by
  by_cases hf : flag = true ∧ alpha ≠ 0
  · have ha := ha hf.1
    have hd : ∀ j, damped flag alpha r (j + 1) = alpha * damped flag alpha r j + (1 - alpha) * r (j + 1) := by
      intro j
      simp only [damped, if_pos hf]
      rw [Finset.sum_range_succ]
      have : ∑ i ∈ Finset.range (j + 1), alpha ^ (j + 1 - i) * r i = alpha * ∑ i ∈ Finset.range (j + 1), alpha ^ (j - i) * r i := by
        rw [Finset.mul_sum]
        refine Finset.sum_congr rfl fun i hi => ?_
        have := Finset.mem_range.mp hi
        rw [show j + 1 - i = (j - i) + 1 by omega, pow_succ]; ring
      rw [this]; simp; ring
    have h0 : Tends (fun j => damped flag alpha r j - a) 0 := by
      refine tends_step (b := fun j => (1 - alpha) * (r j - a)) ha (fun j => by rw [hd]; ring) ?_
      refine limits_tends.squeeze (t := 0) {0} (fun _ => r) (fun _ => a) _ _ (|1 - alpha|) (by simpa using h) fun j => ?_
      simp [abs_mul]
    intro ε he
    obtain ⟨N, hN⟩ := h0 ε he
    exact ⟨N, fun j hj => by simpa using hN j hj⟩
  · simpa only [damped, if_neg hf] using h

end Verif.Proofs
