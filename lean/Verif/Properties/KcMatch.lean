import Verif.Proofs.KcMatch

/-! C31: which pairs are matched. C42: when the match counts as valid. -/

namespace Verif.Properties
open Verif Model Spec Proofs Num

/-- C31, full claim: the matched pairs are exactly those with a belief below the threshold. -/
def C31_claim : Prop :=
  ∀ (q : ℚ) (a : Mat Num) (i j : ℕ), i < a.rows → j < a.cols →
    ((i, j) ∈ matchedPairs (decisionMatrix (fin q) a) ↔ lt (a.data i j) (fin q) = true)

/-- With a positive threshold a belief above it is first set to 0, which is below the threshold, and then to 1. -/
theorem C31_claim_false : ¬ C31_claim := by
  intro h
  have := h (1 / 2) ⟨1, 1, fun _ _ => fin 5⟩ 0 0 (by decide) (by decide)
  revert this
  decide +kernel

/-- C31 for thresholds at most 0 (the default is -0.0001): all beliefs, including infinite and NaN ones. The selected teams are the teams
of the matched pairs, in ascending order. Missing: positive thresholds, see `C31_positive`. -/
theorem C31_nonpositive_partial {q : ℚ} (hq : q ≤ 0) (a : Mat Num) :
    (∀ i < a.rows, ∀ j < a.cols, ((i, j) ∈ matchedPairs (decisionMatrix (fin q) a) ↔ lt (a.data i j) (fin q) = true)) ∧
    (∀ c ∈ matchedPairs (decisionMatrix (fin q) a), c.1 < a.rows ∧ c.2 < a.cols) ∧
    (selectedTeams (decisionMatrix (fin q) a)).Pairwise (· < ·) ∧
    ∀ j, j ∈ selectedTeams (decisionMatrix (fin q) a) ↔ j < a.cols ∧ ∃ i < a.rows, lt (a.data i j) (fin q) = true := by
  have key : ∀ i < a.rows, ∀ j < a.cols, ((i, j) ∈ matchedPairs (decisionMatrix (fin q) a) ↔ lt (a.data i j) (fin q) = true) := by
    intro i hi j hj
    rw [mem_matchedPairs, ← decideEntry_nonpos hq]
    exact ⟨fun h => h.2.2, fun h => ⟨hi, hj, h⟩⟩
  refine ⟨key, fun c hc => ?_, ?_, fun j => ?_⟩
  · obtain ⟨h1, h2, _⟩ := mem_matchedPairs.mp hc; exact ⟨h1, h2⟩
  · exact (List.pairwise_lt_range).filter _
  · unfold selectedTeams
    simp only [List.mem_filter, List.mem_range, List.contains_eq_mem, decide_eq_true_eq, List.mem_map]
    constructor
    · rintro ⟨hj, ⟨i, j'⟩, hm, rfl⟩
      exact ⟨hj, i, (mem_matchedPairs.mp hm).1, (key i (mem_matchedPairs.mp hm).1 _ hj).mp hm⟩
    · rintro ⟨hj, i, hi, h⟩
      exact ⟨hj, (i, j), (key i hi j hj).mpr h, rfl⟩

/-- What happens instead for a positive threshold: everything is matched except NaN and (unless the threshold is 1) beliefs equal to the
threshold. -/
theorem C31_positive {q : ℚ} (hq : 0 < q) (a : Mat Num) (i j : ℕ) (hi : i < a.rows) (hj : j < a.cols) :
    (i, j) ∈ matchedPairs (decisionMatrix (fin q) a) ↔ a.data i j ≠ nan ∧ (a.data i j ≠ fin q ∨ q = 1) := by
  rw [mem_matchedPairs, ← decideEntry_pos hq]
  exact ⟨fun h => h.2.2, fun h => ⟨hi, hj, h⟩⟩

example : matchedPairs (decisionMatrix (fin (-1)) (Mat.ofRat 2 3 fun i j => (i : ℚ) - j)) = [(0, 2)] := by decide +kernel
example : selectedTeams (decisionMatrix (fin (-1)) (Mat.ofRat 2 3 fun i j => (j : ℚ) - 3 * i)) = [0, 1] := by decide +kernel

/-- C42: the flag `valid_match` is set exactly when the chosen pairs are a matching with `min P T` pairs (all projects or all teams are
matched), for thresholds at most 0 such that no belief lies exactly on a negative threshold. -/
theorem C42_valid {P T : ℕ} {a : Mat Num} {x : ℕ → ℕ → ℚ} (ha : a.Is P T x) {q : ℚ} (hq : q ≤ 0)
    (hne : q = 0 ∨ ∀ i < P, ∀ j < T, x i j ≠ q) :
    validMatch (fin q) a = true ↔ IsMatching P T (fun i j => decide (x i j < q)) ∧
      (chosen P T (fun i j => decide (x i j < q))).card = min P T :=
  validMatch_iff ha hq hne

example : validMatch (fin 0) (Mat.ofRat 2 3 fun i j => if j = 2 - i then -1 else 1) = true := by decide +kernel
example : validMatch (fin 0) (Mat.ofRat 2 3 fun _ j => if j = 1 then -1 else 1) = false := by decide +kernel
example : validMatch (fin 0) (Mat.ofRat 2 2 fun i j => if j = i then -1 else 0) = true := by decide +kernel

end Verif.Properties
