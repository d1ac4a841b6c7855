import Verif.Proofs.OddRuns
import Mathlib.Tactic.LinearCombination

/-! Formulas without mixed variables in which every variable occurs equally often, with equal costs. -/

namespace Verif.Proofs
open Verif Num Spec Model Properties

theorem damped_on_zero (alpha : ℚ) (r : ℕ → ℚ) : damped true alpha r 0 = (1 - alpha) * r 0 := by
  unfold damped
  split_ifs with h
  · simp
  · have : alpha = 0 := by by_contra h'; exact h ⟨rfl, h'⟩
    rw [this]; ring

theorem damped_on_succ (alpha : ℚ) (r : ℕ → ℚ) (k : ℕ) : damped true alpha r (k + 1) = (1 - alpha) * r (k + 1) + alpha * damped true alpha r k := by
  rw [damped_succ]
  split_ifs with h
  · ring
  · have : alpha = 0 := by by_contra h'; exact h ⟨rfl, h'⟩
    rw [this]; ring

theorem pow_low {p d : ℚ} (hd : 0 ≤ d) (h1 : -1 ≤ p) (h2 : p ≤ 1) (h3 : -1 ≤ d * p) (j : ℕ) : -1 ≤ d * p ^ j := by
  rcases le_total 0 p with h | h
  · have := mul_nonneg hd (pow_nonneg h j)
    linarith
  · rcases Nat.even_or_odd j with he | ⟨m, rfl⟩
    · have := mul_nonneg hd (he.pow_nonneg p)
      linarith
    · have e : p ^ (2 * m + 1) = p * (p ^ 2) ^ m := by ring
      have h4 : (p ^ 2) ^ m ≤ 1 := pow_le_one₀ (sq_nonneg p) (by nlinarith)
      have h5 : p ≤ p ^ (2 * m + 1) := by
        rw [e]
        nlinarith [mul_nonneg (by linarith : 0 ≤ -p) (by linarith : 0 ≤ 1 - (p ^ 2) ^ m)]
      nlinarith [mul_le_mul_of_nonneg_left h5 hd]

/-- The numbers behind a regular run. -/
theorem regular_closed {a alpha d : ℚ} (ha : 0 ≤ a) (h0 : 0 ≤ alpha) (h1 : alpha ≤ 1) (hd : 1 ≤ d) (hda : (1 - alpha) * (d - 1) ≤ 1) {X R : ℕ → ℚ} (hX0 : X 0 = a)
    (hR : ∀ j, R j = min (-(X j)) 0) (hX : ∀ j, X (j + 1) = a + (d - 1) * damped true alpha R j) (j : ℕ) :
    a + d * damped true alpha R j = a * (1 - d * (1 - alpha)) ^ (j + 1) := by
  have hd0 : d ≠ 0 := by linarith
  have hlow := pow_low (p := 1 - d * (1 - alpha)) (d := d - 1) (by linarith) (by nlinarith) (by nlinarith)
    (by nlinarith [mul_nonneg (by linarith : (0 : ℚ) ≤ d) (by linarith : 0 ≤ 1 - (1 - alpha) * (d - 1))])
  have hpos : ∀ i, d * X i = a * (1 + (d - 1) * (1 - d * (1 - alpha)) ^ i) → R i = -(X i) := by
    intro i hi
    rw [hR, min_eq_left]
    have h2 : 0 ≤ d * X i := by
      rw [hi]
      exact mul_nonneg ha (by linarith [hlow i])
    have := nonneg_of_mul_nonneg_right h2 (by linarith)
    linarith
  induction j with
  | zero =>
    rw [damped_on_zero, hpos 0 (by rw [hX0]; ring), hX0]
    ring
  | succ j ih =>
    have e : d * X (j + 1) = a * (1 + (d - 1) * (1 - d * (1 - alpha)) ^ (j + 1)) := by
      rw [hX]
      have : d * damped true alpha R j = a * (1 - d * (1 - alpha)) ^ (j + 1) - a := by linarith
      linear_combination (d - 1) * this
    rw [damped_on_succ, hpos _ e, pow_succ]
    linear_combination (-(1 - alpha)) * e + alpha * ih

section
variable {n k : ℕ} {t : KsatTables} (hf : KFormula n k t.clauses t.used t.conns) (hk : 2 ≤ k) {g : ℕ → ℤ} (hg : Unmixed t.clauses g) {w : ℕ → ℚ}
  {flag : Bool} {alpha : ℚ} {x r : ℕ → ℕ → ℕ → ℚ}
  (h : IsKsatTrace t.clauses.length k n ⟨t.clauses.length, k, litVar t⟩ ⟨t.clauses.length, k, litSign t⟩ w flag alpha
        (fun c v => if ∃ s < k, litVar t c s = v then w v else 0) x r)
  {a : ℚ} (hw : ∀ v ∈ t.used, w v * g v = a) {d : ℕ}
  (hd : ∀ c < t.clauses.length, ∀ v ∈ varsOf t.clauses c, ((Finset.range t.clauses.length).filter (fun c => v ∈ varsOf t.clauses c)).card = d)

include hf hk hg h hw hd in
/-- All messages are equal. -/
theorem regular_run : ∃ X R : ℕ → ℚ, X 0 = a ∧ (∀ j, R j = min (-(X j)) 0) ∧ (∀ j, X (j + 1) = a + ((d : ℚ) - 1) * damped flag alpha R j) ∧
    ∀ j, ∀ c < t.clauses.length, ∀ v ∈ clauseVars k (litVar t c), x j c v * g v = X j ∧ r j c v * g v = R j := by
  -- numbers by recursion on their history
  obtain ⟨X, hX0, hX⟩ : ∃ X : ℕ → ℚ, X 0 = a ∧ ∀ j, X (j + 1) = a + ((d : ℚ) - 1) * damped flag alpha (fun i => min (-(X i)) 0) j := by
    let D : ℕ → ℚ × ℚ := fun j => Nat.rec (a, dampStep flag alpha 0 (min (-a) 0) 0)
      (fun i s => let y := a + ((d : ℚ) - 1) * s.2; (y, dampStep flag alpha (i + 1) (min (-y) 0) s.2)) j
    refine ⟨fun j => (D j).1, rfl, fun j => ?_⟩
    have := damped_of_step (flag := flag) (alpha := alpha) (r := fun i => min (-((D i).1)) 0) (d := fun i => (D i).2) (fun p => by
      simp [dampStep, D]) (fun k => rfl) j
    rw [← this]
  refine ⟨X, fun j => min (-(X j)) 0, hX0, fun _ => rfl, hX, ?_⟩
  have key : ∀ j, ∀ i ≤ j, ∀ c < t.clauses.length, ∀ v ∈ clauseVars k (litVar t c), x i c v * g v = X i := by
    have hr : ∀ i, (∀ c < t.clauses.length, ∀ v ∈ clauseVars k (litVar t c), x i c v * g v = X i) →
        ∀ c < t.clauses.length, ∀ v ∈ clauseVars k (litVar t c), r i c v * g v = min (-(X i)) 0 := by
      intro i hi c hc v hv
      obtain ⟨u, hu, -, -, e⟩ := unmixed_closed hf hk hg h i hc hv
      rw [e, hi c hc u hu]
    intro j
    induction j with
    | zero =>
      intro i hi c hc v hv
      obtain rfl : i = 0 := by omega
      rw [unmixed_init hf h hc hv, hX0]
      exact hw v (vars_used hf hc (by rw [← clauseVars_eq hf hc]; exact hv))
    | succ j ih =>
      intro i hi c hc v hv
      rcases Nat.lt_or_ge i (j + 1) with hlt | hge
      · exact ih i (by omega) c hc v hv
      · obtain rfl : i = j + 1 := by omega
        have hv2 : v ∈ varsOf t.clauses c := by rw [← clauseVars_eq hf hc]; exact hv
        rw [unmixed_var h j hc hv, hX, hw v (vars_used hf hc hv2), occ_eq hf]
        congr 1
        have hm : c ∈ (Finset.range t.clauses.length).filter (fun c' => v ∈ varsOf t.clauses c') := Finset.mem_filter.mpr ⟨Finset.mem_range.mpr hc, hv2⟩
        have hs : ∀ c' ∈ ((Finset.range t.clauses.length).filter (fun c' => v ∈ varsOf t.clauses c')).erase c,
            damped flag alpha (fun i => r i c' v * g v) j = damped flag alpha (fun i => min (-(X i)) 0) j := by
          intro c' hc'
          obtain ⟨h1, h2⟩ := Finset.mem_filter.mp (Finset.mem_of_mem_erase hc')
          have h1 := Finset.mem_range.mp h1
          rw [← clauseVars_eq hf h1] at h2
          exact damped_congr fun i hi => hr i (ih i hi) c' h1 v h2
        rw [Finset.sum_congr rfl hs, Finset.sum_const, Finset.card_erase_of_mem hm, hd c hc v hv2, nsmul_eq_mul]
        have hd1 : 1 ≤ d := by
          rw [← hd c hc v hv2]
          exact Finset.card_pos.mpr ⟨c, hm⟩
        rw [Nat.cast_sub hd1]
        norm_num
  intro j c hc v hv
  refine ⟨key j j le_rfl c hc v hv, ?_⟩
  obtain ⟨u, hu, -, -, e⟩ := unmixed_closed hf hk hg h j hc hv
  rw [e, key j j le_rfl c hc u hu]

include hf in
/-- The belief, from the equal messages. -/
theorem regular_belief {R : ℕ → ℚ} (hr : ∀ j, ∀ c < t.clauses.length, ∀ v ∈ clauseVars k (litVar t c), r j c v * g v = R j) (K : ℕ) {v : ℕ} (hv : v ∈ t.used)
    (hwv : w v * g v = a) (hdv : ((Finset.range t.clauses.length).filter (fun c => v ∈ varsOf t.clauses c)).card = d) :
    ((∑ c ∈ occurrences t.clauses.length k ⟨t.clauses.length, k, litVar t⟩ v, damped flag alpha (fun i => r i c v) K) + if v ∈ t.used then w v else 0) * g v =
      a + d * damped flag alpha R K := by
  rw [if_pos hv, add_mul, hwv, Finset.sum_mul, add_comm]
  congr 1
  have hs : ∀ c ∈ occurrences t.clauses.length k ⟨t.clauses.length, k, litVar t⟩ v, damped flag alpha (fun i => r i c v) K * g v = damped flag alpha R K := by
    intro c hc
    obtain ⟨h1, h2⟩ := occ_vars hc
    rw [damped_scale]
    exact damped_congr fun i _ => hr i c h1 v h2
  rw [Finset.sum_congr rfl hs, Finset.sum_const, occ_eq hf, hdv, nsmul_eq_mul]

end

end Verif.Proofs
