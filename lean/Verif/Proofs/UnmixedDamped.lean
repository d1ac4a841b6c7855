import Verif.Proofs.Unmixed
import Mathlib.Algebra.Order.Archimedean.Basic

/-! Damped runs on formulas without mixed variables end up between the undamped ones. -/

namespace Verif.Proofs
open Verif Num Spec Model Properties

/-- The factor by which the past counts. -/
def pastFactor (flag : Bool) (alpha : ℚ) : ℚ := if flag = true then alpha else 0

theorem damped_lower {flag : Bool} {alpha : ℚ} (ha : flag = true → 0 ≤ alpha ∧ alpha < 1) {r : ℕ → ℚ} {lo B : ℚ} {J : ℕ} (hr : ∀ j ≥ J, lo ≤ r j) (hB : 0 ≤ B)
    (hD : lo - B ≤ damped flag alpha r J) (p : ℕ) : lo - pastFactor flag alpha ^ p * B ≤ damped flag alpha r (J + p) := by
  by_cases h : flag ∧ alpha ≠ 0
  · have e : pastFactor flag alpha = alpha := if_pos h.1
    obtain ⟨h0, h1⟩ := ha h.1
    rw [e]
    induction p with
    | zero => simpa using hD
    | succ p ih =>
      rw [show J + (p + 1) = J + p + 1 by omega, damped_succ, if_pos h, pow_succ]
      have h2 := mul_le_mul_of_nonneg_left (hr (J + p + 1) (by omega)) (show 0 ≤ 1 - alpha by linarith)
      have h3 := mul_le_mul_of_nonneg_left ih h0
      linarith
  · have e : damped flag alpha r (J + p) = r (J + p) := if_neg h
    rw [e]
    have h1 := hr (J + p) (by omega)
    have h2 : 0 ≤ pastFactor flag alpha := by
      unfold pastFactor
      split
      · exact (ha ‹_›).1
      · exact le_rfl
    have := mul_nonneg (pow_nonneg h2 p) hB
    linarith

theorem damped_upper {flag : Bool} {alpha : ℚ} (ha : flag = true → 0 ≤ alpha ∧ alpha < 1) {r : ℕ → ℚ} {hi B : ℚ} {J : ℕ} (hr : ∀ j ≥ J, r j ≤ hi) (hB : 0 ≤ B)
    (hD : damped flag alpha r J ≤ hi + B) (p : ℕ) : damped flag alpha r (J + p) ≤ hi + pastFactor flag alpha ^ p * B := by
  have e : ∀ j, damped flag alpha (fun i => -1 * r i) j = -1 * damped flag alpha r j := fun j => damped_smul flag alpha (-1) r j
  have := damped_lower ha (r := fun i => -1 * r i) (lo := -hi) (B := B) (J := J) (fun j hj => by linarith [hr j hj]) hB (by rw [e]; linarith) p
  rw [e] at this
  linarith

theorem past_small {flag : Bool} {alpha : ℚ} (ha : flag = true → 0 ≤ alpha ∧ alpha < 1) {B δ : ℚ} (hB : 0 ≤ B) (hδ : 0 < δ) :
    ∃ q, ∀ p ≥ q, pastFactor flag alpha ^ p * B ≤ δ := by
  have h0 : 0 ≤ pastFactor flag alpha ∧ pastFactor flag alpha < 1 := by
    unfold pastFactor
    split
    · exact ha ‹_›
    · exact ⟨le_rfl, zero_lt_one⟩
  obtain ⟨q, hq⟩ := exists_pow_lt_of_lt_one (show 0 < δ / (B + 1) by positivity) h0.2
  refine ⟨q, fun p hp => ?_⟩
  have h1 : pastFactor flag alpha ^ p ≤ pastFactor flag alpha ^ q := pow_le_pow_of_le_one h0.1 h0.2.le hp
  have h2 : pastFactor flag alpha ^ p ≤ δ / (B + 1) := h1.trans hq.le
  rw [le_div_iff₀ (by linarith)] at h2
  have h3 := pow_nonneg h0.1 p
  nlinarith

section
variable {n k : ℕ} {t : KsatTables} (hf : KFormula n k t.clauses t.used t.conns) (hk : 2 ≤ k) {g : ℕ → ℤ} (hg : Unmixed t.clauses g) {w : ℕ → ℚ}
include hf hk hg

theorem unmixed_shift {flag flag' : Bool} {alpha alpha' : ℚ} {x r x' r' : ℕ → ℕ → ℕ → ℚ}
    (h : IsKsatTrace t.clauses.length k n ⟨t.clauses.length, k, litVar t⟩ ⟨t.clauses.length, k, litSign t⟩ w flag alpha
        (fun c v => if ∃ s < k, litVar t c s = v then w v else 0) x r)
    (h' : IsKsatTrace t.clauses.length k n ⟨t.clauses.length, k, litVar t⟩ ⟨t.clauses.length, k, litSign t⟩ w flag' alpha'
        (fun c v => if ∃ s < k, litVar t c s = v then w v else 0) x' r') {i j : ℕ} {c v : ℕ} (hc : c < t.clauses.length) (hv : v ∈ clauseVars k (litVar t c))
    {ε : ℚ} (hε : 0 ≤ ε) (hx : ∀ u ∈ clauseVars k (litVar t c), x i c u * g u - ε ≤ x' j c u * g u) : r' j c v * g v ≤ r i c v * g v + ε := by
  obtain ⟨u, hu, hne, hmin, e⟩ := unmixed_closed hf hk hg h i hc hv
  obtain ⟨u', hu', hne', _, e'⟩ := unmixed_closed hf hk hg h' j hc hv
  rw [e, e']
  have h1 := hmin u' hu' hne'
  have h2 := hx u' hu'
  rcases min_choice (-(x i c u * g u)) 0 with e1 | e1
  · rw [e1]
    exact (min_le_left _ _).trans (by linarith)
  · rw [e1]
    exact (min_le_right _ _).trans (by linarith)

variable {flag : Bool} {alpha : ℚ} (ha : flag = true → 0 ≤ alpha ∧ alpha < 1) {x r x0 r0 : ℕ → ℕ → ℕ → ℚ}
  (h : IsKsatTrace t.clauses.length k n ⟨t.clauses.length, k, litVar t⟩ ⟨t.clauses.length, k, litSign t⟩ w flag alpha
        (fun c v => if ∃ s < k, litVar t c s = v then w v else 0) x r)
  (h0 : IsKsatTrace t.clauses.length k n ⟨t.clauses.length, k, litVar t⟩ ⟨t.clauses.length, k, litSign t⟩ w false 0
        (fun c v => if ∃ s < k, litVar t c s = v then w v else 0) x0 r0)
include ha h h0

/-- Damped messages, eventually, from bounds on the messages before damping. -/
theorem damped_close (i : ℕ) {δ : ℚ} (hδ : 0 < δ) {J : ℕ} (hJ : ∀ j ≥ J, ∀ c < t.clauses.length, ∀ v ∈ clauseVars k (litVar t c),
      (Even i → r0 i c v * g v - δ ≤ r j c v * g v) ∧ (¬ Even i → r j c v * g v ≤ r0 i c v * g v + δ)) :
    ∃ J', ∀ j ≥ J', ∀ c < t.clauses.length, ∀ v ∈ clauseVars k (litVar t c),
      (Even i → r0 i c v * g v - 2 * δ ≤ damped flag alpha (fun j => r j c v * g v) j) ∧
      (¬ Even i → damped flag alpha (fun j => r j c v * g v) j ≤ r0 i c v * g v + 2 * δ) := by
  have ha1 : flag = true → 0 ≤ alpha ∧ alpha ≤ 1 := fun e => ⟨(ha e).1, (ha e).2.le⟩
  -- a bound for all messages
  obtain ⟨B, hB, hBr⟩ : ∃ B, 0 ≤ B ∧ ∀ c < t.clauses.length, ∀ v ∈ clauseVars k (litVar t c), -B ≤ r 0 c v * g v ∧ -B ≤ r0 0 c v * g v := by
    refine ⟨∑ c ∈ Finset.range t.clauses.length, ∑ v ∈ clauseVars k (litVar t c), (|r 0 c v * g v| + |r0 0 c v * g v|),
      Finset.sum_nonneg fun c _ => Finset.sum_nonneg fun v _ => add_nonneg (abs_nonneg _) (abs_nonneg _), fun c hc v hv => ?_⟩
    have h1 : |r 0 c v * g v| + |r0 0 c v * g v| ≤ ∑ v ∈ clauseVars k (litVar t c), (|r 0 c v * g v| + |r0 0 c v * g v|) :=
      Finset.single_le_sum (f := fun v => |r 0 c v * g v| + |r0 0 c v * g v|) (fun v _ => add_nonneg (abs_nonneg _) (abs_nonneg _)) hv
    have h2 : ∑ v ∈ clauseVars k (litVar t c), (|r 0 c v * g v| + |r0 0 c v * g v|) ≤
        ∑ c ∈ Finset.range t.clauses.length, ∑ v ∈ clauseVars k (litVar t c), (|r 0 c v * g v| + |r0 0 c v * g v|) :=
      Finset.single_le_sum (f := fun c => ∑ v ∈ clauseVars k (litVar t c), (|r 0 c v * g v| + |r0 0 c v * g v|))
        (fun c _ => Finset.sum_nonneg fun v _ => add_nonneg (abs_nonneg _) (abs_nonneg _)) (Finset.mem_range.mpr hc)
    have h3 := neg_abs_le (r 0 c v * g v)
    have h4 := neg_abs_le (r0 0 c v * g v)
    have h5 := abs_nonneg (r 0 c v * g v)
    have h6 := abs_nonneg (r0 0 c v * g v)
    constructor <;> linarith
  obtain ⟨q, hq⟩ := past_small ha hB hδ
  refine ⟨J + q, fun j hj c hc v hv => ?_⟩
  obtain ⟨p, rfl⟩ : ∃ p, j = J + p := ⟨j - J, by omega⟩
  have hp := hq p (by omega)
  have hD : -B ≤ damped flag alpha (fun j => r j c v * g v) J ∧ damped flag alpha (fun j => r j c v * g v) J ≤ 0 :=
    damped_le ha1 (by linarith) le_rfl fun j _ => ⟨(hBr c hc v hv).1.trans (unmixed_low hf hk hg h ha1 j hc hv), unmixed_nonpos hf hk hg h j hc hv⟩
  have hU0 := unmixed_nonpos hf hk hg h0 i hc hv
  have hU1 : -B ≤ r0 i c v * g v := (hBr c hc v hv).2.trans (unmixed_low hf hk hg h0 (fun e => by cases e) i hc hv)
  constructor
  · intro he
    have := damped_lower ha (r := fun j => r j c v * g v) (lo := r0 i c v * g v - δ) (B := B) (J := J) (fun j hj => (hJ j hj c hc v hv).1 he) hB (by linarith) p
    linarith
  · intro he
    have := damped_upper ha (r := fun j => r j c v * g v) (hi := r0 i c v * g v + δ) (B := B) (J := J) (fun j hj => (hJ j hj c hc v hv).2 he) hB (by linarith) p
    linarith

/-- Messages of a damped run are eventually above those of the undamped iterations 0, 2, 4, … and below those of 1, 3, 5, …, up to any error. -/
theorem damped_bracket (i : ℕ) : ∀ ε > 0, ∃ J, ∀ j ≥ J, ∀ c < t.clauses.length, ∀ v ∈ clauseVars k (litVar t c),
      (Even i → r0 i c v * g v - ε ≤ r j c v * g v) ∧ (¬ Even i → r j c v * g v ≤ r0 i c v * g v + ε) := by
  have ha1 : flag = true → 0 ≤ alpha ∧ alpha ≤ 1 := fun e => ⟨(ha e).1, (ha e).2.le⟩
  induction i with
  | zero =>
    intro ε hε
    refine ⟨0, fun j _ c hc v hv => ⟨fun _ => ?_, fun he => absurd (by decide) he⟩⟩
    have h1 := unmixed_low hf hk hg h ha1 j hc hv
    have h2 := unmixed_shift hf hk hg h h0 (i := 0) (j := 0) hc hv le_rfl fun u hu => by
      rw [unmixed_init hf h hc hu, unmixed_init hf h0 hc hu, sub_zero]
    linarith
  | succ i ih =>
    intro ε hε
    have hm : (0 : ℚ) ≤ t.clauses.length := Nat.cast_nonneg _
    obtain ⟨J, hJ⟩ := ih (ε / (2 * (t.clauses.length + 1))) (by positivity)
    obtain ⟨J', hJ'⟩ := damped_close hf hk hg ha h h0 i (by positivity) hJ
    have hδ : 2 * (ε / (2 * (t.clauses.length + 1))) * t.clauses.length ≤ ε := by
      rw [show 2 * (ε / (2 * ((t.clauses.length : ℚ) + 1))) * t.clauses.length = ε * t.clauses.length / (t.clauses.length + 1) by field_simp]
      rw [div_le_iff₀ (by linarith)]
      nlinarith
    have hcard : ∀ c u, (((occurrences t.clauses.length k ⟨t.clauses.length, k, litVar t⟩ u).erase c).card : ℚ) ≤ t.clauses.length := by
      intro c u
      have : ((occurrences t.clauses.length k ⟨t.clauses.length, k, litVar t⟩ u).erase c).card ≤ t.clauses.length := by
        refine (Finset.card_erase_le).trans ?_
        refine (Finset.card_filter_le _ _).trans ?_
        rw [Finset.card_range]
      exact_mod_cast this
    have hsum : ∀ c u, ∑ _c' ∈ (occurrences t.clauses.length k ⟨t.clauses.length, k, litVar t⟩ u).erase c, 2 * (ε / (2 * ((t.clauses.length : ℚ) + 1))) ≤ ε := by
      intro c u
      rw [Finset.sum_const, nsmul_eq_mul]
      have h1 : 0 ≤ 2 * (ε / (2 * ((t.clauses.length : ℚ) + 1))) := by positivity
      have h2 := mul_le_mul_of_nonneg_right (hcard c u) h1
      linarith
    refine ⟨J' + 1, fun j hj c hc v hv => ?_⟩
    obtain ⟨j, rfl⟩ : ∃ j', j = j' + 1 := ⟨j - 1, by omega⟩
    have hD := hJ' j (by omega)
    constructor
    · intro he
      have ho : ¬ Even i := fun h' => Nat.even_add_one.mp he h'
      have := unmixed_shift hf hk hg h h0 (i := j + 1) (j := i + 1) hc hv hε.le fun u hu => by
        rw [unmixed_var h j hc hu, unmixed_var h0 i hc hu]
        have h3 : ∑ c' ∈ (occurrences t.clauses.length k ⟨t.clauses.length, k, litVar t⟩ u).erase c, damped flag alpha (fun i => r i c' u * g u) j ≤
            ∑ c' ∈ (occurrences t.clauses.length k ⟨t.clauses.length, k, litVar t⟩ u).erase c,
              (damped false 0 (fun i => r0 i c' u * g u) i + 2 * (ε / (2 * ((t.clauses.length : ℚ) + 1)))) := by
          refine Finset.sum_le_sum fun c' hc' => ?_
          obtain ⟨h4, h5⟩ := occ_vars (Finset.mem_of_mem_erase hc')
          rw [undamped_eq (.inl rfl)]
          exact (hD c' h4 u h5).2 ho
        rw [Finset.sum_add_distrib] at h3
        linarith [hsum c u]
      linarith
    · intro he
      have ho : Even i := by
        by_contra h'
        exact he (Nat.even_add_one.mpr h')
      have := unmixed_shift hf hk hg h0 h (i := i + 1) (j := j + 1) hc hv hε.le fun u hu => by
        rw [unmixed_var h j hc hu, unmixed_var h0 i hc hu]
        have h3 : ∑ c' ∈ (occurrences t.clauses.length k ⟨t.clauses.length, k, litVar t⟩ u).erase c,
              (damped false 0 (fun i => r0 i c' u * g u) i - 2 * (ε / (2 * ((t.clauses.length : ℚ) + 1)))) ≤
            ∑ c' ∈ (occurrences t.clauses.length k ⟨t.clauses.length, k, litVar t⟩ u).erase c, damped flag alpha (fun i => r i c' u * g u) j := by
          refine Finset.sum_le_sum fun c' hc' => ?_
          obtain ⟨h4, h5⟩ := occ_vars (Finset.mem_of_mem_erase hc')
          rw [undamped_eq (.inl rfl)]
          exact (hD c' h4 u h5).1 ho
        rw [Finset.sum_sub_distrib] at h3
        linarith [hsum c u]
      linarith

/-- The same for beliefs. -/
theorem damped_beliefs (i : ℕ) : ∀ ε > 0, ∃ J, ∀ j ≥ J, ∀ v,
    (Even i → (∑ c ∈ occurrences t.clauses.length k ⟨t.clauses.length, k, litVar t⟩ v, damped false 0 (fun j => r0 j c v) i) * g v - ε ≤
      (∑ c ∈ occurrences t.clauses.length k ⟨t.clauses.length, k, litVar t⟩ v, damped flag alpha (fun j => r j c v) j) * g v) ∧
    (¬ Even i → (∑ c ∈ occurrences t.clauses.length k ⟨t.clauses.length, k, litVar t⟩ v, damped flag alpha (fun j => r j c v) j) * g v ≤
      (∑ c ∈ occurrences t.clauses.length k ⟨t.clauses.length, k, litVar t⟩ v, damped false 0 (fun j => r0 j c v) i) * g v + ε) := by
  intro ε hε
  have hm : (0 : ℚ) ≤ t.clauses.length := Nat.cast_nonneg _
  obtain ⟨J, hJ⟩ := damped_bracket hf hk hg ha h h0 i (ε / (2 * (t.clauses.length + 1))) (by positivity)
  obtain ⟨J', hJ'⟩ := damped_close hf hk hg ha h h0 i (by positivity) hJ
  have hsum : ∀ u, ∑ _c' ∈ occurrences t.clauses.length k ⟨t.clauses.length, k, litVar t⟩ u, 2 * (ε / (2 * ((t.clauses.length : ℚ) + 1))) ≤ ε := by
    intro u
    rw [Finset.sum_const, nsmul_eq_mul]
    have hcard : ((occurrences t.clauses.length k ⟨t.clauses.length, k, litVar t⟩ u).card : ℚ) ≤ t.clauses.length := by
      have : (occurrences t.clauses.length k ⟨t.clauses.length, k, litVar t⟩ u).card ≤ t.clauses.length := by
        refine (Finset.card_filter_le _ _).trans ?_
        rw [Finset.card_range]
      exact_mod_cast this
    have h1 : 0 ≤ 2 * (ε / (2 * ((t.clauses.length : ℚ) + 1))) := by positivity
    have h2 := mul_le_mul_of_nonneg_right hcard h1
    have hδ : t.clauses.length * (2 * (ε / (2 * ((t.clauses.length : ℚ) + 1)))) ≤ ε := by
      rw [show t.clauses.length * (2 * (ε / (2 * ((t.clauses.length : ℚ) + 1)))) = ε * t.clauses.length / (t.clauses.length + 1) by field_simp]
      rw [div_le_iff₀ (by linarith)]
      nlinarith
    linarith
  refine ⟨J', fun j hj v => ?_⟩
  simp only [Finset.sum_mul, damped_scale]
  constructor
  · intro he
    have h3 : ∑ c ∈ occurrences t.clauses.length k ⟨t.clauses.length, k, litVar t⟩ v, (damped false 0 (fun j => r0 j c v * g v) i - 2 * (ε / (2 * ((t.clauses.length : ℚ) + 1)))) ≤
        ∑ c ∈ occurrences t.clauses.length k ⟨t.clauses.length, k, litVar t⟩ v, damped flag alpha (fun j => r j c v * g v) j := by
      refine Finset.sum_le_sum fun c hc => ?_
      obtain ⟨h4, h5⟩ := occ_vars hc
      rw [undamped_eq (.inl rfl)]
      exact (hJ' j hj c h4 v h5).1 he
    rw [Finset.sum_sub_distrib] at h3
    linarith [hsum v]
  · intro he
    have h3 : ∑ c ∈ occurrences t.clauses.length k ⟨t.clauses.length, k, litVar t⟩ v, damped flag alpha (fun j => r j c v * g v) j ≤
        ∑ c ∈ occurrences t.clauses.length k ⟨t.clauses.length, k, litVar t⟩ v, (damped false 0 (fun j => r0 j c v * g v) i + 2 * (ε / (2 * ((t.clauses.length : ℚ) + 1)))) := by
      refine Finset.sum_le_sum fun c hc => ?_
      obtain ⟨h4, h5⟩ := occ_vars hc
      rw [undamped_eq (.inl rfl)]
      exact (hJ' j hj c h4 v h5).2 he
    rw [Finset.sum_add_distrib] at h3
    linarith [hsum v]

end

end Verif.Proofs
