import Verif.Proofs.Farkas
import Mathlib.Tactic.LinearCombination

/-! Fractional covers with costs of both signs: a cheapest one exists, and each has a certificate. -/

namespace Verif.Proofs

/-- Degrees between 0 and 1 that give every clause a total of at least 1. -/
def FracCover (m : ℕ) (V : ℕ → Finset ℕ) (U : Finset ℕ) (L : ℕ → ℚ) : Prop := (∀ v ∈ U, 0 ≤ L v ∧ L v ≤ 1) ∧ ∀ c < m, 1 ≤ ∑ v ∈ V c, L v

/-- The clauses with a variable. -/
def clausesOf (m : ℕ) (V : ℕ → Finset ℕ) (v : ℕ) : Finset ℕ := (Finset.range m).filter (fun c => v ∈ V c)

/-- What shows that a fractional cover is cheapest. -/
structure Certificate (m : ℕ) (V : ℕ → Finset ℕ) (U : Finset ℕ) (W L y : ℕ → ℚ) : Prop where
  cover : FracCover m V U L
  nonneg : ∀ c < m, 0 ≤ y c
  below : ∀ v ∈ U, L v < 1 → ∑ c ∈ clausesOf m V v, y c ≤ W v
  above : ∀ v ∈ U, 0 < L v → W v ≤ ∑ c ∈ clausesOf m V v, y c
  tight : ∀ c < m, 0 < y c → ∑ v ∈ V c, L v = 1

section
variable {m : ℕ} {V : ℕ → Finset ℕ} {U : Finset ℕ} (hV : ∀ c < m, (V c).Nonempty ∧ V c ⊆ U) (W : ℕ → ℚ)
include hV

theorem cover_swap (f y : ℕ → ℚ) : ∑ c ∈ Finset.range m, y c * ∑ v ∈ V c, f v = ∑ v ∈ U, f v * ∑ c ∈ clausesOf m V v, y c := by
  simp only [Finset.mul_sum, clausesOf]
  rw [Finset.sum_comm' (t' := U) (s' := fun v => (Finset.range m).filter (fun c => v ∈ V c))]
  · exact Finset.sum_congr rfl fun v _ => Finset.sum_congr rfl fun c _ => by ring
  · intro c v
    simp only [Finset.mem_range, Finset.mem_filter]
    exact ⟨fun ⟨h1, h2⟩ => ⟨⟨h1, h2⟩, (hV c h1).2 h2⟩, fun ⟨⟨h1, h2⟩, _⟩ => ⟨h1, h2⟩⟩

theorem cover_bound : ∃ L y : ℕ → ℚ, FracCover m V U L ∧ (∀ c < m, 0 ≤ y c) ∧ (∀ v ∈ U, ∑ c ∈ clausesOf m V v, y c ≤ max 0 (W v)) ∧
    ∑ v ∈ U, W v * L v ≤ ∑ v ∈ U, min 0 (W v) + ∑ c ∈ Finset.range m, y c := by
  obtain ⟨n, hn⟩ : ∃ n, ∀ v ∈ U, v < n := ⟨U.sup id + 1, fun v hv => Nat.lt_succ_of_le (Finset.le_sup (f := id) hv)⟩
  obtain ⟨x, y, h1, h2, h3, h4, h5⟩ := cover_dual (n := n) (m := m) (V := V) (fun c hc => ⟨(hV c hc).1, fun v hv => Finset.mem_range.mpr (hn v ((hV c hc).2 hv))⟩)
    (W := fun v => if v ∈ U then max 0 (W v) else 0) (fun v _ => by split; exacts [le_max_left _ _, le_rfl])
  refine ⟨fun v => if W v < 0 then 1 else min 1 (x v), y, ⟨fun v hv => ?_, fun c hc => ?_⟩, h3, fun v hv => ?_, ?_⟩
  · beta_reduce
    split
    · exact ⟨zero_le_one, le_rfl⟩
    · exact ⟨le_min zero_le_one (h1 v (hn v hv)), min_le_left _ _⟩
  · have h0 : ∀ v ∈ V c, 0 ≤ (if W v < 0 then 1 else min 1 (x v)) := fun v hv => by
      split
      · exact zero_le_one
      · exact le_min zero_le_one (h1 v (hn v ((hV c hc).2 hv)))
    by_cases hex : ∃ v ∈ V c, (if W v < 0 then 1 else min 1 (x v)) = 1
    · obtain ⟨v, hv, e⟩ := hex
      calc (1 : ℚ) = (if W v < 0 then 1 else min 1 (x v)) := e.symm
        _ ≤ _ := Finset.single_le_sum (f := fun v => if W v < 0 then 1 else min 1 (x v)) h0 hv
    · push Not at hex
      refine le_trans (h2 c hc) (le_of_eq (Finset.sum_congr rfl fun v hv => ?_))
      have := hex v hv
      split at this
      · exact absurd rfl this
      · rename_i hw
        beta_reduce
        rw [if_neg hw]
        rcases min_choice 1 (x v) with e | e
        · exact absurd e this
        · exact e.symm
  · have := h4 v (hn v hv)
    simpa [clausesOf, hv] using this
  · have e : ∑ v ∈ U, max 0 (W v) * x v = ∑ v ∈ Finset.range n, (if v ∈ U then max 0 (W v) else 0) * x v := by
      rw [← Finset.sum_subset (fun v hv => Finset.mem_range.mpr (hn v hv) : U ⊆ Finset.range n) (fun v _ hv => by rw [if_neg hv, zero_mul])]
      exact Finset.sum_congr rfl fun v hv => by rw [if_pos hv]
    rw [← e] at h5
    refine le_trans ?_ (add_le_add_right h5 _)
    rw [← Finset.sum_add_distrib]
    refine Finset.sum_le_sum fun v hv => ?_
    have hx := h1 v (hn v hv)
    beta_reduce
    split
    · rename_i hw
      rw [min_eq_right hw.le, max_eq_left hw.le]
      linarith
    · rename_i hw
      have hw := not_lt.mp hw
      rw [min_eq_left hw, max_eq_right hw, zero_add]
      exact mul_le_mul_of_nonneg_left (min_le_right _ _) hw

theorem cover_weak {L y : ℕ → ℚ} (hL : FracCover m V U L) (hy : ∀ c < m, 0 ≤ y c) (hW : ∀ v ∈ U, ∑ c ∈ clausesOf m V v, y c ≤ max 0 (W v)) :
    ∑ v ∈ U, min 0 (W v) + ∑ c ∈ Finset.range m, y c ≤ ∑ v ∈ U, W v * L v := by
  have h1 : ∑ c ∈ Finset.range m, y c ≤ ∑ c ∈ Finset.range m, y c * ∑ v ∈ V c, L v :=
    Finset.sum_le_sum fun c hc => le_mul_of_one_le_right (hy c (Finset.mem_range.mp hc)) (hL.2 c (Finset.mem_range.mp hc))
  rw [cover_swap hV] at h1
  have h2 : ∑ v ∈ U, min 0 (W v) + ∑ v ∈ U, L v * ∑ c ∈ clausesOf m V v, y c ≤ ∑ v ∈ U, W v * L v := by
    rw [← Finset.sum_add_distrib]
    refine Finset.sum_le_sum fun v hv => ?_
    obtain ⟨h3, h4⟩ := hL.1 v hv
    have h5 := mul_le_mul_of_nonneg_left (hW v hv) h3
    rcases le_total 0 (W v) with hw | hw
    · rw [max_eq_right hw] at h5
      rw [min_eq_left hw]
      linarith
    · rw [max_eq_left hw] at h5
      rw [min_eq_right hw]
      nlinarith
  linarith

/-- There is a cheapest fractional cover. -/
theorem cover_exists : ∃ L, FracCover m V U L ∧ ∀ L', FracCover m V U L' → ∑ v ∈ U, W v * L v ≤ ∑ v ∈ U, W v * L' v := by
  obtain ⟨L, y, h1, h2, h3, h4⟩ := cover_bound hV W
  exact ⟨L, h1, fun L' hL' => h4.trans (cover_weak hV W hL' h2 h3)⟩

/-- Every cheapest fractional cover has a certificate. -/
theorem cover_certificate {L : ℕ → ℚ} (hL : FracCover m V U L) (hmin : ∀ L', FracCover m V U L' → ∑ v ∈ U, W v * L v ≤ ∑ v ∈ U, W v * L' v) :
    ∃ y, Certificate m V U W L y := by
  obtain ⟨L0, y, h1, h2, h3, h4⟩ := cover_bound hV W
  have hle := (hmin L0 h1).trans h4
  -- all gaps are zero
  have hgap : ∑ v ∈ U, (W v * L v - min 0 (W v) - L v * ∑ c ∈ clausesOf m V v, y c) + ∑ c ∈ Finset.range m, y c * (∑ v ∈ V c, L v - 1) ≤ 0 := by
    have e : ∑ c ∈ Finset.range m, y c * (∑ v ∈ V c, L v - 1) = ∑ v ∈ U, L v * ∑ c ∈ clausesOf m V v, y c - ∑ c ∈ Finset.range m, y c := by
      rw [← cover_swap hV, ← Finset.sum_sub_distrib]
      exact Finset.sum_congr rfl fun c _ => by ring
    rw [e, Finset.sum_sub_distrib, Finset.sum_sub_distrib]
    linarith
  have hvar : ∀ v ∈ U, W v * L v - min 0 (W v) - L v * ∑ c ∈ clausesOf m V v, y c =
      L v * (max 0 (W v) - ∑ c ∈ clausesOf m V v, y c) + min 0 (W v) * (L v - 1) := fun v _ => by
    have : W v = max 0 (W v) + min 0 (W v) := by rw [max_add_min, zero_add]
    linear_combination L v * this
  have hv1 : ∀ v ∈ U, 0 ≤ L v * (max 0 (W v) - ∑ c ∈ clausesOf m V v, y c) := fun v hv => mul_nonneg (hL.1 v hv).1 (by linarith [h3 v hv])
  have hv2 : ∀ v ∈ U, 0 ≤ min 0 (W v) * (L v - 1) := fun v hv => mul_nonneg_of_nonpos_of_nonpos (min_le_left _ _) (by linarith [(hL.1 v hv).2])
  have hc1 : ∀ c ∈ Finset.range m, 0 ≤ y c * (∑ v ∈ V c, L v - 1) := fun c hc =>
    mul_nonneg (h2 c (Finset.mem_range.mp hc)) (by linarith [hL.2 c (Finset.mem_range.mp hc)])
  have hv0 : ∀ v ∈ U, 0 ≤ W v * L v - min 0 (W v) - L v * ∑ c ∈ clausesOf m V v, y c := fun v hv => by
    rw [hvar v hv]
    exact add_nonneg (hv1 v hv) (hv2 v hv)
  have hsv : ∀ v ∈ U, W v * L v - min 0 (W v) - L v * ∑ c ∈ clausesOf m V v, y c = 0 :=
    (Finset.sum_eq_zero_iff_of_nonneg hv0).mp (le_antisymm (by linarith [Finset.sum_nonneg hc1]) (Finset.sum_nonneg hv0))
  have hsc : ∀ c ∈ Finset.range m, y c * (∑ v ∈ V c, L v - 1) = 0 :=
    (Finset.sum_eq_zero_iff_of_nonneg hc1).mp (le_antisymm (by linarith [Finset.sum_nonneg hv0]) (Finset.sum_nonneg hc1))
  refine ⟨y, hL, h2, fun v hv hlt => ?_, fun v hv hpos => ?_, fun c hc hpos => ?_⟩
  · have e := hsv v hv
    rw [hvar v hv] at e
    have e2 : min 0 (W v) * (L v - 1) = 0 := le_antisymm (by linarith [hv1 v hv]) (hv2 v hv)
    have : 0 ≤ W v := by
      rcases mul_eq_zero.mp e2 with e3 | e3
      · exact min_eq_left_iff.mp e3
      · exact absurd e3 (by linarith)
    have h5 := h3 v hv
    rwa [max_eq_right this] at h5
  · have e := hsv v hv
    rw [hvar v hv] at e
    have e2 : L v * (max 0 (W v) - ∑ c ∈ clausesOf m V v, y c) = 0 := le_antisymm (by linarith [hv2 v hv]) (hv1 v hv)
    rcases mul_eq_zero.mp e2 with e3 | e3
    · exact absurd e3 hpos.ne'
    · linarith [le_max_right 0 (W v)]
  · rcases mul_eq_zero.mp (hsc c (Finset.mem_range.mpr hc)) with e | e
    · exact absurd e hpos.ne'
    · linarith

omit hV in
/-- The literals of a clause with a positive price share a total of one. -/
theorem cert_others {L y : ℕ → ℚ} (h : Certificate m V U W L y) {c v u : ℕ} (hc : c < m) (hVc : V c ⊆ U) (hy : 0 < y c) (hv : v ∈ V c) (hu : u ∈ V c) (hne : u ≠ v)
    (hpos : 0 < L v) : L u < 1 := by
  have e := h.tight c hc hy
  have h1 : L v + L u ≤ ∑ v ∈ V c, L v := by
    rw [← Finset.add_sum_erase _ _ hv]
    refine add_le_add_right (Finset.single_le_sum (f := L) (fun u hu => (h.cover.1 u (hVc (Finset.mem_of_mem_erase hu))).1) (Finset.mem_erase.mpr ⟨hne, hu⟩)) _
  linarith

omit hV in
theorem cert_other {L y : ℕ → ℚ} (h : Certificate m V U W L y) {c v : ℕ} (hc : c < m) (hv : v ∈ V c) (hlt : L v < 1) : ∃ u ∈ V c, u ≠ v ∧ 0 < L u := by
  by_contra hcon
  push Not at hcon
  have h1 := h.cover.2 c hc
  rw [← Finset.add_sum_erase _ _ hv] at h1
  have h2 : ∑ u ∈ (V c).erase v, L u ≤ 0 := Finset.sum_nonpos fun u hu => hcon u (Finset.mem_of_mem_erase hu) (Finset.ne_of_mem_erase hu)
  linarith

/-- Clauses of two literals: every cover can be changed, without becoming costlier, into one that agrees with the fractional cover wherever that is 0 or 1. -/
theorem cert_round {L y : ℕ → ℚ} (h : Certificate m V U W L y) (h2 : ∀ c < m, (V c).card = 2) {C : Finset ℕ} (hC : C ⊆ U) (hcov : ∀ c < m, ∃ v ∈ V c, v ∈ C) :
    ∃ C' ⊆ U, (∀ c < m, ∃ v ∈ V c, v ∈ C') ∧ ∑ v ∈ C', W v ≤ ∑ v ∈ C, W v ∧ ∀ v ∈ U, (L v = 1 → v ∈ C') ∧ (L v = 0 → v ∉ C') := by
  classical
  let A := (U \ C).filter (fun v => 1 / 2 < L v)
  let B := C.filter (fun v => L v < 1 / 2)
  have hA : ∀ v, v ∈ A ↔ (v ∈ U ∧ v ∉ C) ∧ 1 / 2 < L v := fun v => by simp [A]
  have hB : ∀ v, v ∈ B ↔ v ∈ C ∧ L v < 1 / 2 := fun v => by simp [B]
  have hdis : Disjoint (C \ B) A := Finset.disjoint_left.mpr fun v h1 h2 => ((hA v).mp h2).1.2 (Finset.mem_sdiff.mp h1).1
  refine ⟨(C \ B) ∪ A, ?_, fun c hc => ?_, ?_, fun v hv => ⟨fun e => ?_, fun e => ?_⟩⟩
  · intro v hv
    rcases Finset.mem_union.mp hv with h1 | h1
    · exact hC (Finset.mem_sdiff.mp h1).1
    · exact ((hA v).mp h1).1.1
  · by_contra hcon
    push Not at hcon
    have hsmall : ∀ v ∈ V c, L v ≤ 1 / 2 ∧ (v ∈ C → L v < 1 / 2) := by
      intro v hv
      have h1 := hcon v hv
      rw [Finset.mem_union, not_or, Finset.mem_sdiff, hA, hB] at h1
      by_cases hvC : v ∈ C
      · have : L v < 1 / 2 := by
          by_contra h3
          exact h1.1 ⟨hvC, fun h4 => h3 h4.2⟩
        exact ⟨this.le, fun _ => this⟩
      · exact ⟨not_lt.mp fun h3 => h1.2 ⟨⟨(hV c hc).2 hv, hvC⟩, h3⟩, fun h3 => absurd h3 hvC⟩
    obtain ⟨v, hv, hvC⟩ := hcov c hc
    have h3 : ∑ u ∈ V c, L u < ∑ u ∈ V c, (1 / 2 : ℚ) := Finset.sum_lt_sum (fun u hu => (hsmall u hu).1) ⟨v, hv, (hsmall v hv).2 hvC⟩
    rw [Finset.sum_const, h2 c hc, nsmul_eq_mul] at h3
    have h4 := h.cover.2 c hc
    norm_num at h3
    linarith
  · rw [Finset.sum_union hdis]
    have hBC : B ⊆ C := Finset.filter_subset _ _
    have e1 : ∑ v ∈ C \ B, W v + ∑ v ∈ B, W v = ∑ v ∈ C, W v := Finset.sum_sdiff hBC
    have hAU : A ⊆ U := fun v hv => ((hA v).mp hv).1.1
    have hBU : B ⊆ U := hBC.trans hC
    have e2 : ∑ v ∈ A, W v ≤ ∑ v ∈ A, ∑ c ∈ clausesOf m V v, y c := Finset.sum_le_sum fun v hv =>
      h.above v (hAU hv) (by linarith [((hA v).mp hv).2])
    have e3 : ∑ v ∈ B, ∑ c ∈ clausesOf m V v, y c ≤ ∑ v ∈ B, W v := Finset.sum_le_sum fun v hv =>
      h.below v (hBU hv) (by linarith [((hB v).mp hv).2])
    have ind : ∀ D ⊆ U, ∑ v ∈ D, ∑ c ∈ clausesOf m V v, y c = ∑ c ∈ Finset.range m, y c * ∑ v ∈ V c, (if v ∈ D then 1 else 0) := by
      intro D hD
      rw [cover_swap hV, ← Finset.sum_subset hD (fun v _ hv => by rw [if_neg hv, zero_mul])]
      exact Finset.sum_congr rfl fun v hv => by rw [if_pos hv, one_mul]
    have e4 : ∑ v ∈ A, ∑ c ∈ clausesOf m V v, y c ≤ ∑ v ∈ B, ∑ c ∈ clausesOf m V v, y c := by
      rw [ind A hAU, ind B hBU]
      refine Finset.sum_le_sum fun c hc => ?_
      have hc := Finset.mem_range.mp hc
      rcases eq_or_lt_of_le (h.nonneg c hc) with e | hpos
      · rw [← e, zero_mul, zero_mul]
      · refine mul_le_mul_of_nonneg_left ?_ hpos.le
        obtain ⟨u, v, hne, huv⟩ := Finset.card_eq_two.mp (h2 c hc)
        have ht := h.tight c hc hpos
        rw [huv, Finset.sum_pair hne] at ht ⊢
        rw [Finset.sum_pair hne]
        have hcv := hcov c hc
        rw [huv] at hcv
        have hcase : u ∈ C ∨ v ∈ C := by simpa using hcv
        have key : ∀ a b, a ∈ U → L a + L b = 1 → (a ∈ C ∨ b ∈ C) → a ∈ A → b ∈ B ∧ b ∉ A := by
          intro a b _ hab hor ha
          obtain ⟨⟨_, h5⟩, h6⟩ := (hA a).mp ha
          have h7 : b ∈ C := hor.resolve_left h5
          exact ⟨(hB b).mpr ⟨h7, by linarith⟩, fun h8 => ((hA b).mp h8).1.2 h7⟩
        have hu : u ∈ U := (hV c hc).2 (by rw [huv]; simp)
        have hv : v ∈ U := (hV c hc).2 (by rw [huv]; simp)
        by_cases h8 : u ∈ A
        · obtain ⟨h9, h10⟩ := key u v hu ht hcase h8
          rw [if_pos h8, if_neg h10, if_pos h9]
          split <;> norm_num
        · by_cases h9 : v ∈ A
          · obtain ⟨h10, _⟩ := key v u hv (by linarith) hcase.symm h9
            rw [if_neg h8, if_pos h9, if_pos h10]
            split <;> norm_num
          · rw [if_neg h8, if_neg h9]
            split <;> split <;> norm_num
    linarith
  · rw [Finset.mem_union, Finset.mem_sdiff, hA, hB]
    by_cases hvC : v ∈ C
    · exact .inl ⟨hvC, fun h3 => by have := h3.2; rw [e] at this; norm_num at this⟩
    · exact .inr ⟨⟨hv, hvC⟩, by rw [e]; norm_num⟩
  · rw [Finset.mem_union, Finset.mem_sdiff, hA, hB]
    rintro (h3 | h3)
    · exact h3.2 ⟨h3.1, by rw [e]; norm_num⟩
    · have := h3.2
      rw [e] at this
      norm_num at this

end

end Verif.Proofs
