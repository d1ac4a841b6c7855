import Verif.Proofs.TspCover
import Mathlib.Tactic.LinearCombination

/-! How many iterations the relaxed problem needs to separate a cheapest cycle cover from all other edges. -/

namespace Verif.Proofs
open Verif Num Spec

section
variable {n : ℕ} {edges : List (ℕ × ℕ)} {w : ℕ → ℚ} {c C x0 s0 : ℕ → ℕ → ℚ} {flag : Bool} {alpha : ℚ} {x r y q : ℕ → ℕ → ℕ → ℚ}
  {next : ℕ → ℕ} {u v : ℕ → ℚ} {δ B : ℚ}

theorem dual_close (hn : 3 ≤ n) (hd : Dual n C next u v δ) (hδ : 0 ≤ δ) (hB : ∀ i < n, ∀ j < n, j ≠ i → |C i j| ≤ B) :
    ∀ a < n, ∀ j < n, v j - v a ≤ 4 * B := by
  have hB0 : 0 ≤ B := (abs_nonneg _).trans (hB 0 (by omega) 1 (by omega) (by omega))
  have near : ∀ i < n, ∀ j < n, j ≠ i → j ≠ next i → v j - v (next i) ≤ 2 * B := by
    intro i hi j hj h1 h2
    have a1 := hd.slack i hi j hj h1 h2
    have a2 := hd.tight i hi
    have b1 := abs_le.mp (hB i hi j hj h1)
    have b2 := abs_le.mp (hB i hi _ (hd.cover.lt i hi) (hd.cover.ne i hi))
    linarith [b1.2, b2.1]
  intro a ha j hj
  obtain ⟨i, hi, rfl⟩ := cover_surj hd.cover a ha
  by_cases h2 : j = next i
  · rw [h2]; linarith
  by_cases h1 : j = i
  · subst h1
    obtain ⟨a', ha', n1, n2⟩ : ∃ a' < n, a' ≠ j ∧ a' ≠ next j := by
      by_contra hno
      push Not at hno
      have e : ∀ a' < n, a' = j ∨ a' = next j := fun a' h => or_iff_not_imp_left.mpr (hno a' h)
      have e0 := e 0 (by omega)
      have e1 := e 1 (by omega)
      have e2 := e 2 (by omega)
      omega
    obtain ⟨i', hi', rfl⟩ := cover_surj hd.cover a' ha'
    have s1 := near i' hi' j hj (by rintro rfl; exact n2 rfl) (Ne.symm n1)
    have s2 := near j hj _ ha' n1 n2
    linarith
  · linarith [near i hi j hj h1 h2]

/-- Prices can be chosen small. -/
theorem dual_small (hn : 3 ≤ n) (hd : Dual n C next u v δ) (hδ : 0 ≤ δ) (hB : ∀ i < n, ∀ j < n, j ≠ i → |C i j| ≤ B) :
    ∃ u' v' : ℕ → ℚ, Dual n C next u' v' δ ∧ (∀ i < n, |u' i| ≤ 3 * B) ∧ ∀ j < n, |v' j| ≤ 3 * B := by
  have hB0 : 0 ≤ B := (abs_nonneg _).trans (hB 0 (by omega) 1 (by omega) (by omega))
  obtain ⟨a, ha, hmin⟩ := Finset.exists_min_image (Finset.range n) v ⟨0, Finset.mem_range.mpr (by omega)⟩
  have hc := dual_close hn hd hδ hB a (Finset.mem_range.mp ha)
  have hv : ∀ j < n, |v j - v a - 2 * B| ≤ 2 * B := fun j hj => abs_le.mpr
    ⟨by linarith [hmin j (Finset.mem_range.mpr hj)], by linarith [hc j hj]⟩
  refine ⟨fun i => u i + v a + 2 * B, fun j => v j - v a - 2 * B, ⟨hd.cover, fun i hi => ?_, fun i hi j hj h1 h2 => ?_⟩, fun i hi => ?_, fun j hj => ?_⟩
  · beta_reduce; rw [hd.tight i hi]; ring
  · linarith [hd.slack i hi j hj h1 h2]
  · have t := hd.tight i hi
    have h1 := abs_le.mp (hB i hi _ (hd.cover.lt i hi) (hd.cover.ne i hi))
    have h2 := abs_le.mp (hv _ (hd.cover.lt i hi))
    exact abs_le.mpr ⟨by linarith [h1.1, h2.2], by linarith [h1.2, h2.1]⟩
  · linarith [hv j hj]

/-- The first messages are no larger than the start messages. -/
theorem first_small (h : AllEdges n edges) (ht : IsTspTrace n edges [] w c flag alpha x0 s0 x r y q) (h0 : 0 ≤ rate flag alpha) (h1 : rate flag alpha < 1)
    (hx : ∀ e < edges.length, |x0 e (src edges e)| ≤ B ∧ |x0 e (dst edges e)| ≤ B) : ∀ e < edges.length,
    |damped flag alpha (fun i => r i e (src edges e)) 0| ≤ B ∧ |damped flag alpha (fun i => r i e (dst edges e)) 0| ≤ B := by
  have hdz : ∀ f : ℕ → ℚ, damped flag alpha f 0 = (1 - rate flag alpha) * f 0 := fun f => by
    rw [damped_zero]; unfold rate; split <;> simp
  have hmul : ∀ z : ℚ, |z| ≤ B → |(1 - rate flag alpha) * z| ≤ B := fun z hz => by
    rw [abs_mul, abs_of_pos (by linarith)]
    nlinarith [abs_nonneg z]
  intro e he
  have hlt := h.2.1 _ (List.getElem_mem he)
  rw [src_dst he] at hlt
  dsimp only at hlt
  rw [hdz, hdz]
  refine ⟨hmul _ ?_, hmul _ ?_⟩
  · obtain ⟨e', hm, -, hq⟩ := (exactlyOne_fin (mem_out.mpr ⟨he, rfl⟩) (ht.out 0 _ hlt.1 e (mem_out.mpr ⟨he, rfl⟩))).1
    obtain ⟨he', s⟩ := mem_out.mp hm
    have e1 := ht.init_src e' he'
    have e2 := (hx e' he').1
    rw [s] at e1 e2
    dsimp only at hq ⊢
    rw [← abs_neg, ← hq, e1]; exact e2
  · obtain ⟨e', hm, -, hq⟩ := (exactlyOne_fin (mem_in.mpr ⟨he, rfl⟩) (ht.inn 0 _ hlt.2.1 e (mem_in.mpr ⟨he, rfl⟩))).1
    obtain ⟨he', s⟩ := mem_in.mp hm
    have e1 := ht.init_dst e' he'
    have e2 := (hx e' he').2
    rw [s] at e1 e2
    dsimp only at hq ⊢
    rw [← abs_neg, ← hq, e1]; exact e2

/-- Growth with its rate: the sum of the two bounds grows by the same amount in each iteration, and their difference stays between zero
and `δ`. -/
theorem spread_rate (h : AllEdges n edges) (hd : Dual n C next u v δ) (hδ : 0 ≤ δ)
    (hc : ∀ e < edges.length, c e (src edges e) = C (src edges e) (dst edges e) ∧ c e (dst edges e) = C (src edges e) (dst edges e))
    (ht : IsTspTrace n edges [] w c flag alpha x0 s0 x r y q) (h0 : 0 ≤ rate flag alpha) (h1 : rate flag alpha < 1) {m : ℚ}
    (hm : Spread edges flag alpha r next u v 0 m m) (t : ℕ) :
    ∃ a b, Spread edges flag alpha r next u v t a b ∧ a + b = 2 * m + t * ((1 - rate flag alpha) * δ) ∧ 0 ≤ b - a ∧ b - a ≤ δ := by
  induction t with
  | zero => exact ⟨m, m, hm, by simp; ring, by simp, by simpa using hδ⟩
  | succ t ih =>
    obtain ⟨a, b, s, e1, e2, e3⟩ := ih
    refine ⟨_, _, spread_step h hd hc ht h0 h1 s, ?_, ?_, ?_⟩
    · push_cast
      linear_combination e1
    · nlinarith [mul_nonneg h0 e2, mul_nonneg (sub_nonneg.mpr h1.le) (sub_nonneg.mpr e3)]
    · nlinarith [mul_nonneg h0 (sub_nonneg.mpr e3), mul_nonneg (sub_nonneg.mpr h1.le) e2]

/-- Beliefs after `K + 1` iterations. -/
theorem beliefs_rate (h : AllEdges n edges) (hn : 3 ≤ n) {gap : ℚ} (hg : 0 ≤ gap) (hb : CoverBy gap n C next)
    (hB : ∀ i < n, ∀ j < n, j ≠ i → |C i j| ≤ B)
    (hc : ∀ e < edges.length, c e (src edges e) = C (src edges e) (dst edges e) ∧ c e (dst edges e) = C (src edges e) (dst edges e))
    (hx : ∀ e < edges.length, |x0 e (src edges e)| ≤ B ∧ |x0 e (dst edges e)| ≤ B)
    (ht : IsTspTrace n edges [] w c flag alpha x0 s0 x r y q) (h0 : 0 ≤ rate flag alpha) (h1 : rate flag alpha < 1) (d0 : ℕ → ℕ → ℚ) (K : ℕ) :
    ∀ e < edges.length,
      (dst edges e = next (src edges e) →
        tspOutput flag alpha edges [] d0 s0 r q (K + 1) e + C (src edges e) (dst edges e) ≤ -(K * ((1 - rate flag alpha) * (gap / n)) - 8 * B)) ∧
      (dst edges e ≠ next (src edges e) →
        K * ((1 - rate flag alpha) * (gap / n)) - 8 * B ≤ tspOutput flag alpha edges [] d0 s0 r q (K + 1) e + C (src edges e) (dst edges e)) := by
  have hn0 : (0 : ℚ) < n := by exact_mod_cast (by omega : 0 < n)
  have hδ : 0 ≤ gap / n := div_nonneg hg hn0.le
  obtain ⟨u₀, v₀, d1, d2⟩ := dual_of_gap (δ := gap / n) hb hδ (by rw [mul_div_assoc', mul_div_cancel_left₀ _ hn0.ne'])
  obtain ⟨u, v, hd, hu, hv⟩ := dual_small hn ⟨hb.1, d1, d2⟩ hδ hB
  have hlt : ∀ e < edges.length, src edges e < n ∧ dst edges e < n ∧ src edges e ≠ dst edges e := fun e he => by
    have := h.2.1 _ (List.getElem_mem he)
    rwa [src_dst he] at this
  have hm : Spread edges flag alpha r next u v 0 (-(4 * B)) (-(4 * B)) := by
    intro e he
    have f := first_small h ht h0 h1 hx e he
    have a1 := abs_le.mp f.1
    have a2 := abs_le.mp f.2
    have a3 := abs_le.mp (hu _ (hlt e he).1)
    have a4 := abs_le.mp (hv _ (hlt e he).2.1)
    exact ⟨fun _ => ⟨by linarith [a1.1, a3.1], by linarith [a2.1, a4.1]⟩, fun _ => ⟨by linarith [a1.2, a3.2], by linarith [a2.2, a4.2]⟩⟩
  obtain ⟨a, b, s, e1, e2, e3⟩ := spread_rate h hd hδ hc ht h0 h1 hm K
  intro e he
  have hs := s e he
  simp only [tspOutput, prev, cuts, List.length_nil, Finset.range_zero, Finset.filter_empty, Finset.sum_empty, add_zero]
  constructor
  · intro heq
    have := hs.2 heq
    have htg := hd.tight _ (hlt e he).1
    rw [← heq] at htg
    rw [htg]
    linarith [this.1, this.2]
  · intro hne
    have := hs.1 hne
    have hsl := hd.slack _ (hlt e he).1 _ (hlt e he).2.1 (Ne.symm (hlt e he).2.2) hne
    linarith [this.1, this.2]

theorem rate_eq (flag : Bool) (alpha : ℚ) : rate flag alpha = if flag then alpha else 0 := by
  unfold rate
  by_cases h : alpha = 0
  · simp [h]
  · simp [h]

theorem enough_iterations (hn : 0 < n) {K : ℕ} {θ ρ gap : ℚ} (h : n * (8 * B + |θ|) < K * ((1 - ρ) * gap)) :
    |θ| < K * ((1 - ρ) * (gap / n)) - 8 * B := by
  have hn0 : (0 : ℚ) < n := by exact_mod_cast hn
  have e : (K : ℚ) * ((1 - ρ) * (gap / n)) = K * ((1 - ρ) * gap) / n := by field_simp
  rw [e, lt_sub_iff_add_lt, lt_div_iff₀ hn0]
  linarith

end
end Verif.Proofs
