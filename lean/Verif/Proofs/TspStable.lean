import Verif.Proofs.TspScale
import Verif.Proofs.TspCover
import Verif.Proofs.KsatStable

/-! How far messages of two TSP runs on the same graph can be apart. -/

namespace Verif.Proofs
open Verif Num Spec Model

theorem least_near {ι : Type} {vars : Finset ι} {x x' : ι → ℚ} {t : ι} {v v' ε : ℚ} (hx : ∀ i ∈ vars, |x i - x' i| ≤ ε)
    (h : IsLeast (others vars x t) v) (h' : IsLeast (others vars x' t) v') : |v - v'| ≤ ε := by
  obtain ⟨⟨i, i1, i2, rfl⟩, hm⟩ := h
  obtain ⟨⟨j, j1, j2, rfl⟩, hm'⟩ := h'
  have a := hm ⟨j, j1, j2, rfl⟩
  have b := hm' ⟨i, i1, i2, rfl⟩
  have c := abs_le.mp (hx i i1)
  have d := abs_le.mp (hx j j1)
  rw [abs_le]
  constructor <;> linarith [c.1, c.2, d.1, d.2]

theorem exactlyOne_near {ι : Type} [DecidableEq ι] {vars : Finset ι} {x x' : ι → ℚ} {t : ι} {m m' ε : ℚ} (ht : t ∈ vars)
    (hx : ∀ i ∈ vars, |x i - x' i| ≤ ε) (h : IsMessage vars ExactlyOne x t (fin m)) (h' : IsMessage vars ExactlyOne x' t (fin m')) :
    |m - m'| ≤ ε := by
  have := least_near hx (exactlyOne_fin ht h) (exactlyOne_fin ht h')
  rw [abs_le] at this ⊢
  constructor <;> linarith [this.1, this.2]

theorem atLeastOne_fin {ι : Type} [DecidableEq ι] {vars : Finset ι} {x : ι → ℚ} {t : ι} {m : ℚ} (ht : t ∈ vars)
    (h : IsMessage vars AtLeastOne x t (fin m)) : ∃ v, IsLeast (others vars x t) v ∧ m = min (-v) 0 := by
  by_cases hne : (others vars x t).Nonempty
  · have hfin : (others vars x t).Finite := by
      apply (vars.image x).finite_toSet.subset
      rintro q ⟨s, hs, -, rfl⟩
      simp only [Finset.coe_image, Set.mem_image]
      exact ⟨s, hs, rfl⟩
    obtain ⟨q, hq, hmin⟩ := Set.exists_min_image _ id hfin hne
    have hl : IsLeast (others vars x t) q := ⟨hq, fun z hz => hmin z hz⟩
    have := h.unique (atLeastOne_message ht (isMin_fin hl))
    simp only [neg_fin, cmin_fin, Num.fin.injEq] at this
    exact ⟨q, hl, this⟩
  · have := h.unique (atLeastOne_message ht (v := pinf) (Or.inl ⟨Set.not_nonempty_iff_eq_empty.mp hne, rfl⟩))
    cases this

theorem atLeastOne_near {ι : Type} [DecidableEq ι] {vars : Finset ι} {x x' : ι → ℚ} {t : ι} {m m' ε : ℚ} (ht : t ∈ vars)
    (hx : ∀ i ∈ vars, |x i - x' i| ≤ ε) (h : IsMessage vars AtLeastOne x t (fin m)) (h' : IsMessage vars AtLeastOne x' t (fin m')) :
    |m - m'| ≤ ε := by
  obtain ⟨v, h1, rfl⟩ := atLeastOne_fin ht h
  obtain ⟨v', h1', rfl⟩ := atLeastOne_fin ht h'
  have := abs_le.mp (least_near hx h1 h1')
  have h0 : 0 ≤ ε := (abs_nonneg _).trans (hx t ht)
  rw [abs_le]
  rcases min_cases (-v) 0 with ⟨h2, _⟩ | ⟨h2, _⟩ <;> rcases min_cases (-v') 0 with ⟨h3, _⟩ | ⟨h3, _⟩ <;> rw [h2, h3] <;>
    constructor <;> linarith [this.1, this.2]

theorem damped_near {flag : Bool} {alpha : ℚ} (ha : flag = true → 0 ≤ alpha ∧ alpha ≤ 1) {r r' : ℕ → ℚ} {B : ℚ} {j : ℕ}
    (h : ∀ i ≤ j, |r i - r' i| ≤ B) : |damped flag alpha r j - damped flag alpha r' j| ≤ B := by
  have hB : 0 ≤ B := (abs_nonneg _).trans (h j le_rfl)
  rw [damped_sub]
  exact abs_le.mpr (damped_le ha (by linarith) hB fun i hi => abs_le.mp (h i hi))

theorem prev_near {flag : Bool} {alpha : ℚ} (ha : flag = true → 0 ≤ alpha ∧ alpha ≤ 1) {r r' : ℕ → ℚ} {s s' B : ℚ} {j : ℕ}
    (h0 : |s - s'| ≤ B) (h : ∀ i < j, |r i - r' i| ≤ B) : |prev flag alpha s r j - prev flag alpha s' r' j| ≤ B := by
  cases j with
  | zero => exact h0
  | succ j => exact damped_near ha fun i hi => h i (by omega)

theorem sum_near {S : Finset ℕ} {f g : ℕ → ℚ} {B : ℚ} {D : ℕ} (hB : 0 ≤ B) (hD : S.card ≤ D) (h : ∀ k ∈ S, |f k - g k| ≤ B) :
    |∑ k ∈ S, f k - ∑ k ∈ S, g k| ≤ D * B := by
  rw [← Finset.sum_sub_distrib]
  refine (Finset.abs_sum_le_sum_abs _ _).trans ((Finset.sum_le_card_nsmul _ _ B h).trans ?_)
  rw [nsmul_eq_mul]
  exact mul_le_mul_of_nonneg_right (by exact_mod_cast hD) hB

theorem cuts_card (deltas : List (List ℕ)) (e : ℕ) : (cuts deltas e).card ≤ deltas.length :=
  (Finset.card_filter_le _ _).trans (by simp)

section
variable {n : ℕ} {edges : List (ℕ × ℕ)} {deltas : List (List ℕ)} {w w' : ℕ → ℚ} {c c' x0 x0' s0 s0' d0 d0' : ℕ → ℕ → ℚ} {flag : Bool}
  {alpha ε : ℚ} {x r y q x' r' y' q' : ℕ → ℕ → ℕ → ℚ}

/-- How much the differences can grow in one iteration with `D` cuts. -/
def growth (D : ℕ) : ℚ := D * (D + 3) + 3

theorem growth_ge (D : ℕ) : 1 ≤ growth D ∧ (D : ℚ) + 3 ≤ growth D ∧ 2 + D * (D + 3) ≤ growth D := by
  have : (0 : ℚ) ≤ D := Nat.cast_nonneg D
  unfold growth
  refine ⟨by nlinarith, ?_, by linarith⟩
  rcases Nat.eq_zero_or_pos D with h | h
  · subst h; norm_num
  · have : (1 : ℚ) ≤ D := by exact_mod_cast h
    nlinarith

/-- All messages stay near. -/
theorem trace_near (hok : EdgesOk n edges) (hd : ∀ l ∈ deltas, ∀ e ∈ l, e < edges.length) (ha : flag = true → 0 ≤ alpha ∧ alpha ≤ 1) (h0 : 0 ≤ ε)
    (hw : ∀ e < edges.length, |w e - w' e| ≤ ε)
    (hc : ∀ e < edges.length, ∀ v, v = src edges e ∨ v = dst edges e → |c e v - c' e v| ≤ ε)
    (hx : ∀ e < edges.length, ∀ v, v = src edges e ∨ v = dst edges e → |x0 e v - x0' e v| ≤ ε)
    (hs : ∀ k < deltas.length, ∀ e ∈ deltas.getD k [], |s0 k e - s0' k e| ≤ ε)
    (ht : IsTspTrace n edges deltas w c flag alpha x0 s0 x r y q) (ht' : IsTspTrace n edges deltas w' c' flag alpha x0' s0' x' r' y' q') (j : ℕ) :
    (∀ i ≤ j, ∀ e < edges.length, ∀ v, v = src edges e ∨ v = dst edges e →
      |x i e v - x' i e v| ≤ ε * growth deltas.length ^ j ∧ |r i e v - r' i e v| ≤ ε * growth deltas.length ^ j) ∧
    ∀ i ≤ j, ∀ k < deltas.length, ∀ e ∈ deltas.getD k [], |q i k e - q' i k e| ≤ (deltas.length + 3) * (ε * growth deltas.length ^ j) := by
  set D := deltas.length with hD
  obtain ⟨g1, g2, g3⟩ := growth_ge D
  have hlt : ∀ {k e}, k < deltas.length → e ∈ deltas.getD k [] → e < edges.length := fun {k e} hk he => by
    have hgd : deltas.getD k [] = deltas[k] := by simp [hk]
    rw [hgd] at he; exact hd _ (List.getElem_mem hk) e he
  have hr : ∀ i B, (∀ e < edges.length, ∀ v, v = src edges e ∨ v = dst edges e → |x i e v - x' i e v| ≤ B) →
      ∀ e < edges.length, ∀ v, v = src edges e ∨ v = dst edges e → |r i e v - r' i e v| ≤ B := by
    rintro i B hx e he v (rfl | rfl)
    · have hm : e ∈ outEdges edges (src edges e) := mem_out.mpr ⟨he, rfl⟩
      exact exactlyOne_near hm (fun a ha => hx a (mem_out.mp ha).1 _ (Or.inl (mem_out.mp ha).2.symm)) (ht.out i _ (src_lt hok he) e hm)
        (ht'.out i _ (src_lt hok he) e hm)
    · have hm : e ∈ inEdges edges (dst edges e) := mem_in.mpr ⟨he, rfl⟩
      exact exactlyOne_near hm (fun a ha => hx a (mem_in.mp ha).1 _ (Or.inr (mem_in.mp ha).2.symm)) (ht.inn i _ (dst_lt hok he) e hm)
        (ht'.inn i _ (dst_lt hok he) e hm)
  -- messages of the cuts in iteration `j`
  have hq : ∀ j N, ε ≤ N → (∀ i ≤ j, ∀ e < edges.length, ∀ v, v = src edges e ∨ v = dst edges e → |r i e v - r' i e v| ≤ N) →
      (∀ i < j, ∀ k < deltas.length, ∀ e ∈ deltas.getD k [], |q i k e - q' i k e| ≤ N) →
      ∀ k < deltas.length, ∀ e ∈ deltas.getD k [], |q j k e - q' j k e| ≤ (D + 3) * N := by
    intro j N hN hr hq k hk e he
    refine atLeastOne_near (vars := (deltas.getD k []).toFinset) (by simpa using he) (fun e he => ?_) (ht.cut j k hk e he) (ht'.cut j k hk e he)
    have he : e ∈ deltas.getD k [] := by simpa using he
    have hel := hlt hk he
    rw [ht.to_cut j k hk e he, ht'.to_cut j k hk e he]
    have a1 := abs_le.mp (hw e hel)
    have a2 := abs_le.mp (damped_near ha (j := j) fun i hi => hr i hi e hel _ (Or.inl rfl))
    have a3 := abs_le.mp (damped_near ha (j := j) fun i hi => hr i hi e hel _ (Or.inr rfl))
    have a4 := abs_le.mp (sum_near (S := (cuts deltas e).erase k) (f := fun k' => prev flag alpha (s0 k' e) (fun i => q i k' e) j)
      (g := fun k' => prev flag alpha (s0' k' e) (fun i => q' i k' e) j) (D := D) (h0.trans hN)
      ((Finset.card_erase_le).trans (cuts_card deltas e)) fun k' hk' => by
        have hm := Finset.mem_filter.mp (Finset.mem_of_mem_erase hk')
        exact prev_near ha ((hs k' (Finset.mem_range.mp hm.1) e hm.2).trans hN) fun i hi => hq i hi k' (Finset.mem_range.mp hm.1) e hm.2)
    rw [abs_le]
    constructor <;> linarith [a1.1, a1.2, a2.1, a2.2, a3.1, a3.2, a4.1, a4.2]
  induction j with
  | zero =>
    rw [pow_zero, mul_one]
    have hx : ∀ e < edges.length, ∀ v, v = src edges e ∨ v = dst edges e → |x 0 e v - x' 0 e v| ≤ ε := by
      rintro e he v (rfl | rfl)
      · rw [ht.init_src e he, ht'.init_src e he]; exact hx e he _ (Or.inl rfl)
      · rw [ht.init_dst e he, ht'.init_dst e he]; exact hx e he _ (Or.inr rfl)
    refine ⟨fun i hi => ?_, fun i hi => ?_⟩
    · obtain rfl : i = 0 := by omega
      exact fun e he v hv => ⟨hx e he v hv, hr 0 ε hx e he v hv⟩
    · obtain rfl : i = 0 := by omega
      refine hq 0 ε le_rfl (fun i hi => ?_) (fun i hi => by omega)
      obtain rfl : i = 0 := by omega
      exact hr 0 ε hx
  | succ j ih =>
    obtain ⟨ih1, ih2⟩ := ih
    set N := ε * growth D ^ j with hN
    have hN1 : ε ≤ N := by
      have := one_le_pow₀ g1 (n := j)
      rw [hN]; nlinarith
    have hN0 : 0 ≤ N := h0.trans hN1
    have hNs : ε * growth D ^ (j + 1) = growth D * N := by rw [hN]; ring
    rw [hNs]
    have hNg : N ≤ growth D * N := by nlinarith
    have hNq : (D + 3) * N ≤ growth D * N := mul_le_mul_of_nonneg_right g2 hN0
    have hsum : ∀ e < edges.length, |∑ k ∈ cuts deltas e, damped flag alpha (fun i => q i k e) j -
        ∑ k ∈ cuts deltas e, damped flag alpha (fun i => q' i k e) j| ≤ D * ((D + 3) * N) := fun e he =>
      sum_near (by positivity) (cuts_card deltas e) fun k hk => by
        have hm := Finset.mem_filter.mp hk
        exact damped_near ha fun i hi => ih2 i hi k (Finset.mem_range.mp hm.1) e hm.2
    have hbound : ε + N + D * ((D + 3) * N) ≤ growth D * N := by
      have := mul_le_mul_of_nonneg_right g3 hN0
      linarith
    have hx : ∀ e < edges.length, ∀ v, v = src edges e ∨ v = dst edges e → |x (j + 1) e v - x' (j + 1) e v| ≤ growth D * N := by
      rintro e he v (rfl | rfl)
      · rw [ht.var_src j e he, ht'.var_src j e he]
        have a1 := abs_le.mp (hc e he _ (Or.inl rfl))
        have a2 := abs_le.mp (damped_near ha (j := j) fun i hi => (ih1 i hi e he _ (Or.inr rfl)).2)
        have a3 := abs_le.mp (hsum e he)
        rw [abs_le]
        constructor <;> linarith [a1.1, a1.2, a2.1, a2.2, a3.1, a3.2]
      · rw [ht.var_dst j e he, ht'.var_dst j e he]
        have a1 := abs_le.mp (hc e he _ (Or.inr rfl))
        have a2 := abs_le.mp (damped_near ha (j := j) fun i hi => (ih1 i hi e he _ (Or.inl rfl)).2)
        have a3 := abs_le.mp (hsum e he)
        rw [abs_le]
        constructor <;> linarith [a1.1, a1.2, a2.1, a2.2, a3.1, a3.2]
    have hxr : ∀ i ≤ j + 1, ∀ e < edges.length, ∀ v, v = src edges e ∨ v = dst edges e →
        |x i e v - x' i e v| ≤ growth D * N ∧ |r i e v - r' i e v| ≤ growth D * N := by
      intro i hi e he v hv
      rcases Nat.lt_or_ge i (j + 1) with hlt | hge
      · obtain ⟨b1, b2⟩ := ih1 i (by omega) e he v hv
        exact ⟨b1.trans hNg, b2.trans hNg⟩
      · obtain rfl : i = j + 1 := by omega
        exact ⟨hx e he v hv, hr (j + 1) _ hx e he v hv⟩
    refine ⟨hxr, fun i hi k hk e he => ?_⟩
    rcases Nat.lt_or_ge i (j + 1) with hlt | hge
    · refine (ih2 i (by omega) k hk e he).trans (mul_le_mul_of_nonneg_left hNg (by positivity))
    · obtain rfl : i = j + 1 := by omega
      exact hq (j + 1) _ (hN1.trans hNg) (fun i hi e he v hv => (hxr i hi e he v hv).2)
        (fun i hi k hk e he => (ih2 i (by omega) k hk e he).trans hNq) k hk e he

/-- Without cuts the differences grow only linearly. -/
theorem trace_near_relaxed (hok : EdgesOk n edges) (ha : flag = true → 0 ≤ alpha ∧ alpha ≤ 1) (h0 : 0 ≤ ε)
    (hc : ∀ e < edges.length, ∀ v, v = src edges e ∨ v = dst edges e → |c e v - c' e v| ≤ ε)
    (hx : ∀ e < edges.length, ∀ v, v = src edges e ∨ v = dst edges e → |x0 e v - x0' e v| ≤ ε)
    (ht : IsTspTrace n edges [] w c flag alpha x0 s0 x r y q) (ht' : IsTspTrace n edges [] w' c' flag alpha x0' s0' x' r' y' q') (j : ℕ) :
    ∀ i ≤ j, ∀ e < edges.length, ∀ v, v = src edges e ∨ v = dst edges e →
      |x i e v - x' i e v| ≤ (j + 1) * ε ∧ |r i e v - r' i e v| ≤ (j + 1) * ε := by
  have hr : ∀ i B, (∀ e < edges.length, ∀ v, v = src edges e ∨ v = dst edges e → |x i e v - x' i e v| ≤ B) →
      ∀ e < edges.length, ∀ v, v = src edges e ∨ v = dst edges e → |r i e v - r' i e v| ≤ B := by
    rintro i B hx e he v (rfl | rfl)
    · have hm : e ∈ outEdges edges (src edges e) := mem_out.mpr ⟨he, rfl⟩
      exact exactlyOne_near hm (fun a ha => hx a (mem_out.mp ha).1 _ (Or.inl (mem_out.mp ha).2.symm)) (ht.out i _ (src_lt hok he) e hm)
        (ht'.out i _ (src_lt hok he) e hm)
    · have hm : e ∈ inEdges edges (dst edges e) := mem_in.mpr ⟨he, rfl⟩
      exact exactlyOne_near hm (fun a ha => hx a (mem_in.mp ha).1 _ (Or.inr (mem_in.mp ha).2.symm)) (ht.inn i _ (dst_lt hok he) e hm)
        (ht'.inn i _ (dst_lt hok he) e hm)
  induction j with
  | zero =>
    intro i hi
    obtain rfl : i = 0 := by omega
    simp only [Nat.cast_zero, zero_add, one_mul]
    have hx : ∀ e < edges.length, ∀ v, v = src edges e ∨ v = dst edges e → |x 0 e v - x' 0 e v| ≤ ε := by
      rintro e he v (rfl | rfl)
      · rw [ht.init_src e he, ht'.init_src e he]; exact hx e he _ (Or.inl rfl)
      · rw [ht.init_dst e he, ht'.init_dst e he]; exact hx e he _ (Or.inr rfl)
    exact fun e he v hv => ⟨hx e he v hv, hr 0 ε hx e he v hv⟩
  | succ j ih =>
    have hB : (j + 1 : ℚ) * ε ≤ ((j + 1 : ℕ) + 1 : ℚ) * ε := by push_cast; nlinarith
    intro i hi e he v hv
    rcases Nat.lt_or_ge i (j + 1) with hlt | hge
    · obtain ⟨b1, b2⟩ := ih i (by omega) e he v hv
      exact ⟨b1.trans hB, b2.trans hB⟩
    obtain rfl : i = j + 1 := by omega
    have hx : ∀ e < edges.length, ∀ v, v = src edges e ∨ v = dst edges e → |x (j + 1) e v - x' (j + 1) e v| ≤ ((j + 1 : ℕ) + 1 : ℚ) * ε := by
      push_cast
      rintro e he v (rfl | rfl)
      · rw [ht.var_src j e he, ht'.var_src j e he]
        have a1 := abs_le.mp (hc e he _ (Or.inl rfl))
        have a2 := abs_le.mp (damped_near ha (j := j) fun i hi => (ih i hi e he _ (Or.inr rfl)).2)
        simp only [cuts, List.length_nil, Finset.range_zero, Finset.filter_empty, Finset.sum_empty, add_zero]
        rw [abs_le]
        constructor <;> linarith [a1.1, a1.2, a2.1, a2.2]
      · rw [ht.var_dst j e he, ht'.var_dst j e he]
        have a1 := abs_le.mp (hc e he _ (Or.inr rfl))
        have a2 := abs_le.mp (damped_near ha (j := j) fun i hi => (ih i hi e he _ (Or.inl rfl)).2)
        simp only [cuts, List.length_nil, Finset.range_zero, Finset.filter_empty, Finset.sum_empty, add_zero]
        rw [abs_le]
        constructor <;> linarith [a1.1, a1.2, a2.1, a2.2]
    exact ⟨hx e he v hv, hr (j + 1) _ hx e he v hv⟩

/-- Outputs stay near. -/
theorem output_near (hok : EdgesOk n edges) (hd : ∀ l ∈ deltas, ∀ e ∈ l, e < edges.length) (ha : flag = true → 0 ≤ alpha ∧ alpha ≤ 1) (h0 : 0 ≤ ε)
    (hw : ∀ e < edges.length, |w e - w' e| ≤ ε)
    (hc : ∀ e < edges.length, ∀ v, v = src edges e ∨ v = dst edges e → |c e v - c' e v| ≤ ε)
    (hx : ∀ e < edges.length, ∀ v, v = src edges e ∨ v = dst edges e → |x0 e v - x0' e v| ≤ ε)
    (hs : ∀ k < deltas.length, ∀ e ∈ deltas.getD k [], |s0 k e - s0' k e| ≤ ε)
    (hd0 : ∀ e < edges.length, ∀ v, v = src edges e ∨ v = dst edges e → |d0 e v - d0' e v| ≤ ε)
    (ht : IsTspTrace n edges deltas w c flag alpha x0 s0 x r y q) (ht' : IsTspTrace n edges deltas w' c' flag alpha x0' s0' x' r' y' q') (K : ℕ) :
    (∀ e < edges.length, ∀ v, v = src edges e ∨ v = dst edges e →
      |prev flag alpha (d0 e v) (fun i => r i e v) K - prev flag alpha (d0' e v) (fun i => r' i e v) K| ≤ (deltas.length + 3) * (ε * growth deltas.length ^ K)) ∧
    (∀ k < deltas.length, ∀ e ∈ deltas.getD k [],
      |prev flag alpha (s0 k e) (fun i => q i k e) K - prev flag alpha (s0' k e) (fun i => q' i k e) K| ≤ (deltas.length + 3) * (ε * growth deltas.length ^ K)) ∧
    ∀ e < edges.length, |tspOutput flag alpha edges deltas d0 s0 r q K e - tspOutput flag alpha edges deltas d0' s0' r' q' K e| ≤
      (deltas.length + 2) * ((deltas.length + 3) * (ε * growth deltas.length ^ K)) := by
  obtain ⟨k1, k2⟩ := trace_near hok hd ha h0 hw hc hx hs ht ht' K
  set D := deltas.length with hD
  set N := ε * growth D ^ K with hN
  have hN1 : ε ≤ N := by
    have := one_le_pow₀ (growth_ge D).1 (n := K)
    rw [hN]; nlinarith
  have hN0 : 0 ≤ N := h0.trans hN1
  have hD0 : (0 : ℚ) ≤ D := Nat.cast_nonneg D
  have hN2 : N ≤ (D + 3) * N := by nlinarith
  have p1 : ∀ e < edges.length, ∀ v, v = src edges e ∨ v = dst edges e →
      |prev flag alpha (d0 e v) (fun i => r i e v) K - prev flag alpha (d0' e v) (fun i => r' i e v) K| ≤ (D + 3) * N := fun e he v hv =>
    prev_near ha ((hd0 e he v hv).trans (hN1.trans hN2)) fun i hi => (k1 i hi.le e he v hv).2.trans hN2
  have p2 : ∀ k < deltas.length, ∀ e ∈ deltas.getD k [],
      |prev flag alpha (s0 k e) (fun i => q i k e) K - prev flag alpha (s0' k e) (fun i => q' i k e) K| ≤ (D + 3) * N := fun k hk e he =>
    prev_near ha ((hs k hk e he).trans (hN1.trans hN2)) fun i hi => k2 i hi.le k hk e he
  refine ⟨p1, p2, fun e he => ?_⟩
  have a1 := abs_le.mp (p1 e he _ (Or.inl rfl))
  have a2 := abs_le.mp (p1 e he _ (Or.inr rfl))
  have a3 := abs_le.mp (sum_near (S := cuts deltas e) (f := fun k => prev flag alpha (s0 k e) (fun i => q i k e) K)
    (g := fun k => prev flag alpha (s0' k e) (fun i => q' i k e) K) (hN0.trans hN2) (cuts_card deltas e) fun k hk => by
      have hm := Finset.mem_filter.mp hk
      exact p2 k (Finset.mem_range.mp hm.1) e hm.2)
  unfold tspOutput
  rw [abs_le]
  constructor <;> linarith [a1.1, a1.2, a2.1, a2.2, a3.1, a3.2]

end

end Verif.Proofs
