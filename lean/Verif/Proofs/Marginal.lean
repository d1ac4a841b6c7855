import Verif.Spec.Forest
import Verif.Proofs.MinSum
import Mathlib.Data.Finset.Powerset
import Mathlib.Data.Finset.Max
import Mathlib.Order.Interval.Set.Basic
import Mathlib.Algebra.Order.BigOperators.Group.Finset
import Mathlib.Tactic.Linarith
import Mathlib.Tactic.Ring
import Mathlib.Algebra.Order.Ring.Rat
import Mathlib.Algebra.Order.Field.Rat

/-! Min-marginal differences, and what happens when two sets of constraints share one variable. -/

namespace Verif.Proofs
open Verif Num Spec

section
variable {vars A B : Finset ℕ} {P Q c : Finset ℕ → Prop} {w x y : ℕ → ℚ} {u v : ℕ} {d e q : ℚ}

theorem costs_least (h : ∃ S, S ⊆ vars ∧ P S ∧ c S) (w : ℕ → ℚ) : ∃ q, IsLeast (costs vars P w c) q := by
  classical
  obtain ⟨S, h1, h2, h3⟩ := h
  obtain ⟨T, hT, hm⟩ := Finset.exists_min_image (vars.powerset.filter (fun S => P S ∧ c S)) (fun S => cost w S)
    ⟨S, by simp only [Finset.mem_filter, Finset.mem_powerset]; exact ⟨h1, h2, h3⟩⟩
  simp only [Finset.mem_filter, Finset.mem_powerset] at hT hm
  refine ⟨cost w T, ⟨T, hT.1, hT.2.1, hT.2.2, rfl⟩, ?_⟩
  rintro q ⟨U, u1, u2, u3, rfl⟩
  exact hm U ⟨u1, u2, u3⟩

theorem least_congr (hq : IsLeast (costs vars P w c) q) (hP : ∀ S ⊆ vars, (P S ↔ Q S)) (hw : ∀ v ∈ vars, w v = x v) :
    IsLeast (costs vars Q x c) q := by
  have hc : ∀ S ⊆ vars, cost w S = cost x S := fun S hS => Finset.sum_congr rfl fun v hv => hw v (hS hv)
  obtain ⟨⟨S, h1, h2, h3, rfl⟩, hm⟩ := hq
  refine ⟨⟨S, h1, (hP S h1).mp h2, h3, (hc S h1).symm⟩, ?_⟩
  rintro q ⟨T, t1, t2, t3, rfl⟩
  rw [← hc T t1]
  exact hm ⟨T, t1, (hP T t1).mpr t2, t3, rfl⟩

theorem marg_congr (h : MarginalDiff vars P w v d) (hP : ∀ S ⊆ vars, (P S ↔ Q S)) (hw : ∀ v ∈ vars, w v = x v) :
    MarginalDiff vars Q x v d := by
  obtain ⟨a, b, ha, hb, rfl⟩ := h
  exact ⟨a, b, least_congr ha hP hw, least_congr hb hP hw, rfl⟩

theorem marg_unique (h : MarginalDiff vars P w v d) (h' : MarginalDiff vars P w v e) : d = e := by
  obtain ⟨a, b, ha, hb, rfl⟩ := h
  obtain ⟨a', b', ha', hb', rfl⟩ := h'
  rw [ha.unique ha', hb.unique hb']

theorem marg_exists (h : MarginalDiff vars P w v d) (x : ℕ → ℚ) : ∃ e, MarginalDiff vars P x v e := by
  obtain ⟨a, b, ⟨⟨S, s1, s2, s3, -⟩, -⟩, ⟨⟨T, t1, t2, t3, -⟩, -⟩, rfl⟩ := h
  obtain ⟨a', ha⟩ := costs_least (c := fun S => v ∈ S) ⟨S, s1, s2, s3⟩ x
  obtain ⟨b', hb⟩ := costs_least (c := fun S => v ∉ S) ⟨T, t1, t2, t3⟩ x
  exact ⟨_, a', b', ha, hb, rfl⟩

/-- A finite message is the min-marginal difference minus the incoming message. -/
theorem marg_of_message (h : IsMessage vars P x v (fin q)) : MarginalDiff vars P x v (q + x v) := by
  obtain ⟨a, b, ha, hb, e⟩ := h
  rcases ha with ⟨-, rfl⟩ | ⟨a, rfl, ha⟩ <;> rcases hb with ⟨-, rfl⟩ | ⟨b, rfl, hb⟩
  · cases e
  · cases e
  · cases e
  · refine ⟨a, b, ha, hb, ?_⟩
    have : q = a - b - x v := by simpa [Num.fin_sub] using e
    rw [this]; ring

/-- Changing only the cost of `v` shifts the difference. -/
theorem marg_shift (h : MarginalDiff vars P x v d) (hxy : ∀ i ∈ vars, i ≠ v → x i = y i) : MarginalDiff vars P y v (d - x v + y v) := by
  have hoff : ∀ S ⊆ vars, v ∉ S → cost x S = cost y S := fun S hS hv =>
    Finset.sum_congr rfl fun i hi => hxy i (hS hi) (fun e => hv (e ▸ hi))
  have hon : ∀ S ⊆ vars, v ∈ S → cost y S = cost x S - x v + y v := by
    intro S hS hv
    have e1 : cost x S = x v + cost x (S.erase v) := (Finset.add_sum_erase _ _ hv).symm
    have e2 : cost y S = y v + cost y (S.erase v) := (Finset.add_sum_erase _ _ hv).symm
    have := hoff (S.erase v) ((Finset.erase_subset _ _).trans hS) (Finset.notMem_erase v S)
    rw [e1, e2, this]; ring
  obtain ⟨a, b, ⟨⟨S, s1, s2, s3, rfl⟩, ha⟩, ⟨⟨T, t1, t2, t3, rfl⟩, hb⟩, rfl⟩ := h
  refine ⟨cost y S, cost y T, ⟨⟨S, s1, s2, s3, rfl⟩, ?_⟩, ⟨⟨T, t1, t2, t3, rfl⟩, ?_⟩, ?_⟩
  · rintro q ⟨U, u1, u2, u3, rfl⟩
    rw [hon S s1 s3, hon U u1 u3]
    linarith [ha ⟨U, u1, u2, u3, rfl⟩]
  · rintro q ⟨U, u1, u2, u3, rfl⟩
    rw [← hoff T t1 t3, ← hoff U u1 u3]
    exact hb ⟨U, u1, u2, u3, rfl⟩
  · rw [hon S s1 s3, ← hoff T t1 t3]; ring

/-- The difference depends continuously on the costs. -/
theorem marg_lipschitz (h : MarginalDiff vars P x v d) (h' : MarginalDiff vars P y v e) :
    |d - e| ≤ 2 * ∑ i ∈ vars, |x i - y i| := by
  have hc : ∀ S ⊆ vars, |cost x S - cost y S| ≤ ∑ i ∈ vars, |x i - y i| := by
    intro S hS
    have : cost x S - cost y S = ∑ i ∈ S, (x i - y i) := by rw [cost, cost, Finset.sum_sub_distrib]
    rw [this]
    exact (Finset.abs_sum_le_sum_abs _ _).trans (Finset.sum_le_sum_of_subset_of_nonneg hS fun i _ _ => abs_nonneg _)
  have hl : ∀ {c : Finset ℕ → Prop} {a a'}, IsLeast (costs vars P x c) a → IsLeast (costs vars P y c) a' →
      |a - a'| ≤ ∑ i ∈ vars, |x i - y i| := by
    rintro c a a' ⟨⟨S, s1, s2, s3, rfl⟩, ha⟩ ⟨⟨T, t1, t2, t3, rfl⟩, hb⟩
    have h1 := ha ⟨T, t1, t2, t3, rfl⟩
    have h2 := hb ⟨S, s1, s2, s3, rfl⟩
    have h3 := abs_le.mp (hc S s1)
    have h4 := abs_le.mp (hc T t1)
    rw [abs_le]
    constructor <;> linarith [h3.1, h3.2, h4.1, h4.2]
  obtain ⟨a, b, ha, hb, rfl⟩ := h
  obtain ⟨a', b', ha', hb', rfl⟩ := h'
  have h1 := abs_le.mp (hl ha ha')
  have h2 := abs_le.mp (hl hb hb')
  rw [abs_le]
  constructor <;> linarith [h1.1, h1.2, h2.1, h2.2]

/-- Two sets of constraints that share only variable `u`: the other side enters through the cost of `u`. -/
theorem least_glue {h1 h0 : ℚ} (hA : u ∈ A) (hB : u ∈ B) (hAB : ∀ v ∈ A, v ∈ B → v = u)
    (b1 : IsLeast (costs B Q w (fun S => u ∈ S)) h1) (b0 : IsLeast (costs B Q w (fun S => u ∉ S)) h0)
    (hx : ∀ v ∈ A, v ≠ u → x v = w v) (hu : x u = h1 - h0) (a : IsLeast (costs A P x c) q) :
    IsLeast (costs (A ∪ B) (fun S => P (S ∩ A) ∧ Q (S ∩ B)) w (fun S => c (S ∩ A))) (q + h0) := by
  have key : ∀ S ⊆ A ∪ B, cost w S = cost x (S ∩ A) + cost w (S ∩ B) - if u ∈ S then h1 - h0 else 0 := by
    intro S hS
    have e1 : S = (S ∩ A).erase u ∪ (S ∩ B) := by
      ext v
      simp only [Finset.mem_union, Finset.mem_erase, Finset.mem_inter]
      constructor
      · intro hv
        rcases Finset.mem_union.mp (hS hv) with h | h
        · by_cases e : v = u
          · exact Or.inr ⟨hv, e ▸ hB⟩
          · exact Or.inl ⟨e, hv, h⟩
        · exact Or.inr ⟨hv, h⟩
      · rintro (h | h)
        · exact h.2.1
        · exact h.1
    have e2 : Disjoint ((S ∩ A).erase u) (S ∩ B) := by
      rw [Finset.disjoint_left]
      intro v h1 h2
      simp only [Finset.mem_erase, Finset.mem_inter] at h1 h2
      exact h1.1 (hAB v h1.2.2 h2.2)
    have e3 : cost w S = cost w ((S ∩ A).erase u) + cost w (S ∩ B) := by
      conv_lhs => rw [e1]
      exact Finset.sum_union e2
    have e4 : cost w ((S ∩ A).erase u) = cost x ((S ∩ A).erase u) := by
      refine Finset.sum_congr rfl fun v hv => ?_
      simp only [Finset.mem_erase, Finset.mem_inter] at hv
      exact (hx v hv.2.2 hv.1).symm
    rw [e3, e4]
    by_cases hus : u ∈ S
    · have : u ∈ S ∩ A := Finset.mem_inter.mpr ⟨hus, hA⟩
      have e5 : cost x (S ∩ A) = x u + cost x ((S ∩ A).erase u) := (Finset.add_sum_erase _ _ this).symm
      rw [if_pos hus, e5, hu]; ring
    · have : u ∉ S ∩ A := fun h => hus (Finset.mem_inter.mp h).1
      rw [if_neg hus, Finset.erase_eq_of_notMem this]; ring
  obtain ⟨⟨S, s1, s2, s3, rfl⟩, ha⟩ := a
  constructor
  · -- build a joint assignment
    have hT : ∃ T, T ⊆ B ∧ Q T ∧ (u ∈ T ↔ u ∈ S) ∧ cost w T = h0 + if u ∈ S then h1 - h0 else 0 := by
      by_cases hus : u ∈ S
      · obtain ⟨T, t1, t2, t3, t4⟩ := b1.1
        exact ⟨T, t1, t2, ⟨fun _ => hus, fun _ => t3⟩, by rw [t4, if_pos hus]; ring⟩
      · obtain ⟨T, t1, t2, t3, t4⟩ := b0.1
        exact ⟨T, t1, t2, ⟨fun h => absurd h t3, fun h => absurd h hus⟩, by rw [t4, if_neg hus]; ring⟩
    obtain ⟨T, t1, t2, t3, t4⟩ := hT
    have eA : (S ∪ T) ∩ A = S := by
      ext v
      simp only [Finset.mem_inter, Finset.mem_union]
      constructor
      · rintro ⟨h | h, hv⟩
        · exact h
        · have := hAB v hv (t1 h)
          subst this; exact t3.mp h
      · exact fun h => ⟨Or.inl h, s1 h⟩
    have eB : (S ∪ T) ∩ B = T := by
      ext v
      simp only [Finset.mem_inter, Finset.mem_union]
      constructor
      · rintro ⟨h | h, hv⟩
        · have := hAB v (s1 h) hv
          subst this; exact t3.mpr h
        · exact h
      · exact fun h => ⟨Or.inr h, t1 h⟩
    have hsub : S ∪ T ⊆ A ∪ B := Finset.union_subset_union s1 t1
    refine ⟨S ∪ T, hsub, ⟨by rw [eA]; exact s2, by rw [eB]; exact t2⟩, by show c _; rw [eA]; exact s3, ?_⟩
    rw [key _ hsub, eA, eB, t4]
    have : u ∈ S ∪ T ↔ u ∈ S := by rw [Finset.mem_union, t3, or_self]
    by_cases hus : u ∈ S
    · rw [if_pos hus, if_pos (this.mpr hus)]; ring
    · rw [if_neg hus, if_neg (fun h => hus (this.mp h))]; ring
  · rintro r ⟨U, u1, ⟨u2, u3⟩, u4, rfl⟩
    have g1 := ha ⟨U ∩ A, Finset.inter_subset_right, u2, u4, rfl⟩
    rw [key U u1]
    by_cases hus : u ∈ U
    · have g2 := b1.2 ⟨U ∩ B, Finset.inter_subset_right, u3, Finset.mem_inter.mpr ⟨hus, hB⟩, rfl⟩
      rw [if_pos hus]; linarith
    · have g2 := b0.2 ⟨U ∩ B, Finset.inter_subset_right, u3, fun h => hus (Finset.mem_inter.mp h).1, rfl⟩
      rw [if_neg hus]; linarith

theorem marg_glue (hA : u ∈ A) (hB : u ∈ B) (hAB : ∀ v ∈ A, v ∈ B → v = u) (b : MarginalDiff B Q w u d)
    (hx : ∀ v ∈ A, v ≠ u → x v = w v) (hu : x u = d) (hv : v ∈ A) (a : MarginalDiff A P x v e) :
    MarginalDiff (A ∪ B) (fun S => P (S ∩ A) ∧ Q (S ∩ B)) w v e := by
  obtain ⟨h1, h0, b1, b0, rfl⟩ := b
  obtain ⟨a1, a0, g1, g0, rfl⟩ := a
  have f1 := least_glue hA hB hAB b1 b0 hx hu g1
  have f0 := least_glue hA hB hAB b1 b0 hx hu g0
  have e1 : (fun S : Finset ℕ => v ∈ S ∩ A) = fun S => v ∈ S := by
    funext S; simp [hv]
  have e0 : (fun S : Finset ℕ => v ∉ S ∩ A) = fun S => v ∉ S := by
    funext S; simp [hv]
  rw [e1] at f1
  rw [e0] at f0
  exact ⟨_, _, f1, f0, by ring⟩

/-- Without constraints the difference is the cost. -/
theorem marg_free (hP : ∀ S ⊆ vars, P S) (hv : v ∈ vars) : MarginalDiff vars P w v (w v) := by
  obtain ⟨b, hb⟩ := costs_least (vars := vars) (P := P) (c := fun S => v ∉ S) ⟨∅, by simp, hP _ (by simp), by simp⟩ w
  refine ⟨w v + b, b, ?_, hb, by ring⟩
  obtain ⟨⟨S, s1, s2, s3, rfl⟩, hm⟩ := hb
  have hins : ∀ {S : Finset ℕ}, v ∉ S → cost w (insert v S) = w v + cost w S := fun h => Finset.sum_insert h
  refine ⟨⟨insert v S, Finset.insert_subset hv s1, hP _ (Finset.insert_subset hv s1), Finset.mem_insert_self _ _, hins s3⟩, ?_⟩
  rintro q ⟨T, t1, t2, t3, rfl⟩
  have h1 : T.erase v ⊆ vars := (Finset.erase_subset _ _).trans t1
  have := hm ⟨T.erase v, h1, hP _ h1, Finset.notMem_erase _ _, rfl⟩
  have e : cost w T = w v + cost w (T.erase v) := (Finset.add_sum_erase _ _ t3).symm
  rw [e]; linarith

/-- Nonzero differences determine the only cheapest assignment. -/
theorem only_cheapest {b : ℕ → ℚ} (hm : ∀ v ∈ vars, MarginalDiff vars P w v (b v)) (hne : ∀ v ∈ vars, b v ≠ 0)
    (hex : ∃ S, S ⊆ vars ∧ P S) {S : Finset ℕ} (hS : ∀ v, v ∈ S ↔ v ∈ vars ∧ b v < 0) : OnlyCheapest vars P w S := by
  obtain ⟨q, ⟨T, t1, t2, -, rfl⟩, hT⟩ := costs_least (vars := vars) (P := P) (c := fun _ => True)
    (by obtain ⟨S, h1, h2⟩ := hex; exact ⟨S, h1, h2, trivial⟩) w
  -- every cheapest assignment is `S`
  have hall : ∀ T ⊆ vars, P T → (∀ U ⊆ vars, P U → cost w T ≤ cost w U) → T = S := by
    intro T t1 t2 hT
    ext v
    rw [hS]
    constructor
    · intro hv
      obtain ⟨a, c, ha, ⟨⟨U, u1, u2, u3, rfl⟩, -⟩, e⟩ := hm v (t1 hv)
      have h1 := ha.2 ⟨T, t1, t2, hv, rfl⟩
      have h2 := hT U u1 u2
      exact ⟨t1 hv, lt_of_le_of_ne (by rw [e]; linarith) (hne v (t1 hv))⟩
    · rintro ⟨hv, hlt⟩
      by_contra hn
      obtain ⟨a, c, ⟨⟨U, u1, u2, u3, rfl⟩, -⟩, hc, e⟩ := hm v hv
      have h1 := hc.2 ⟨T, t1, t2, hn, rfl⟩
      have h2 := hT U u1 u2
      rw [e] at hlt; linarith
  have hTS := hall T t1 t2 (fun U u1 u2 => hT ⟨U, u1, u2, trivial, rfl⟩)
  subst hTS
  refine ⟨t1, t2, fun U u1 u2 hne => ?_⟩
  have h1 := hT ⟨U, u1, u2, trivial, rfl⟩
  refine lt_of_le_of_ne h1 fun e => hne (hall U u1 u2 fun Z z1 z2 => ?_)
  rw [← e]; exact hT ⟨Z, z1, z2, trivial, rfl⟩

end

end Verif.Proofs
