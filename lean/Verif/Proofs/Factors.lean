import Verif.Proofs.MinSum
import Verif.Spec.Oric
import Mathlib.Tactic.Linarith
import Mathlib.Algebra.Order.BigOperators.Group.Finset

/-! Closed forms of the specified messages for each kind of constraint. -/

namespace Verif.Proofs
open Verif Num Spec

/-- Values of the other variables. -/
def others {ι : Type} (vars : Finset ι) (x : ι → ℚ) (t : ι) : Set ℚ := {q | ∃ s ∈ vars, s ≠ t ∧ x s = q}

theorem atMostOne_message {ι : Type} [DecidableEq ι] {vars : Finset ι} {x : ι → ℚ} {t : ι} (ht : t ∈ vars) {q : ℚ}
    (hq : IsLeast ({q | q = 0 ∨ ∃ s ∈ vars, s ≠ t ∧ x s = q}) q) : IsMessage vars AtMostOne x t (fin (-q)) := by
  refine ⟨fin (x t), fin q, isMin_fin ⟨⟨{t}, by simpa using ht, ?_, by simp, by simp [cost]⟩, ?_⟩, isMin_fin ⟨?_, ?_⟩, ?_⟩
  · intro i hi j hj; simp at hi hj; rw [hi, hj]
  · rintro c ⟨S, _, h1, h2, rfl⟩
    have : S = {t} := by
      ext i; constructor
      · intro hi; simpa using h1 i hi t h2
      · intro hi; simp at hi; rw [hi]; exact h2
    simp [this, cost]
  · rcases hq.1 with rfl | ⟨s, hs, hne, rfl⟩
    · exact ⟨∅, by simp, by intro i hi; simp at hi, by simp, by simp [cost]⟩
    · refine ⟨{s}, by simpa using hs, ?_, by simpa using Ne.symm hne, by simp [cost]⟩
      intro i hi j hj; simp at hi hj; rw [hi, hj]
  · rintro c ⟨S, hS, h1, h2, rfl⟩
    apply hq.2
    rcases S.eq_empty_or_nonempty with rfl | ⟨i, hi⟩
    · left; simp [cost]
    · right
      have : S = {i} := by
        ext j; constructor
        · intro hj; simpa using h1 j hj i hi
        · intro hj; simp at hj; rw [hj]; exact hi
      subst this
      refine ⟨i, hS hi, ?_, by simp [cost]⟩
      rintro rfl; exact h2 hi
  · simp

theorem exactlyOne_message {ι : Type} [DecidableEq ι] {vars : Finset ι} {x : ι → ℚ} {t : ι} (ht : t ∈ vars) {v : Num}
    (hv : IsMin (others vars x t) v) : IsMessage vars ExactlyOne x t (-v) := by
  refine ⟨fin (x t), v, isMin_fin ⟨⟨{t}, by simpa using ht, ⟨t, rfl⟩, by simp, by simp [cost]⟩, ?_⟩, hv.congr ?_, ?_⟩
  · rintro c ⟨S, _, ⟨i, rfl⟩, h2, rfl⟩
    simp at h2; simp [cost, h2]
  · ext c; constructor
    · rintro ⟨s, hs, hne, rfl⟩
      exact ⟨{s}, by simpa using hs, ⟨s, rfl⟩, by simpa using Ne.symm hne, by simp [cost]⟩
    · rintro ⟨S, hS, ⟨i, rfl⟩, h2, rfl⟩
      exact ⟨i, by simpa using hS, by rintro rfl; simp at h2, by simp [cost]⟩
  · rcases hv with ⟨_, rfl⟩ | ⟨q, rfl, _⟩
    · rfl
    · simp

theorem atLeastOne_message {ι : Type} [DecidableEq ι] {vars : Finset ι} {x : ι → ℚ} {t : ι} (ht : t ∈ vars) {v : Num}
    (hv : IsMin (others vars x t) v) : IsMessage vars AtLeastOne x t (cmin (-v) (fin 0)) := by
  -- the cheapest choice of the other variables
  let N : Finset ι := (vars.erase t).filter (fun j => x j < 0)
  have hN : ∀ S : Finset ι, S ⊆ vars → t ∉ S → cost x N ≤ cost x S := by
    intro S hS htS
    have h1 : cost x N ≤ cost x (S.filter (fun j => x j < 0)) := by
      have hsub : S.filter (fun j => x j < 0) ⊆ N := by
        intro j hj
        simp only [Finset.mem_filter, N, Finset.mem_erase] at hj ⊢
        exact ⟨⟨by rintro rfl; exact htS hj.1, hS hj.1⟩, hj.2⟩
      unfold cost
      rw [← Finset.sum_sdiff hsub]
      have : (N \ S.filter (fun j => x j < 0)).sum x ≤ 0 := by
        apply Finset.sum_nonpos
        intro j hj
        simp only [Finset.mem_sdiff, Finset.mem_filter, N] at hj
        exact hj.1.2.le
      linarith
    have h2 : cost x (S.filter (fun j => x j < 0)) ≤ cost x S := by
      unfold cost
      rw [← Finset.sum_filter_add_sum_filter_not S (fun j => x j < 0)]
      have : 0 ≤ (S.filter (fun j => ¬ x j < 0)).sum x := by
        apply Finset.sum_nonneg
        intro j hj
        simp only [Finset.mem_filter] at hj
        linarith [hj.2]
      linarith
    exact h1.trans h2
  have htN : t ∉ N := by simp [N]
  have hNv : N ⊆ vars := by
    intro j hj; simp only [N, Finset.mem_filter, Finset.mem_erase] at hj; exact hj.1.2
  have hcost : ∀ S : Finset ι, t ∈ S → cost x S = cost x (S.erase t) + x t := by
    intro S h; unfold cost; rw [Finset.sum_erase_add _ _ h]
  have ha : IsMin (costs vars AtLeastOne x (fun S => t ∈ S)) (fin (cost x N + x t)) := by
    apply isMin_fin
    refine ⟨⟨insert t N, ?_, ⟨t, by simp⟩, by simp, ?_⟩, ?_⟩
    · intro j hj; rcases Finset.mem_insert.mp hj with rfl | h
      · exact ht
      · exact hNv h
    · rw [hcost _ (by simp), Finset.erase_insert htN]
    · rintro c ⟨S, hS, _, h2, rfl⟩
      rw [hcost S h2]
      have := hN (S.erase t) (fun j hj => hS (Finset.mem_of_mem_erase hj)) (by simp)
      linarith
  rcases hv with ⟨he, rfl⟩ | ⟨q, rfl, hq⟩
  · refine ⟨_, pinf, ha, Or.inl ⟨?_, rfl⟩, rfl⟩
    ext c; constructor
    · rintro ⟨S, hS, ⟨j, hj⟩, h2, rfl⟩
      have : x j ∈ others vars x t := ⟨j, hS hj, by rintro rfl; exact h2 hj, rfl⟩
      rw [he] at this; exact this
    · intro h; simp at h
  · obtain ⟨s, hs, hne, rfl⟩ := hq.1
    by_cases h0 : x s < 0
    · -- some other message is negative: the constraint is free
      have hsN : s ∈ N := by simp [N, hs, hne, h0]
      refine ⟨_, fin (cost x N), ha, isMin_fin ⟨⟨N, hNv, ⟨s, hsN⟩, htN, rfl⟩, ?_⟩, ?_⟩
      · rintro c ⟨S, hS, _, h2, rfl⟩; exact hN S hS h2
      · simp only [neg_fin, cmin_fin, fin_sub]
        rw [min_eq_right (by linarith)]
        congr 1; ring
    · -- all other messages are nonnegative: pay the cheapest
      have hpos : ∀ j ∈ vars, j ≠ t → x s ≤ x j := fun j hj hjt => hq.2 ⟨j, hj, hjt, rfl⟩
      have hNe : N = ∅ := by
        rw [Finset.eq_empty_iff_forall_notMem]
        intro j hj
        simp only [N, Finset.mem_filter, Finset.mem_erase] at hj
        have := hpos j hj.1.2 hj.1.1
        linarith [hj.2]
      refine ⟨_, fin (x s), ha, isMin_fin ⟨⟨{s}, by simpa using hs, ⟨s, by simp⟩, by simpa using Ne.symm hne, by simp [cost]⟩, ?_⟩, ?_⟩
      · rintro c ⟨S, hS, ⟨j, hj⟩, h2, rfl⟩
        have hjt : j ≠ t := by rintro rfl; exact h2 hj
        have h3 : x j ≤ cost x S := by
          unfold cost
          refine Finset.single_le_sum (f := x) ?_ hj
          intro k hk
          have := hpos k (hS hk) (by rintro rfl; exact h2 hk)
          linarith
        exact (hpos j (hS hj) hjt).trans h3
      · simp only [neg_fin, cmin_fin, fin_sub, hNe]
        rw [min_eq_left (by linarith)]
        simp [cost]

theorem mem_couplingVars {P : ℕ} {v : Option ℕ} : v ∈ couplingVars P ↔ v = none ∨ ∃ p < P, v = some p := by
  unfold couplingVars
  simp [eq_comm]

theorem coupling_project_message {P : ℕ} {m : ℚ} {e : ℕ → ℚ} {p : ℕ} (hp : p < P) {q : ℚ}
    (hq : IsLeast ({q | q = 0 ∨ ∃ s < P, s ≠ p ∧ e s + m = q}) q) :
    IsMessage (couplingVars P) Coupled (couplingIn m e) (some p) (fin (m - q)) := by
  refine ⟨fin (m + e p), fin q, isMin_fin ⟨⟨{none, some p}, ?_, Or.inr ⟨p, rfl⟩, by simp, by simp [cost, couplingIn]⟩, ?_⟩,
    isMin_fin ⟨?_, ?_⟩, ?_⟩
  · intro v hv; rw [mem_couplingVars]
    simp at hv; rcases hv with rfl | rfl
    · left; rfl
    · right; exact ⟨p, hp, rfl⟩
  · rintro c ⟨S, _, h1, h2, rfl⟩
    rcases h1 with rfl | ⟨p', rfl⟩
    · simp at h2
    · simp at h2; subst h2; simp [cost, couplingIn]
  · rcases hq.1 with rfl | ⟨s, hs, hne, rfl⟩
    · exact ⟨∅, by simp, Or.inl rfl, by simp, by simp [cost]⟩
    · refine ⟨{none, some s}, ?_, Or.inr ⟨s, rfl⟩, by simpa using Ne.symm hne, by simp [cost, couplingIn]; ring⟩
      intro v hv; rw [mem_couplingVars]
      simp at hv; rcases hv with rfl | rfl
      · left; rfl
      · right; exact ⟨s, hs, rfl⟩
  · rintro c ⟨S, hS, h1, h2, rfl⟩
    apply hq.2
    rcases h1 with rfl | ⟨s, rfl⟩
    · left; simp [cost]
    · right
      have : some s ∈ couplingVars P := hS (by simp)
      rw [mem_couplingVars] at this
      simp at this
      refine ⟨s, this, ?_, by simp [cost, couplingIn]; ring⟩
      rintro rfl; simp at h2
  · simp [couplingIn]; ring

theorem coupling_team_message {P : ℕ} {m : ℚ} {e : ℕ → ℚ} {q : ℚ}
    (hq : IsLeast {q | ∃ s < P, e s = q} q) :
    IsMessage (couplingVars P) Coupled (couplingIn m e) none (fin q) := by
  refine ⟨fin (m + q), fin 0, isMin_fin ⟨?_, ?_⟩, isMin_fin ⟨⟨∅, by simp, Or.inl rfl, by simp, by simp [cost]⟩, ?_⟩, ?_⟩
  · obtain ⟨s, hs, rfl⟩ := hq.1
    refine ⟨{none, some s}, ?_, Or.inr ⟨s, rfl⟩, by simp, by simp [cost, couplingIn]⟩
    intro v hv; rw [mem_couplingVars]
    simp at hv; rcases hv with rfl | rfl
    · left; rfl
    · right; exact ⟨s, hs, rfl⟩
  · rintro c ⟨S, hS, h1, h2, rfl⟩
    rcases h1 with rfl | ⟨s, rfl⟩
    · simp at h2
    · have : some s ∈ couplingVars P := hS (by simp)
      rw [mem_couplingVars] at this
      simp at this
      have := hq.2 ⟨s, this, rfl⟩
      simp [cost, couplingIn]; exact this
  · rintro c ⟨S, hS, h1, h2, rfl⟩
    rcases h1 with rfl | ⟨s, rfl⟩
    · simp [cost]
    · simp at h2
  · simp [couplingIn]

end Verif.Proofs
