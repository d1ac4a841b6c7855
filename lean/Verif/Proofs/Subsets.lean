import Verif.Proofs.MinSum
import Mathlib.Data.Finset.Insert
import Mathlib.Order.Interval.Finset.Nat
import Mathlib.Algebra.BigOperators.Group.Finset.Basic
import Mathlib.Tactic.Linarith

/-! Sets of subset costs, and how they split at an index.  Used for the k-SAT and the knapsack trellises. -/

namespace Verif.Proofs
open Verif Num Spec

/-- Costs of the subsets of `V` that satisfy `ok`. -/
def sums (V : Finset ℕ) (ok : Finset ℕ → Prop) (u : ℕ → ℚ) : Set ℚ := {q | ∃ S, S ⊆ V ∧ ok S ∧ cost u S = q}

/-- Sum of two sets of values. -/
def addSet (A B : Set ℚ) : Set ℚ := {q | ∃ a ∈ A, ∃ b ∈ B, a + b = q}

theorem isMin_add {A B : Set ℚ} {v w : Num} (hv : IsMin A v) (hw : IsMin B w) : IsMin (addSet A B) (v + w) := by
  rcases hv with ⟨rfl, rfl⟩ | ⟨q, rfl, hq⟩
  · rcases hw with ⟨rfl, rfl⟩ | ⟨r, rfl, hr⟩ <;> left <;> simp [addSet]
  · rcases hw with ⟨rfl, rfl⟩ | ⟨r, rfl, hr⟩
    · left; simp [addSet]
    · right
      refine ⟨q + r, by simp, ⟨q, hq.1, r, hr.1, rfl⟩, ?_⟩
      rintro _ ⟨a, ha, b, hb, rfl⟩
      exact add_le_add (hq.2 ha) (hr.2 hb)

theorem isMin_add_fin {A : Set ℚ} {v : Num} (hv : IsMin A v) (c : ℚ) : IsMin (addSet A {c}) (v + fin c) :=
  isMin_add hv (isMin_singleton c)

theorem cost_insert {u : ℕ → ℚ} {S : Finset ℕ} {t : ℕ} (h : t ∉ S) : cost u (insert t S) = cost u S + u t := by
  unfold cost; rw [Finset.sum_insert h, add_comm]

theorem cost_erase {u : ℕ → ℚ} {S : Finset ℕ} {t : ℕ} (h : t ∈ S) : cost u (S.erase t) + u t = cost u S := by
  unfold cost; rw [Finset.sum_erase_add _ _ h]

theorem sums_insert {V : Finset ℕ} {t : ℕ} (ht : t ∉ V) (ok : Finset ℕ → Prop) (u : ℕ → ℚ) :
    sums (insert t V) ok u = sums V ok u ∪ addSet (sums V (fun S => ok (insert t S)) u) {u t} := by
  ext q
  simp only [sums, addSet, Set.mem_union, Set.mem_ofPred_eq, Set.mem_singleton_iff]
  constructor
  · rintro ⟨S, hS, hok, rfl⟩
    by_cases h : t ∈ S
    · right
      refine ⟨cost u (S.erase t), ⟨S.erase t, ?_, ?_, rfl⟩, u t, rfl, cost_erase h⟩
      · intro j hj
        rw [Finset.mem_erase] at hj
        exact (Finset.mem_insert.mp (hS hj.2)).resolve_left hj.1
      · rw [Finset.insert_erase h]; exact hok
    · left
      refine ⟨S, ?_, hok, rfl⟩
      intro j hj
      exact (Finset.mem_insert.mp (hS hj)).resolve_left (by rintro rfl; exact h hj)
  · rintro (⟨S, hS, hok, rfl⟩ | ⟨_, ⟨S, hS, hok, rfl⟩, _, rfl, rfl⟩)
    · exact ⟨S, hS.trans (Finset.subset_insert _ _), hok, rfl⟩
    · exact ⟨insert t S, Finset.insert_subset_insert _ hS, hok, cost_insert (fun h => ht (hS h))⟩

theorem sums_congr {V : Finset ℕ} {ok ok' : Finset ℕ → Prop} {u : ℕ → ℚ} (h : ∀ S ⊆ V, ok S ↔ ok' S) :
    sums V ok u = sums V ok' u := by
  ext q
  simp only [sums, Set.mem_ofPred_eq]
  constructor
  · rintro ⟨S, hS, hok, he⟩; exact ⟨S, hS, (h S hS).mp hok, he⟩
  · rintro ⟨S, hS, hok, he⟩; exact ⟨S, hS, (h S hS).mpr hok, he⟩

theorem sums_empty_true (u : ℕ → ℚ) {ok : Finset ℕ → Prop} (h : ok ∅) : sums ∅ ok u = {0} := by
  ext q
  simp only [sums, Set.mem_ofPred_eq, Finset.subset_empty, Set.mem_singleton_iff]
  constructor
  · rintro ⟨S, rfl, _, rfl⟩; simp [cost]
  · rintro rfl; exact ⟨∅, rfl, h, by simp [cost]⟩

theorem sums_empty_false (u : ℕ → ℚ) {ok : Finset ℕ → Prop} (h : ¬ ok ∅) : sums ∅ ok u = ∅ := by
  ext q
  simp only [sums, Set.mem_ofPred_eq, Finset.subset_empty, Set.mem_empty_iff_false, iff_false]
  rintro ⟨S, rfl, hok, _⟩; exact h hok

theorem sums_false (V : Finset ℕ) (u : ℕ → ℚ) {ok : Finset ℕ → Prop} (h : ∀ S ⊆ V, ¬ ok S) : sums V ok u = ∅ := by
  ext q
  simp only [sums, Set.mem_ofPred_eq, Set.mem_empty_iff_false, iff_false]
  rintro ⟨S, hS, hok, _⟩; exact h S hS hok

/-- Splitting the subsets of `V ∪ W` (disjoint). -/
theorem sums_union {V W : Finset ℕ} (hd : Disjoint V W) (ok : Finset ℕ → Prop) (u : ℕ → ℚ) (q : ℚ) :
    q ∈ sums (V ∪ W) ok u ↔ ∃ L R, L ⊆ V ∧ R ⊆ W ∧ ok (L ∪ R) ∧ cost u L + cost u R = q := by
  constructor
  · rintro ⟨S, hS, hok, rfl⟩
    refine ⟨S ∩ V, S ∩ W, Finset.inter_subset_right, Finset.inter_subset_right, ?_, ?_⟩
    · rw [← Finset.inter_union_distrib_left, Finset.inter_eq_left.mpr hS]; exact hok
    · unfold cost
      rw [← Finset.sum_union (hd.mono Finset.inter_subset_right Finset.inter_subset_right),
        ← Finset.inter_union_distrib_left, Finset.inter_eq_left.mpr hS]
  · rintro ⟨L, R, hL, hR, hok, rfl⟩
    refine ⟨L ∪ R, Finset.union_subset_union hL hR, hok, ?_⟩
    unfold cost
    rw [Finset.sum_union (hd.mono hL hR)]

theorem range_split {k s : ℕ} (hs : s < k) :
    Finset.range k = insert s (Finset.range s ∪ Finset.Ico (s + 1) k) := by
  ext j; simp only [Finset.mem_range, Finset.mem_insert, Finset.mem_union, Finset.mem_Ico]; omega

theorem disjoint_range_Ico (s k : ℕ) : Disjoint (Finset.range s) (Finset.Ico (s + 1) k) := by
  rw [Finset.disjoint_left]; intro j hj hj'
  simp only [Finset.mem_range, Finset.mem_Ico] at hj hj'; omega

end Verif.Proofs
