import Verif.Model.PyNp
import Verif.Spec.Same
import Verif.Proofs.MinSum
import Verif.Proofs.Runs
import Verif.Proofs.KcPost
import Mathlib.Algebra.BigOperators.Group.Finset.Basic

/-! # Lemmas on the numpy operations -/

namespace Verif.Proofs
open Verif Num Model Spec

@[simp] theorem npMin2_fin (a b : ℚ) : npMin2 (fin a) (fin b) = fin (min a b) := by simp [npMin2]
@[simp] theorem npMax2_fin (a b : ℚ) : npMax2 (fin a) (fin b) = fin (max a b) := by simp [npMax2]

theorem maxNegNeg (a b : ℚ) : max (-a) (-b) = -(min a b) := by
  rcases le_total a b with h | h
  · rw [min_eq_left h, max_eq_left (neg_le_neg h)]
  · rw [min_eq_right h, max_eq_right (neg_le_neg h)]

theorem npMin_foldl (l : List ℚ) : ∀ a : ℚ, ∃ q, (l.map fin).foldl npMin2 (fin a) = fin q ∧
    ((l.map fin).map (fun y => -y)).foldl npMax2 (fin (-a)) = fin (-q) ∧ IsLeast {r | r = a ∨ r ∈ l} q := by
  induction l with
  | nil => intro a; exact ⟨a, rfl, rfl, by simp, fun r hr => by
      have : r = a := by simpa using hr
      rw [this]⟩
  | cons b l ih =>
    intro a
    obtain ⟨q, h1, h2, h3, h4⟩ := ih (min a b)
    refine ⟨q, by simpa using h1, ?_, ?_, ?_⟩
    · have : max (-a) (-b) = -(min a b) := maxNegNeg a b
      simpa [this] using h2
    · rcases h3 with h3 | h3
      · rcases min_choice a b with h | h <;> rw [h] at h3 <;> simp [h3]
      · exact Or.inr (List.mem_cons_of_mem _ h3)
    · rintro r (rfl | hr)
      · exact le_trans (h4 (Or.inl rfl)) (min_le_left _ _)
      · rcases List.mem_cons.mp hr with rfl | hr
        · exact le_trans (h4 (Or.inl rfl)) (min_le_right _ _)
        · exact h4 (Or.inr hr)

/-- The minimum of finitely many finite numbers, and the maximum of their opposites. -/
theorem npMin_fin {l : List ℚ} (h : l ≠ []) : ∃ q, npMin (l.map fin) = some (fin q) ∧
    npMax ((l.map fin).map (fun y => -y)) = some (fin (-q)) ∧ IsLeast {r | r ∈ l} q := by
  cases l with
  | nil => exact absurd rfl h
  | cons a l =>
    obtain ⟨q, h1, h2, h3⟩ := npMin_foldl l a
    refine ⟨q, by simpa [npMin] using h1, by simpa [npMax] using h2, ?_⟩
    simpa using h3

theorem npSum_fin (l : List ℚ) : npSum (l.map fin) = fin l.sum := by
  have : ∀ (l : List ℚ) (a : ℚ), (l.map fin).foldl (· + ·) (fin a) = fin (a + l.sum) := by
    intro l
    induction l with
    | nil => intro a; simp
    | cons b l ih => intro a; simp only [List.map_cons, List.foldl_cons, fin_add, ih, List.sum_cons, add_assoc]
  have h := this l 0
  rw [zero_add] at h
  exact h

/-- Opposites of the two values an `IsMin` can have. -/
theorem neg_cmin_eq {A B : Set ℚ} {a b : Num} (ha : IsMin A a) (hb : IsMin B b) : cmax (-a) (-b) = -(cmin a b) := by
  rcases ha with ⟨-, rfl⟩ | ⟨q, rfl, -⟩ <;> rcases hb with ⟨-, rfl⟩ | ⟨r, rfl, -⟩ <;> try rfl
  simp only [neg_fin, cmax_fin, cmin_fin, maxNegNeg]

theorem genM_eq {n : ℕ} {f : ℕ → Option Num} {g : ℕ → Num} (h : ∀ i < n, f i = some (g i)) :
    ∃ a, Arr.genM n f = some a ∧ a.size = n ∧ ∀ i < n, a.data i = g i := by
  refine ⟨_, by rw [Arr.genM, mapM_some (g := g) (fun i hi => h i (List.mem_range.mp hi))]; rfl, rfl, fun i hi => ?_⟩
  simp [hi]

theorem Mat.genM_eq {m n : ℕ} {f : ℕ → Option (Arr Num)} {g : ℕ → ℕ → Num}
    (h : ∀ i < m, ∃ a, f i = some a ∧ a.size = n ∧ ∀ j < n, a.data j = g i j) :
    ∃ a, Mat.genM m n f = some a ∧ a.rows = m ∧ a.cols = n ∧ ∀ i < m, ∀ j < n, a.data i j = g i j := by
  classical
  let r : ℕ → Arr Num := fun i => (f i).getD (Arr.fill n 0)
  have hr : ∀ i < m, f i = some (r i) := fun i hi => by obtain ⟨a, h1, -⟩ := h i hi; simp [r, h1]
  refine ⟨_, by rw [Mat.genM, mapM_some (g := r) (fun i hi => hr i (List.mem_range.mp hi))]; rfl, rfl, rfl, fun i hi j hj => ?_⟩
  obtain ⟨a, h1, -, h3⟩ := h i hi
  simp [hi, r, h1, h3 j hj]

/-- Filtering in Python, when it returns: the damping step of the specification. -/
theorem pyFilter_is {m n : ℕ} {flag : Bool} {alpha : ℚ} {k : ℕ} {dummy : Mat Num} {old : Option (Mat Num)} {r p : ℕ → ℕ → ℚ}
    (hfa : flag = true → alpha ≠ 0) (hd : dummy.Is m n r)
    (ho : k ≠ 0 → flag = true → ∃ o, old = some o ∧ o.Is m n p) :
    ∃ u o', pyFilter flag alpha k dummy old = some (u, o') ∧ u.Is m n (fun i j => dampStep flag alpha k (r i j) (p i j)) ∧
      (flag = true → ∃ o, o' = some o ∧ o.Is m n (fun i j => dampStep flag alpha k (r i j) (p i j))) := by
  have hs : ∀ c : ℚ, (npScale (fin c) dummy).Is m n (fun i j => c * r i j) := fun c =>
    ⟨hd.1, hd.2.1, fun i hi j hj => by simp [npScale, hd.2.2 i hi j hj]⟩
  cases flag with
  | false => exact ⟨dummy, old, by simp [pyFilter], hd.congr (by simp [dampStep]), by simp⟩
  | true =>
    have ha := hfa rfl
    by_cases hk : k = 0
    · refine ⟨_, _, by simp only [pyFilter, hk, ha, ne_eq, not_false_eq_true, and_self, if_true]; rfl,
        (hs _).congr ?_, fun _ => ⟨_, rfl, (hs _).congr ?_⟩⟩ <;> simp [dampStep, ha, hk]
    · obtain ⟨o, rfl, h⟩ := ho hk rfl
      have hr : (⟨m, n, fun i j => (npScale (fin alpha) o).data i j + (npScale (fin (1 - alpha)) dummy).data i j⟩ : Mat Num).Is m n
          (fun i j => dampStep true alpha k (r i j) (p i j)) :=
        ⟨rfl, rfl, fun i hi j hj => by simp [npScale, hd.2.2 i hi j hj, h.2.2 i hi j hj, dampStep, ha, hk, add_comm]⟩
      refine ⟨_, _, ?_, hr, fun _ => ⟨_, rfl, hr⟩⟩
      simp only [pyFilter, hk, false_and, if_false, Nat.pos_of_ne_zero hk, ha, ne_eq, not_false_eq_true, and_self, if_true,
        npAdd2, npScale, h.1, h.2.1, hd.1, hd.2.1, Option.bind_eq_bind, Option.bind_some]

theorem sum_range_list (f : ℕ → ℚ) (m : ℕ) : ((List.range m).map f).sum = ∑ i ∈ Finset.range m, f i := by
  induction m with
  | zero => simp
  | succ m ih => rw [List.range_succ, List.map_append, List.sum_append, ih, Finset.sum_range_succ]; simp

/-- Row sums over the first axis. -/
theorem npSumAxis0_is {m n : ℕ} {K : Mat Num} {x : ℕ → ℕ → ℚ} (h : K.Is m n x) :
    (npSumAxis0 K).Is n (fun j => ∑ i ∈ Finset.range m, x i j) := by
  refine ⟨h.2.1, fun j hj => ?_⟩
  have : (List.range K.rows).map (fun i => K.data i j) = ((List.range m).map (fun i => x i j)).map fin := by
    rw [h.1, List.map_map]
    exact List.map_congr_left fun i hi => h.2.2 i (List.mem_range.mp hi) j hj
  show npSum _ = _
  rw [this, npSum_fin, sum_range_list]

end Verif.Proofs
