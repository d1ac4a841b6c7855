import Verif.Spec.MinSum
import Mathlib.Data.Finset.Insert
import Mathlib.Algebra.BigOperators.Group.Finset.Basic
import Mathlib.Algebra.Group.Pointwise.Set.Basic

/-! Algebra of `IsMin` and general facts about the specification `IsMessage`. -/

namespace Verif.Spec
open Verif Num

theorem IsMin.unique {A : Set ℚ} {v w : Num} (hv : IsMin A v) (hw : IsMin A w) : v = w := by
  rcases hv with ⟨hA, rfl⟩ | ⟨q, rfl, hq⟩ <;> rcases hw with ⟨hB, rfl⟩ | ⟨r, rfl, hr⟩
  · rfl
  · rw [hA] at hr; exact absurd hr.1 (by simp)
  · rw [hB] at hq; exact absurd hq.1 (by simp)
  · rw [hq.unique hr]

/-- The specification determines the message. -/
theorem IsMessage.unique {ι : Type} {vars : Finset ι} {valid : Finset ι → Prop} {x : ι → ℚ} {i : ι} {m n : Num}
    (hm : IsMessage vars valid x i m) (hn : IsMessage vars valid x i n) : m = n := by
  obtain ⟨a, b, ha, hb, rfl⟩ := hm
  obtain ⟨c, d, hc, hd, rfl⟩ := hn
  rw [ha.unique hc, hb.unique hd]

/-- The message only depends on the messages of the constraint's variables. -/
theorem IsMessage.congr_in {ι : Type} {vars : Finset ι} {valid : Finset ι → Prop} {x y : ι → ℚ} {i : ι} {m : Num}
    (hm : IsMessage vars valid x i m) (h : ∀ j ∈ vars, x j = y j) (hi : i ∈ vars) : IsMessage vars valid y i m := by
  have hc : ∀ c, costs vars valid x c = costs vars valid y c := by
    intro c
    ext q
    simp only [costs, Set.mem_ofPred_eq]
    constructor
    · rintro ⟨S, h1, h2, h3, rfl⟩
      exact ⟨S, h1, h2, h3, Finset.sum_congr rfl fun j hj => (h j (h1 hj)).symm⟩
    · rintro ⟨S, h1, h2, h3, rfl⟩
      exact ⟨S, h1, h2, h3, Finset.sum_congr rfl fun j hj => h j (h1 hj)⟩
  obtain ⟨a, b, ha, hb, rfl⟩ := hm
  rw [hc] at ha hb
  exact ⟨a, b, ha, hb, by rw [h i hi]⟩

theorem isMin_empty : IsMin ∅ pinf := Or.inl ⟨rfl, rfl⟩

theorem isMin_singleton (q : ℚ) : IsMin {q} (fin q) := Or.inr ⟨q, rfl, isLeast_singleton⟩

theorem IsMin.congr {A B : Set ℚ} {v : Num} (h : IsMin A v) (hAB : A = B) : IsMin B v := hAB ▸ h

theorem IsMin.ne_nan {A : Set ℚ} {v : Num} (h : IsMin A v) : v ≠ nan := by
  rcases h with ⟨_, rfl⟩ | ⟨q, rfl, _⟩ <;> simp

theorem IsMin.union {A B : Set ℚ} {v w : Num} (hv : IsMin A v) (hw : IsMin B w) :
    IsMin (A ∪ B) (cmin v w) := by
  rcases hv with ⟨rfl, rfl⟩ | ⟨q, rfl, hq⟩
  · rw [cmin_pinf_left _ hw.ne_nan]; simpa using hw
  · rcases hw with ⟨rfl, rfl⟩ | ⟨r, rfl, hr⟩
    · right; exact ⟨q, rfl, by simpa using hq⟩
    · right
      refine ⟨min q r, by simp, ?_⟩
      exact hq.union hr

theorem IsMin.add_const {A : Set ℚ} {v : Num} (hv : IsMin A v) (c : ℚ) :
    IsMin ((fun q => q + c) '' A) (v + fin c) := by
  rcases hv with ⟨rfl, rfl⟩ | ⟨q, rfl, hq⟩
  · left; simp
  · right
    refine ⟨q + c, by simp, ⟨q, hq.1, rfl⟩, ?_⟩
    rintro _ ⟨r, hr, rfl⟩
    have := hq.2 hr
    change q + c ≤ r + c
    linarith

theorem IsMin.exists_fin {A : Set ℚ} {v : Num} (hv : IsMin A v) (h : A.Nonempty) :
    ∃ q, v = fin q ∧ IsLeast A q := by
  rcases hv with ⟨rfl, _⟩ | h'
  · simp at h
  · exact h'

theorem IsMin.isLeast {A : Set ℚ} {q : ℚ} (hv : IsMin A (fin q)) : IsLeast A q := by
  rcases hv with ⟨_, h⟩ | ⟨r, h, hr⟩
  · cases h
  · cases h; exact hr

theorem isMin_fin {A : Set ℚ} {q : ℚ} (h : IsLeast A q) : IsMin A (fin q) := Or.inr ⟨q, rfl, h⟩

end Verif.Spec
