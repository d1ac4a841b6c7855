import Verif.Spec.Formula

/-! The variables that the post-processing of the k-SAT solver looks at. -/

namespace Verif.Spec

/-- Clause `i` shares some but not all variables of clause `c`, and none of its literals on other variables is true. -/
def Near (F : List (List (ℕ × ℤ))) (σ : ℕ → Bool) (c i : ℕ) : Prop :=
  (∃ x ∈ varsOf F c, x ∈ varsOf F i) ∧ (∃ x ∈ varsOf F c, x ∉ varsOf F i) ∧
    ∀ l ∈ F.getD i [], l.1 ∉ varsOf F c → ¬ LitTrue σ l

/-- The variables of clause `c` and of the clauses near it. -/
def Region (F : List (List (ℕ × ℤ))) (σ : ℕ → Bool) (c v : ℕ) : Prop :=
  v ∈ varsOf F c ∨ ∃ i < F.length, Near F σ c i ∧ v ∈ varsOf F i

instance (F : List (List (ℕ × ℤ))) (σ : ℕ → Bool) (c i : ℕ) : Decidable (Near F σ c i) := by unfold Near; infer_instance

instance (F : List (List (ℕ × ℤ))) (σ : ℕ → Bool) (c v : ℕ) : Decidable (Region F σ c v) := by unfold Region; infer_instance

/-- The assignment with variable `x` changed. -/
def flipped (σ : ℕ → Bool) (x : ℕ) : ℕ → Bool := fun v => if v = x then !σ v else σ v

end Verif.Spec
