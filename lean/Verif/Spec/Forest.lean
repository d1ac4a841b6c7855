import Verif.Spec.MinSum
import Mathlib.Combinatorics.SimpleGraph.Acyclic

/-! Specification of what min-sum should compute on a graph of constraints without cycles. -/

namespace Verif.Spec
open Verif

/-- The graph with a vertex for each of the constraints `0..C-1` (on the left) and each variable (on the right), in which a
constraint is joined to its variables.  `V c` is the set of variables of constraint `c`. -/
def incidence (C : ℕ) (V : ℕ → Finset ℕ) : SimpleGraph (ℕ ⊕ ℕ) where
  Adj a b := ∃ c < C, ∃ v ∈ V c, (a = .inl c ∧ b = .inr v) ∨ (a = .inr v ∧ b = .inl c)
  symm := ⟨fun _ _ ⟨c, hc, v, hv, h⟩ => ⟨c, hc, v, hv, h.symm.imp And.symm And.symm⟩⟩
  loopless := ⟨fun a ⟨c, _, v, _, h⟩ => by rcases h with ⟨h1, h2⟩ | ⟨h1, h2⟩ <;> rw [h1] at h2 <;> cases h2⟩

/-- The sequence `s` tends to `a`. -/
def Tends (s : ℕ → ℚ) (a : ℚ) : Prop := ∀ ε > 0, ∃ N, ∀ j ≥ N, |s j - a| < ε

/-- The constraints in the list can be removed from front to back, each of them sharing at most one variable `u` with the
constraints that remain.  `V c` is the set of variables of constraint `c`. -/
def Forest (V : ℕ → Finset ℕ) : List ℕ → Prop
  | [] => True
  | c :: l => (∃ u ∈ V c, ∀ c' ∈ l, ∀ v ∈ V c, v ∈ V c' → v = u) ∧ Forest V l

/-- `d` is the min-marginal difference of variable `v`: the cheapest valid assignment with `v = 1` minus the cheapest valid
assignment with `v = 0`, where the variables in `S` cost `w`. -/
def MarginalDiff (vars : Finset ℕ) (valid : Finset ℕ → Prop) (w : ℕ → ℚ) (v : ℕ) (d : ℚ) : Prop :=
  ∃ a b, IsLeast (costs vars valid w (fun S => v ∈ S)) a ∧ IsLeast (costs vars valid w (fun S => v ∉ S)) b ∧ d = a - b

/-- `S` is the only cheapest valid assignment. -/
def OnlyCheapest (vars : Finset ℕ) (valid : Finset ℕ → Prop) (w : ℕ → ℚ) (S : Finset ℕ) : Prop :=
  S ⊆ vars ∧ valid S ∧ ∀ T ⊆ vars, valid T → T ≠ S → cost w S < cost w T

/-- `S` is valid and cheaper than every other valid assignment by at least `δ`. -/
def CheapestBy (vars : Finset ℕ) (valid : Finset ℕ → Prop) (w : ℕ → ℚ) (δ : ℚ) (S : Finset ℕ) : Prop :=
  S ⊆ vars ∧ valid S ∧ ∀ T ⊆ vars, valid T → T ≠ S → cost w S + δ ≤ cost w T

end Verif.Spec
