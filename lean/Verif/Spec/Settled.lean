import Mathlib.Combinatorics.SimpleGraph.Acyclic
import Mathlib.Data.Finset.Basic

/-! Vocabulary for settled message passing. -/

namespace Verif.Spec

/-- The bipartite graph of constraints and variables: the constraint `c` of `F` is joined to the variables in `V c`. -/
def factorGraph {κ ι : Type} (F : Finset κ) (V : κ → Finset ι) : SimpleGraph (κ ⊕ ι) where
  Adj a b := ∃ c ∈ F, ∃ v ∈ V c, (a = .inl c ∧ b = .inr v) ∨ (a = .inr v ∧ b = .inl c)
  symm := ⟨fun _ _ ⟨c, hc, v, hv, h⟩ => ⟨c, hc, v, hv, h.symm.imp And.symm And.symm⟩⟩
  loopless := ⟨fun a ⟨c, _, v, _, h⟩ => by rcases h with ⟨h1, h2⟩ | ⟨h1, h2⟩ <;> rw [h1] at h2 <;> cases h2⟩

/-- Changing `A` into `B` is treelike: the constraints and the variables that change their value form a graph without cycles. -/
def TreelikeChange {κ ι : Type} [DecidableEq ι] (F : Finset κ) (V : κ → Finset ι) (A B : Finset ι) : Prop :=
  (factorGraph F (fun c => (V c).filter (fun v => ¬ (v ∈ A ↔ v ∈ B)))).IsAcyclic

end Verif.Spec
