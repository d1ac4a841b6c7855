import Verif.Spec.Settled
import Mathlib.Combinatorics.SimpleGraph.Paths

/-! Graphs with at most one cycle in every connected part. -/

namespace Verif.Spec

/-- No connected part of the graph has two different cycles: any two cycles that are joined by a walk have the same edges. -/
def AtMostOneCycle {α : Type} (G : SimpleGraph α) : Prop :=
  ∀ ⦃u v : α⦄ (p : G.Walk u u) (q : G.Walk v v), p.IsCycle → q.IsCycle → G.Reachable u v → ∀ e, e ∈ p.edges ↔ e ∈ q.edges

/-- Changing `A` into `B` closes at most one cycle in each part: the constraints and the variables that change their value form a graph with at most
one cycle in every connected part. -/
def OneCycleChange {κ ι : Type} [DecidableEq ι] (F : Finset κ) (V : κ → Finset ι) (A B : Finset ι) : Prop :=
  AtMostOneCycle (factorGraph F (fun c => (V c).filter (fun v => ¬ (v ∈ A ↔ v ∈ B))))

end Verif.Spec
