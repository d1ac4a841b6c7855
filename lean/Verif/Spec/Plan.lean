import Verif.Spec.Assignment
import Verif.Spec.Settled
import Mathlib.Data.Finset.Sum

/-! Specification: plans, that is assignments of projects to teams that respect the capacities, and their constraints. -/

namespace Verif.Spec

/-- The assignment `m` gives no project twice, and its teams respect all capacities: team `t` takes `wf d t` from department `d` with
capacity `cap d`. -/
structure Plan (D T P : ℕ) (wf : ℕ → ℕ → ℕ) (cap : ℕ → ℕ) (m : ℕ → Option ℕ) : Prop extends Assignment T P m where
  fits : ∀ d < D, ∑ t ∈ (Finset.range T).filter (fun t => m t ≠ none), wf d t ≤ cap d

/-- What a plan switches on: its teams `t` and its pairs `(p, t)` of a project and a team. -/
def planVars (T P : ℕ) (m : ℕ → Option ℕ) : Finset (ℕ ⊕ ℕ × ℕ) :=
  ((Finset.range T).filter (fun t => m t ≠ none)).disjSum ((Finset.range P ×ˢ Finset.range T).filter (fun c => m c.2 = some c.1))

/-- The constraints: one per department, one per team, one per project. -/
def planConstraints (D T P : ℕ) : Finset (ℕ ⊕ ℕ ⊕ ℕ) := (Finset.range D).disjSum ((Finset.range T).disjSum (Finset.range P))

/-- What a constraint is about: a department about its teams, a team about itself and all its pairs, a project about its pairs. -/
def planScope (T P : ℕ) (wf : ℕ → ℕ → ℕ) : ℕ ⊕ ℕ ⊕ ℕ → Finset (ℕ ⊕ ℕ × ℕ)
  | .inl d => ((Finset.range T).filter (fun t => wf d t ≠ 0)).disjSum ∅
  | .inr (.inl t) => ({t} : Finset ℕ).disjSum (Finset.range P ×ˢ {t})
  | .inr (.inr p) => (∅ : Finset ℕ).disjSum ({p} ×ˢ Finset.range T)

end Verif.Spec
