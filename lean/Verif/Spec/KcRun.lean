import Verif.Spec.Knapsack
import Verif.Spec.Oric
import Verif.Spec.Damping

/-! Specification of the min-sum algorithm for the assignment problem with department capacities. -/

namespace Verif.Spec
open Verif

/-- The departments used by team `t`. -/
def depts (D : ℕ) (wf : ℕ → ℕ → ℕ) (t : ℕ) : Finset ℕ := (Finset.range D).filter (fun d => wf d t ≠ 0)

/-- Messages of the algorithm in iteration `j`: `a j d t` from team `t` to department `d`, `raw j d t` back (before
damping), `o j p t` from the coupling constraint of team `t` to the edge of project `p`, `y j p t` from the constraint of
project `p` to that edge, `e j p t` from that edge to the coupling constraint (at the start of the iteration), `c j t` from
the coupling constraint to the team.  `w t` is the cost of team `t`, `R p t` the cost of matching project `p` to team `t`.
`limit` bounds the messages to teams from above (`none`: the textbook algorithm). -/
structure IsKcTrace (D T P : ℕ) (wf : ℕ → ℕ → ℕ) (cap : ℕ → ℕ) (w : ℕ → ℚ) (R : ℕ → ℕ → ℚ) (flag : Bool) (alpha : ℚ)
    (limit : Option ℚ) (a0 : ℕ → ℕ → ℚ) (a raw o y e : ℕ → ℕ → ℕ → ℚ) (c : ℕ → ℕ → ℚ) : Prop where
  init : ∀ d < D, ∀ t < T, a 0 d t = a0 d t
  dept : ∀ j, ∀ d < D, ∀ t < T, wf d t ≠ 0 → IsMessage (users (wf d) 0 T) (Fits (wf d) (cap d)) (a j d) t (Num.fin (raw j d t))
  edge_init : ∀ p < P, ∀ t < T, e 0 p t = 0
  coupling : ∀ j, ∀ p < P, ∀ t < T, IsMessage (couplingVars P) Coupled
    (couplingIn (w t + ∑ d ∈ depts D wf t, damped flag alpha (fun i => raw i d t) j) (fun p => e j p t)) (some p)
    (Num.fin (o j p t))
  project : ∀ j, ∀ p < P, ∀ t < T, IsMessage (Finset.range T) AtMostOne (fun t => o j p t + R p t) t (Num.fin (y j p t))
  edge : ∀ j, ∀ p < P, ∀ t < T, e (j + 1) p t = R p t + y j p t
  team : ∀ j, ∀ t < T, ∃ v, IsMessage (couplingVars P) Coupled
    (couplingIn (w t + ∑ d ∈ depts D wf t, damped flag alpha (fun i => raw i d t) j) (fun p => e (j + 1) p t)) none (Num.fin v) ∧
    c j t = (match limit with | none => v | some l => min l v)
  next : ∀ j, ∀ d < D, ∀ t < T, wf d t ≠ 0 → a (j + 1) d t = w t + c j t +
    ∑ d' ∈ (depts D wf t).erase d, damped flag alpha (fun i => raw i d' t) j

end Verif.Spec
