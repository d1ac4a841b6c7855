import Mathlib.Logic.Relation
import Mathlib.Data.List.Infix
import Mathlib.Data.List.Rotate
import Mathlib.Data.Rat.Defs
import Mathlib.Algebra.BigOperators.Group.List.Basic
import Verif.Num

/-! Specification vocabulary for selected edges, paths and cycles. -/

namespace Verif.Spec
open Verif

/-- `v` is above the threshold `t`.  A value that is not a number is not above anything. -/
def Above (v t : Num) : Prop :=
  match v, t with
  | .fin a, .fin b => b < a
  | .pinf, .fin _ => True
  | .pinf, .ninf => True
  | .fin _, .ninf => True
  | _, _ => False

/-- There is a selected edge from `u` to `v`. -/
def Joined (sel : List (ℕ × ℕ)) (u v : ℕ) : Prop := (u, v) ∈ sel

/-- `order` lists every node with an outgoing selected edge once, in any order: a possible traversal order of a hash map
keyed by the start nodes of the selected edges. -/
def StartOrder (sel : List (ℕ × ℕ)) (order : List ℕ) : Prop := order.Nodup ∧ ∀ u, u ∈ order ↔ ∃ v, Joined sel u v

/-- `p` is a path from `u` to `v` along `E` without repeated nodes. -/
def IsPath (E : ℕ → ℕ → Prop) (p : List ℕ) (u v : ℕ) : Prop :=
  p.head? = some u ∧ p.getLast? = some v ∧ p.IsChain E ∧ p.Nodup

/-- `l` is a simple directed cycle: a path whose last node is joined to its first node. -/
def IsCycle (E : ℕ → ℕ → Prop) (l : List ℕ) : Prop := ∃ u v, IsPath E l u v ∧ E v u

/-- The selected edges contain no directed cycle. -/
def Acyclic (sel : List (ℕ × ℕ)) : Prop := ∀ v, ¬ Relation.TransGen (Joined sel) v v

/-- A tour of the nodes `0..n-1`: a closed walk along `E` with `n` steps that visits every node once. -/
structure IsTour (E : ℕ → ℕ → Prop) (n : ℕ) (t : List ℕ) : Prop where
  length : t.length = n + 1
  closed : t.head? = t.getLast?
  steps : t.IsChain E
  once : t.tail.Nodup
  all : ∀ v, v ∈ t ↔ v < n

/-- `l` lists, in increasing order, exactly the positions of the edges that lead from a node in `S` to a node outside. -/
def IsCut (edges : List (ℕ × ℕ)) (S : ℕ → Prop) (l : List ℕ) : Prop :=
  l.Pairwise (· < ·) ∧ ∀ i, i ∈ l ↔ ∃ c, edges[i]? = some c ∧ S c.1 ∧ ¬ S c.2

/-- The cost of walking along `t` when the step from `u` to `v` costs `w u v`. -/
def walkCost (w : ℕ → ℕ → ℚ) (t : List ℕ) : ℚ := ((t.zip t.tail).map (fun p => w p.1 p.2)).sum

end Verif.Spec
