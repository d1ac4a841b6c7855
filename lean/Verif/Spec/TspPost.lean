import Mathlib.Data.List.Rotate
import Mathlib.Data.Rat.Defs
import Verif.Spec.TspRun
import Verif.Spec.Loops

/-! What the post-processing of the TSP solver should do. -/

namespace Verif.Spec

/-- Every ordered pair of distinct nodes is listed exactly once. -/
def AllEdges (n : ℕ) (edges : List (ℕ × ℕ)) : Prop := edges.Nodup ∧ EdgesOk n edges ∧ Complete n edges

/-- Length of the closed tour through the nodes of `t`. -/
def tourLength (C : ℕ → ℕ → ℚ) (t : List ℕ) : ℚ := ((t.zip (t.rotate 1)).map (fun p => C p.1 p.2)).sum

/-- `t` visits every node exactly once. -/
def Visits (n : ℕ) (t : List ℕ) : Prop := t.Perm (List.range n)

/-- Greedy insertion: while nodes are left in `rest`, the node that is cheapest to put before the first or behind the last node is added
there. -/
inductive Greedy (C : ℕ → ℕ → ℚ) : List ℕ → List ℕ → List ℕ → Prop
  | done {t : List ℕ} : Greedy C t [] t
  | left {t rest r : List ℕ} {v : ℕ} (ht : t ≠ []) : v ∈ rest → (∀ w ∈ rest, C v (t.head ht) ≤ C w (t.head ht)) →
      (∀ w ∈ rest, C v (t.head ht) ≤ C (t.getLast ht) w) → Greedy C (v :: t) (rest.erase v) r → Greedy C t rest r
  | right {t rest r : List ℕ} {v : ℕ} (ht : t ≠ []) : v ∈ rest → (∀ w ∈ rest, C (t.getLast ht) v ≤ C (t.getLast ht) w) →
      (∀ w ∈ rest, C (t.getLast ht) v ≤ C w (t.head ht)) → Greedy C (t ++ [v]) (rest.erase v) r → Greedy C t rest r

/-- `t'` is `t` with the nodes at two positions exchanged. -/
def Swapped (t t' : List ℕ) : Prop :=
  t'.length = t.length ∧ ∃ i j, i < j ∧ j < t.length ∧ t'[i]? = t[j]? ∧ t'[j]? = t[i]? ∧ ∀ k, k ≠ i → k ≠ j → t'[k]? = t[k]?

/-- `t'` is `t` with the nodes at three positions moved on cyclically. -/
def Rotated3 (t t' : List ℕ) : Prop :=
  t'.length = t.length ∧ ∃ i j k, i < j ∧ j < k ∧ k < t.length ∧ t'[i]? = t[k]? ∧ t'[j]? = t[i]? ∧ t'[k]? = t[j]? ∧
    ∀ x, x ≠ i → x ≠ j → x ≠ k → t'[x]? = t[x]?

/-- `t'` is a cheapest tour among `t` and its neighbours. -/
def BestOf (C : ℕ → ℕ → ℚ) (N : List ℕ → List ℕ → Prop) (t t' : List ℕ) : Prop :=
  (t' = t ∨ N t t') ∧ tourLength C t' ≤ tourLength C t ∧ ∀ s, N t s → tourLength C t' ≤ tourLength C s

/-- No two edges of `E` leave the same node. -/
def OneOut (E : List (ℕ × ℕ)) : Prop := ∀ u v w, Joined E u v → Joined E u w → v = w
/-- No two edges of `E` enter the same node. -/
def OneIn (E : List (ℕ × ℕ)) : Prop := ∀ u v w, Joined E u w → Joined E v w → u = v

/-- `v` is an end of an edge of `E`. -/
def Touched (E : List (ℕ × ℕ)) (v : ℕ) : Prop := ∃ u, Joined E u v ∨ Joined E v u

/-- Some edge of `E` leads to a node that no edge of `E` leaves. -/
def HasEnd (E : List (ℕ × ℕ)) : Prop := ∃ u v, Joined E u v ∧ ∀ w, ¬ Joined E v w

/-- `paths` are the open paths of `E`: they follow edges of `E`, start at nodes without incoming and end at nodes without outgoing edge,
share no nodes, and all other nodes with edges of `E` lie on cycles. -/
structure OpenPaths (E : List (ℕ × ℕ)) (paths : List (List ℕ)) : Prop where
  nonempty : ∀ p ∈ paths, p ≠ []
  chain : ∀ p ∈ paths, p.IsChain (Joined E)
  starts : ∀ p ∈ paths, ∀ v ∈ p.head?, ∀ u, ¬ Joined E u v
  ends : ∀ p ∈ paths, ∀ v ∈ p.getLast?, ∀ w, ¬ Joined E v w
  nodup : paths.flatten.Nodup
  touched : ∀ v ∈ paths.flatten, Touched E v
  rest : ∀ v, Touched E v → v ∈ paths.flatten ∨ ∃ l, v ∈ l ∧ IsCycle (Joined E) l

/-- A subtour as the solver reports it: a closed walk along selected edges. -/
def SubtourOk (sel : List (ℕ × ℕ)) (p : List ℕ) : Prop := p.head? = p.getLast? ∧ p.IsChain (Joined sel) ∧ 2 ≤ p.length

/-- The reported subtours: a list of subtours, or none. -/
def SubtoursOk (sel : List (ℕ × ℕ)) (subtours : Option (List (List ℕ))) : Prop := ∀ s, subtours = some s → ∀ p ∈ s, SubtourOk sel p

/-- The result of joining: the paths in an order that starts with the first path, missing nodes added greedily, and no other such order is
cheaper. -/
def Joining (n : ℕ) (C : ℕ → ℕ → ℚ) (paths : List (List ℕ)) (tour : List ℕ) : Prop :=
  ∃ σ : List (List ℕ), σ.Perm paths ∧ σ.head? = paths.head? ∧
    Greedy C σ.flatten ((List.range n).filter (fun v => !paths.flatten.contains v)) tour ∧
    ∀ σ' : List (List ℕ), σ'.Perm paths → σ'.head? = paths.head? → ∃ tour', Visits n tour' ∧
      Greedy C σ'.flatten ((List.range n).filter (fun v => !paths.flatten.contains v)) tour' ∧ tourLength C tour ≤ tourLength C tour'

end Verif.Spec
