import Verif.Model.PyTspSolve
import Verif.Spec.PyTsp
import Verif.Spec.TspSolve

/-! Runs of the pure Python TSP program. -/

namespace Verif.Spec
open Verif Num Model

/-- The relaxed round followed by `k` augmentation rounds of the Python program: no round starts after a tour was found. -/
structure PyTspRun (c : PyTspSettings) (start : PyTspState) (g : ℕ → PyTspSolver) (k : ℕ) : Prop where
  first : pyTspFirst c start = some (g 0)
  going : ∀ i < k, c.augmentation = true ∧ (g i).satisfied = false ∧ (g i).tourFlag = false
  round : ∀ i < k, pyTspRound c (g i) = some (g (i + 1))

/-- The same round in both programs.  Python starts every loop one node earlier: at the last node of the loop that C++
reports.  A reported tour repeats its first node.  Python may hold empty constraints, C++ leaves these out. -/
structure SameTspRound (E : ℕ) (st : TspState) (ps : PyTspSolver) : Prop where
  selected : ps.selected = st.selected
  cost : ps.cost = st.cost
  intrinsic : SameArr E ps.intr st.intr
  loops : List.Forall₂ (fun l p => ∃ a z, l = a ++ [z] ∧ p = z :: a) st.an.subtourPaths ps.loops
  cuts : ps.deltas.filter (fun d => d ≠ []) = st.an.deltas
  flags : ps.satisfied = st.an.satisfied ∧ ps.tourFlag = st.an.tourFlag
  no_tour : st.an.tourFlag = false → ps.tour = none
  tour : st.an.tourFlag = true → ∃ l x y, l.head? = some x ∧ l.getLast? = some y ∧ st.an.tour = l ++ [x] ∧ ps.tour = some (y :: l)

end Verif.Spec
