import Verif.Spec.TspOrder

/-! Vocabulary for comparing a run of the TSP solver with a run on an instance with other names and units. -/

namespace Verif.Spec
open Verif Num Model

/-- `x'` holds the values of `x`, multiplied by `a`, at the places where the renamed edges are listed. -/
def RenamedValues (a : ℚ) (π : ℕ → ℕ) (edges edges' : List (ℕ × ℕ)) (x x' : Arr Num) : Prop :=
  ∃ b b' : ℕ → ℚ, x.Is edges.length b ∧ x'.Is edges'.length b' ∧
    ∀ e e' u v, edges[e]? = some (u, v) → edges'[e']? = some (π u, π v) → b' e' = a * b e

/-- Two results agree in everything when nodes are renamed by `π` and costs multiplied by `a`, up to the order of edges, loops and constraints
and the nodes at which loops and the tour start. -/
structure RenamedResult (a : ℚ) (π : ℕ → ℕ) (edges edges' : List (ℕ × ℕ)) (st st' : TspState) : Prop where
  selected : st'.selected.Perm (st.selected.map (fun p => (π p.1, π p.2)))
  cost : ∃ q, st.cost = fin q ∧ st'.cost = fin (a * q)
  extrinsic : RenamedValues a π edges edges' st.ext st'.ext
  intrinsic : RenamedValues a π edges edges' st.intr st'.intr
  rounds : st.numAugm = st'.numAugm
  flags : st.an.tourFlag = st'.an.tourFlag ∧ st.an.satisfied = st'.an.satisfied ∧ st.an.noConsFlag = st'.an.noConsFlag ∧
    st.noImprovFlag = st'.noImprovFlag ∧ st.solOscFlag = st'.solOscFlag
  loops : (st.an.subtourPaths.map (fun l => asCycle (l.map π))).Perm (st'.an.subtourPaths.map asCycle)
  sizes : st.an.closedPathsSize.Perm st'.an.closedPathsSize
  tour : st.an.tourFlag = true → asCycle (st.an.tour.tail.map π) = asCycle st'.an.tour.tail

/-- Both calls end the process, or both return with such results. -/
def RenamedOutcome (a : ℚ) (π : ℕ → ℕ) (edges edges' : List (ℕ × ℕ)) : Option TspState → Option TspState → Prop
  | none, none => True
  | some st, some st' => RenamedResult a π edges edges' st st'
  | _, _ => False

end Verif.Spec
