import Verif.Spec.TspRounds
import Verif.Spec.TspSolve
import Verif.Spec.Same
import Mathlib.Data.List.Cycle

/-! Vocabulary for comparing two runs of the TSP solver. -/

namespace Verif.Spec
open Verif Model

/-- A loop, no matter at which node it starts. -/
def asCycle (l : List ℕ) : Cycle ℕ := l

/-- Two selected cycles that have a node in common are the same cycle. -/
def CyclesApart (sel : List (ℕ × ℕ)) : Prop :=
  ∀ l l', IsCycle (Joined sel) l → IsCycle (Joined sel) l' → ∀ v, v ∈ l → v ∈ l' → l ~r l'

/-- Two results agree in everything but the order of loops and constraints and the nodes at which loops and the tour
start. -/
structure SameResult (E : ℕ) (st st' : TspState) : Prop where
  selected : st.selected = st'.selected
  cost : st.cost = st'.cost
  extrinsic : SameArr E st.ext st'.ext
  intrinsic : SameArr E st.intr st'.intr
  rounds : st.numAugm = st'.numAugm
  flags : st.an.tourFlag = st'.an.tourFlag ∧ st.an.satisfied = st'.an.satisfied ∧ st.an.noConsFlag = st'.an.noConsFlag ∧
    st.noImprovFlag = st'.noImprovFlag ∧ st.solOscFlag = st'.solOscFlag
  loops : (st.an.subtourPaths.map asCycle).Perm (st'.an.subtourPaths.map asCycle)
  sizes : st.an.closedPathsSize.Perm st'.an.closedPathsSize
  cuts : st.an.deltas.Perm st'.an.deltas
  tour : st.an.tourFlag = true → asCycle st.an.tour.tail = asCycle st'.an.tour.tail

/-- Both calls end the process, or both return with such results. -/
def SameOutcome (E : ℕ) : Option TspState → Option TspState → Prop
  | none, none => True
  | some st, some st' => SameResult E st st'
  | _, _ => False

end Verif.Spec
