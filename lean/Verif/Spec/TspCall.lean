import Verif.Spec.TspTables
import Verif.Model.TspIO

/-! The mathematical problem of a call of the TSP solver. -/

namespace Verif.Spec
open Verif Num Model

/-- The costs of the edges at their two ends. -/
def endCosts (C : ℕ → ℕ → ℚ) (edges : List (ℕ × ℕ)) (e v : ℕ) : ℚ :=
  if v = src edges e ∨ v = dst edges e then C (src edges e) (dst edges e) else 0

/-- The mathematical problem that a call is about. -/
def callProblem (s : TspSettings) (n : ℕ) (C : ℕ → ℕ → ℚ) (edges : List (ℕ × ℕ)) : TspProblem where
  n := n
  edges := edges
  w := fun e => C (src edges e) (dst edges e)
  c := endCosts C edges
  C := C
  flag := s.flag
  alpha := s.alpha
  iters := s.numIter
  reset := s.reset
  thr := s.thr

/-- The belief of edge `e` after round `R`. -/
def belief (P : TspProblem) (R : TspRound) (e : ℕ) : ℚ := R.output P e + P.w e

end Verif.Spec
