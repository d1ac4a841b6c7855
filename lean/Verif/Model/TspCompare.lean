import Verif.Model.TspIO

/-!
Model of `GraphicalModelTsp.run_pre_analysis` and of the cost computed in `solve_tsp_lkh` (/repo/src/impa/Impa.py:952-996, 1088-1103).  The tour returned by
the reference solver (`elkai`) is a parameter: the list of nodes with the first one repeated at the end.  The exact solver and simulated annealing only
print.  Running times are not modelled.
-/

namespace Verif.Model
open Verif Num

/-- Impa.py:1099-1101: `cost_h`, the sum along the tour, from left to right; `IndexError` for a node that does not exist. -/
def referenceCost (matrix : Mat Num) (tour : List ℕ) : Option Num :=
  loopUp (tour.length - 1) (fun i acc => do
    let u ← tour[i]?
    let v ← tour[i + 1]?
    let c ← matrix.rd u v
    some (acc + c)) 0

/-- Impa.py:976-995: one entry of `results_composed`, without the running times. -/
structure TspRecord where
  reset : Bool
  flag : Bool
  alpha : ℚ
  matrix : Mat Num
  tour : Option (List ℕ)
  cost : Num
  refTour : List ℕ
  refCost : Num
  pp : Bool
  numAugm : ℕ
  selected : List (ℕ × ℕ)
  solOsc : Bool
  noImprov : Bool
  noCons : Bool
  intrinsic : List Num
  numAdded : ℕ

/-- Impa.py:952-996 `run_pre_analysis`: `results_composed`.  `lkh` and `save` are the flags, `refTour` is the tour of the reference solver.  The attributes
`tour_lkh` and `cost_lkh` exist only if the reference solver was run; storing the results without them is an `AttributeError`. -/
def preAnalysis (s : TspSettings) (lkh save : Bool) (refTour : List ℕ) (matrix : Mat Num) (res : TspResult × Bool) : Option (List TspRecord) := do
  let ref ← if lkh then (referenceCost matrix refTour).map (fun c => some (refTour, c)) else some none
  if save then do
    let (t, c) ← ref
    some [⟨s.reset, s.flag, s.alpha, matrix, res.1.tour, res.1.cost, t, c, res.2, res.1.numAugm, res.1.selected, res.1.solOsc, res.1.noImprov,
      res.1.noCons, res.1.intrinsic, res.1.numAdded⟩]
  else some []

end Verif.Model
