import Mathlib.Algebra.Order.Field.Rat
import Verif.Model.TspOut

/-! Rounding of arithmetic, independently of number formats. -/

namespace Verif.Spec
open Verif Num Model

/-- `r` rounds numbers of magnitude up to `M` to finite numbers with an error of at most `ε`, and does not change zero.  For a binary format with
`p` digits and without overflow up to `M` this holds with `ε = M / 2 ^ p` (plus half the smallest positive number, for multiplications).
Larger numbers may be rounded to anything, also to infinities or NaN. -/
def Accurate (r : ℚ → Num) (M ε : ℚ) : Prop := r 0 = 0 ∧ ∀ q, |q| ≤ M → ∃ q', r q = fin q' ∧ |q' - q| ≤ ε

/-- A rounding that keeps integers of magnitude up to `B`, as 32-bit floating point numbers do for `B = 2^24`.
Other numbers may be rounded to anything. -/
def KeepsIntegers (r : ℚ → Num) (B : ℕ) : Prop := ∀ z : ℤ, |z| ≤ B → r z = fin z

/-- A rounding that keeps the multiples of `u` up to `B` times `u`. -/
def KeepsMultiples (r : ℚ → Num) (u : ℚ) (B : ℕ) : Prop := ∀ z : ℤ, |z| ≤ B → r (z * u) = fin (z * u)

/-- Two results of the TSP solver that agree in all but the cost and the intrinsic output. -/
structure SameAnswer (q q' : TspResult) : Prop where
  selected : q'.selected = q.selected
  subtours : q'.subtours = q.subtours
  tour : q'.tour = q.tour
  noImprov : q'.noImprov = q.noImprov
  noCons : q'.noCons = q.noCons
  solOsc : q'.solOsc = q.solOsc
  numAugm : q'.numAugm = q.numAugm
  numAdded : q'.numAdded = q.numAdded

end Verif.Spec
