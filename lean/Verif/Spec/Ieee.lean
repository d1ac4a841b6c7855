import Mathlib.Algebra.Order.Floor.Semiring
import Mathlib.Data.Int.Log
import Mathlib.Data.Rat.Floor
import Verif.Num

/-! Binary floating point formats of IEEE 754, with subnormal numbers and overflow, without signed zeros. -/

namespace Verif.Spec
open Verif Num

/-- The nearest integer; of two nearest ones, the even one. -/
def roundEven (x : ℚ) : ℤ :=
  if x - ⌊x⌋ < 1 / 2 then ⌊x⌋ else if 1 / 2 < x - ⌊x⌋ then ⌊x⌋ + 1 else if ⌊x⌋ % 2 = 0 then ⌊x⌋ else ⌊x⌋ + 1

/-- The distance of neighbouring numbers of the format with `p` significant bits and largest exponent `emax` at `q`. -/
def spacing (p emax : ℕ) (q : ℚ) : ℚ := 2 ^ (max (Int.log 2 |q|) (1 - emax) + 1 - p)

/-- Round to nearest, ties to even: the result is a multiple of the spacing, and an infinity if it needs a larger exponent than `emax`. -/
def ieee (p emax : ℕ) (q : ℚ) : Num :=
  let x := roundEven (q / spacing p emax q) * spacing p emax q
  if 2 ^ (emax + 1) ≤ x then pinf else if x ≤ -2 ^ (emax + 1) then ninf else fin x

/-- `float`. -/
def single : ℚ → Num := ieee 24 127

/-- `double`. -/
def double : ℚ → Num := ieee 53 1023

/-- The numbers of the format with `p` significant bits and largest exponent `emax`, with a sign and a significand of `p` bits, and without bound on
the exponent from above. -/
def FormatNumber (p emax : ℕ) (x : ℚ) : Prop := ∃ z e : ℤ, |z| < 2 ^ p ∧ 2 - (emax : ℤ) - p ≤ e ∧ x = z * 2 ^ e

end Verif.Spec
