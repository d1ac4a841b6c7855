import Mathlib.Data.Rat.Defs
import Mathlib.Algebra.Order.Ring.Rat
import Mathlib.Algebra.Order.Field.Basic
import Mathlib.Tactic.Linarith
import Mathlib.Tactic.Ring

/-!
# Numbers

`Num` models the C++ type `impalib_type` (= `double`, /repo/include/impalib/common.hpp:32-41).

Simplifications: exact rationals instead of rounded binary64 values, no overflow to infinity, one zero
instead of `+0.0`/`-0.0` (the code never inspects the sign of a zero).  Infinities and NaN follow IEEE 754.
-/

namespace Verif

/-- A `double` without rounding: NaN, `-inf`, a finite value, `+inf`. -/
inductive Num where
  | nan
  | ninf
  | fin (q : ℚ)
  | pinf
deriving DecidableEq, Inhabited

namespace Num

instance : Zero Num := ⟨fin 0⟩

/-- IEEE addition (no rounding). -/
def add : Num → Num → Num
  | nan, _ => nan
  | _, nan => nan
  | fin a, fin b => fin (a + b)
  | pinf, ninf => nan
  | ninf, pinf => nan
  | pinf, _ => pinf
  | _, pinf => pinf
  | ninf, _ => ninf
  | _, ninf => ninf

/-- IEEE negation. -/
def neg : Num → Num
  | nan => nan
  | ninf => pinf
  | fin a => fin (-a)
  | pinf => ninf

instance : Add Num := ⟨add⟩
instance : Neg Num := ⟨neg⟩
instance : Sub Num := ⟨fun a b => add a (neg b)⟩

/-- An infinity times a number of sign `s`. -/
def infMul (s : Num) (q : ℚ) : Num :=
  if q = 0 then nan else if 0 < q then s else neg s

/-- IEEE multiplication (no rounding). -/
def mul : Num → Num → Num
  | nan, _ => nan
  | _, nan => nan
  | fin a, fin b => fin (a * b)
  | pinf, pinf => pinf
  | pinf, ninf => ninf
  | ninf, pinf => ninf
  | ninf, ninf => pinf
  | pinf, fin q => infMul pinf q
  | ninf, fin q => infMul ninf q
  | fin q, pinf => infMul pinf q
  | fin q, ninf => infMul ninf q

instance : Mul Num := ⟨mul⟩

/-- `a < b` as a C++ condition: false as soon as a NaN is involved. -/
def lt : Num → Num → Bool
  | nan, _ => false
  | _, nan => false
  | fin a, fin b => decide (a < b)
  | ninf, ninf => false
  | ninf, _ => true
  | _, ninf => false
  | pinf, _ => false
  | fin _, pinf => true

/-- `a > b` as a C++ condition. -/
def gt (a b : Num) : Bool := lt b a

/-- `std::min(a, b)`: `(b < a) ? b : a`. -/
def cmin (a b : Num) : Num := if lt b a then b else a

/-- `std::max(a, b)`: `(a < b) ? b : a`. -/
def cmax (a b : Num) : Num := if lt a b then b else a

/-- `std::abs`. -/
def abs : Num → Num
  | nan => nan
  | ninf => pinf
  | fin a => fin |a|
  | pinf => pinf

theorem zero_def : (0 : Num) = fin 0 := rfl
@[simp] theorem fin_add (a b : ℚ) : fin a + fin b = fin (a + b) := rfl
@[simp] theorem neg_fin (a : ℚ) : -fin a = fin (-a) := rfl
@[simp] theorem fin_sub (a b : ℚ) : fin a - fin b = fin (a - b) := by
  change fin (a + -b) = _; rw [sub_eq_add_neg]
@[simp] theorem fin_mul (a b : ℚ) : fin a * fin b = fin (a * b) := rfl
@[simp] theorem lt_fin (a b : ℚ) : lt (fin a) (fin b) = decide (a < b) := rfl
@[simp] theorem abs_fin (a : ℚ) : abs (fin a) = fin |a| := rfl
@[simp] theorem pinf_add_fin (a : ℚ) : pinf + fin a = pinf := rfl
@[simp] theorem fin_add_pinf (a : ℚ) : fin a + pinf = pinf := rfl
@[simp] theorem ninf_add_fin (a : ℚ) : ninf + fin a = ninf := rfl
@[simp] theorem fin_add_ninf (a : ℚ) : fin a + ninf = ninf := rfl
@[simp] theorem pinf_add_pinf : pinf + pinf = pinf := rfl
@[simp] theorem neg_pinf : -pinf = ninf := rfl
@[simp] theorem neg_ninf : -ninf = pinf := rfl

@[simp] theorem cmin_fin (a b : ℚ) : cmin (fin a) (fin b) = fin (min a b) := by
  unfold cmin
  rw [lt_fin]
  by_cases h : b < a
  · simp [h, min_eq_right h.le]
  · simp [h, min_eq_left (not_lt.mp h)]
@[simp] theorem cmax_fin (a b : ℚ) : cmax (fin a) (fin b) = fin (max a b) := by
  unfold cmax
  rw [lt_fin]
  by_cases h : a < b
  · simp [h, max_eq_right h.le]
  · simp [h, max_eq_left (not_lt.mp h)]
@[simp] theorem cmin_pinf_left (a : Num) (h : a ≠ nan) : cmin pinf a = a := by
  cases a <;> simp_all [cmin, lt]
@[simp] theorem cmin_pinf_fin (a : ℚ) : cmin pinf (fin a) = fin a := rfl
@[simp] theorem cmin_fin_pinf (a : ℚ) : cmin (fin a) pinf = fin a := rfl
@[simp] theorem cmin_pinf_pinf : cmin pinf pinf = pinf := rfl
@[simp] theorem cmin_ninf_fin (a : ℚ) : cmin ninf (fin a) = ninf := rfl

end Num
end Verif
