import Verif.Spec.Clause
import Verif.Num

/-! Specification of assumptions in a k-SAT formula: variables fixed by infinite costs, and what unit propagation
derives from them. -/

namespace Verif.Spec
open Verif

/-- A value that can belong to a variable with truth value `b`: not NaN, plus infinity only for false variables, minus
infinity only for true variables. -/
def Agrees (b : Bool) (x : Num) : Prop :=
  x ≠ Num.nan ∧ (x = Num.pinf → b = false) ∧ (x = Num.ninf → b = true)

/-- `Implied C k n conx ty cost j v b`: at most `j` rounds of unit propagation show that variable `v` has the value `b`.
Cost minus infinity assumes a variable true, cost plus infinity assumes it false; when all literals of a clause but
one are known to be false, the remaining one must be true. -/
inductive Implied (C k n : ℕ) (conx : Mat ℕ) (ty : Mat ℤ) (cost : ℕ → Num) : ℕ → ℕ → Bool → Prop
  | assumedTrue {v : ℕ} (hv : v < n) (h : cost v = Num.ninf) : Implied C k n conx ty cost 0 v true
  | assumedFalse {v : ℕ} (hv : v < n) (h : cost v = Num.pinf) : Implied C k n conx ty cost 0 v false
  | later {j v : ℕ} {b : Bool} (h : Implied C k n conx ty cost j v b) : Implied C k n conx ty cost (j + 1) v b
  | unit {j c s : ℕ} (hc : c < C) (hs : s < k)
      (h : ∀ s' < k, s' ≠ s → Implied C k n conx ty cost j (conx.data c s') (decide (ty.data c s' = -1))) :
      Implied C k n conx ty cost (j + 1) (conx.data c s) (decide (ty.data c s = 1))

end Verif.Spec
