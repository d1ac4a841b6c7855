import Mathlib.Order.Bounds.Basic
import Mathlib.Algebra.BigOperators.Group.Finset.Basic
import Mathlib.Data.Rat.Defs
import Verif.Num

/-!
# Specification of min-sum messages

This file does not mention any definition of the model.  It says what a message of the min-sum (max-product)
algorithm for a hard constraint is, by exhaustive minimisation over all assignments.
-/

namespace Verif.Spec

open Verif

/-- `v` is the minimum of the set `A`; the minimum of the empty set is `+inf`. -/
def IsMin (A : Set ℚ) (v : Num) : Prop :=
  (A = ∅ ∧ v = Num.pinf) ∨ ∃ q, v = Num.fin q ∧ IsLeast A q

/-- Cost of switching on exactly the variables in `S`. -/
def cost {ι : Type} (x : ι → ℚ) (S : Finset ι) : ℚ := S.sum x

/-- The costs of the assignments of the variables `vars` (an assignment is the set of variables that are 1) that
satisfy the constraint `valid` and the extra condition `c`. -/
def costs {ι : Type} (vars : Finset ι) (valid : Finset ι → Prop) (x : ι → ℚ) (c : Finset ι → Prop) : Set ℚ :=
  {q | ∃ S, S ⊆ vars ∧ valid S ∧ c S ∧ cost x S = q}

/-- `mu` is the min-sum message of the hard constraint `valid` on the variables `vars` to its variable `i`, when the
incoming messages (log-ratios, cost of value 1 minus cost of value 0) are `x`:
cheapest valid assignment with `i = 1`, minus cheapest valid assignment with `i = 0`, minus the incoming message. -/
def IsMessage {ι : Type} (vars : Finset ι) (valid : Finset ι → Prop) (x : ι → ℚ) (i : ι) (mu : Num) : Prop :=
  ∃ a b, IsMin (costs vars valid x (fun S => i ∈ S)) a ∧ IsMin (costs vars valid x (fun S => i ∉ S)) b ∧
    mu = a - b - Num.fin (x i)

/-- "at most one variable is 1" -/
def AtMostOne {ι : Type} (S : Finset ι) : Prop := ∀ i ∈ S, ∀ j ∈ S, i = j
/-- "exactly one variable is 1" -/
def ExactlyOne {ι : Type} (S : Finset ι) : Prop := ∃ i, S = {i}
/-- "at least one variable is 1" -/
def AtLeastOne {ι : Type} (S : Finset ι) : Prop := S.Nonempty

end Verif.Spec
