import Verif.Num

/-! Specification of what a comparison of two arrays should tell. -/

namespace Verif.Spec
open Verif Num

/-- Two numbers agree up to `atol`: both finite and at most `atol` apart, or identical. -/
def AgreeTo (atol : ℚ) (a b : Num) : Prop := (∃ p q, a = fin p ∧ b = fin q ∧ |p - q| ≤ atol) ∨ a = b

/-- Both numbers are plus infinity, or both are finite. -/
def SameShape (a b : Num) : Prop := (a = pinf ∧ b = pinf) ∨ ∃ p q, a = fin p ∧ b = fin q

end Verif.Spec
