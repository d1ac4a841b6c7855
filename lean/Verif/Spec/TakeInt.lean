import Verif.Arr

namespace Verif.Spec
open Verif

/-- Characters that Python and the native reader of lists treat alike: no underscore and none of the four ASCII separators. -/
def Plain (c : Char) : Prop := c ≠ '_' ∧ ¬ (28 ≤ c.toNat ∧ c.toNat ≤ 31)

/-- Values of a 32-bit `int`. -/
def FitsInt (v : ℤ) : Prop := -2 ^ 31 ≤ v ∧ v < 2 ^ 31

/-- A number in decimal notation. -/
def intText (v : ℤ) : List Char := if v < 0 then '-' :: Nat.toDigits 10 v.natAbs else Nat.toDigits 10 v.natAbs

/-- Numbers separated by commas. -/
def commaText : List ℤ → List Char
  | [] => []
  | [v] => intText v
  | v :: l => intText v ++ ',' :: commaText l

/-- Space, tab, new line, vertical tab, form feed and carriage return. -/
def Blank (c : Char) : Prop := c ∈ [' ', '\t', '\n', '\x0b', '\x0c', '\r']

/-- Numbers separated by commas, each of them between two other texts. -/
def paddedText : List (List Char × ℤ × List Char) → List Char
  | [] => []
  | [p] => p.1 ++ intText p.2.1 ++ p.2.2
  | p :: l => p.1 ++ intText p.2.1 ++ p.2.2 ++ ',' :: paddedText l

end Verif.Spec
