import Mathlib.Algebra.BigOperators.Group.List.Basic
import Mathlib.Data.Nat.Digits.Defs

/-!
The `.npy` format as numpy documents and writes it (version 1): ten bytes of preamble, then one line of text that is a Python dictionary padded with spaces.
Independent of the model of cnpy.
-/

namespace Verif.Spec

/-- Python's text of a tuple of numbers, without the parentheses: a comma and a space between two, a comma after a single one. -/
def tupleText (shape : List ℕ) : List Char :=
  List.intercalate ", ".toList (shape.map (Nat.toDigits 10)) ++ (if shape.length = 1 then ",".toList else "".toList)

/-- The line of a header: byte order, letter of the type, bytes per element, order of the elements, lengths of the dimensions, number of spaces. -/
def headerLine (order ty : Char) (ws : ℕ) (fortran : Bool) (shape : List ℕ) (pad : ℕ) : List Char :=
  "{'descr': '".toList ++ [order, ty] ++ Nat.toDigits 10 ws ++ "', 'fortran_order': ".toList ++ (if fortran then "True" else "False").toList ++
    ", 'shape': (".toList ++ tupleText shape ++ "), }".toList ++ List.replicate pad ' ' ++ "\n".toList

/-- A letter of a type that does not look like a part of the header. -/
def TypeLetter (ty : Char) : Prop := ty ≠ '(' ∧ ty ≠ ')' ∧ ty ≠ '\n' ∧ ty ≠ Char.ofNat 0

instance (ty : Char) : Decidable (TypeLetter ty) := inferInstanceAs (Decidable (_ ∧ _))

end Verif.Spec
