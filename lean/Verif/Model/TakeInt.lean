import Verif.Arr

/-!
Model of the two readers of the list of units in the unit tests of the assignment program: `take_int` (/repo/test/include/ut_utils.hpp:13-23), which the
native tests apply to the environment variable `Nu`, and `[int(item) for item in args.Nu.split(",")]` in
/repo/test/python_kc_mwm/test/impalib_unit_tests.py:82, 93, 104, 115, 127.  Texts are lists of ASCII characters; `none` is a Python exception.
Simplification: no digits or spaces outside ASCII.
-/

namespace Verif.Model
open Verif

/-- `std::isspace` in the "C" locale, used by `>>` to skip. -/
def cSpace (c : Char) : Bool := c == ' ' || (9 ≤ c.toNat && c.toNat ≤ 13)

/-- `str.isspace` for ASCII characters: also the four separators 28 to 31. -/
def pySpace (c : Char) : Bool := cSpace c || (28 ≤ c.toNat && c.toNat ≤ 31)

/-- Sign and rest of a number. -/
def cutSign : List Char → Bool × List Char
  | '+' :: s => (false, s)
  | '-' :: s => (true, s)
  | s => (false, s)

/-- The number with a sign and an absolute value. -/
def signed (neg : Bool) (n : ℕ) : ℤ := if neg then -(n : ℤ) else n

/-- ut_utils.hpp:18 `ss >> tmp`: spaces, an optional sign, digits; fails without digits and if the number is no `int`. -/
def readInt (s : List Char) : Option (ℤ × List Char) :=
  let (neg, t) := cutSign (s.dropWhile cSpace)
  let w := t.takeWhile Char.isDigit
  let v := signed neg (Nat.ofDigitChars 10 w 0)
  if w = [] then none else if -2147483648 ≤ v ∧ v ≤ 2147483647 then some (v, t.drop w.length) else none

/-- ut_utils.hpp:18-21: the loop; at the end of the text `ss >> ch` fails and so does the next `ss >> tmp`. -/
def takeIntGo : ℕ → List Char → List ℤ
  | 0, _ => []
  | k + 1, s =>
    match readInt s with
    | none => []
    | some (v, rest) =>
      match rest.dropWhile cSpace with
      | [] => [v]
      | _ :: rest => v :: takeIntGo k rest

/-- ut_utils.hpp:13-23 `take_int`.  Every round reads at least one character. -/
def takeInt (s : List Char) : List ℤ := takeIntGo s.length s

/-- Python's `split(",")`. -/
def splitComma : List Char → List (List Char)
  | [] => [[]]
  | c :: s =>
    if c = ',' then [] :: splitComma s
    else
      match splitComma s with
      | [] => [[c]]
      | w :: ws => (c :: w) :: ws

/-- Python's `int`: digits after the first one, with single underscores between digits. -/
def pyDigits (acc : ℕ) : List Char → Option ℕ
  | [] => some acc
  | '_' :: c :: s => if c.isDigit then pyDigits (10 * acc + (c.toNat - '0'.toNat)) s else none
  | c :: s => if c.isDigit then pyDigits (10 * acc + (c.toNat - '0'.toNat)) s else none

/-- Python's `int`: the part after the sign. -/
def pyNat : List Char → Option ℕ
  | [] => none
  | c :: s => if c.isDigit then pyDigits (c.toNat - '0'.toNat) s else none

/-- Python's `strip`. -/
def pyStrip (s : List Char) : List Char := ((s.dropWhile pySpace).reverse.dropWhile pySpace).reverse

/-- Python's `int` of a text. -/
def pyInt (s : List Char) : Option ℤ :=
  let (neg, t) := cutSign (pyStrip s)
  (pyNat t).map (signed neg)

/-- impalib_unit_tests.py:82 `[int(item) for item in args.Nu.split(",")]`. -/
def pyUnits (s : List Char) : Option (List ℤ) := (splitComma s).mapM pyInt

end Verif.Model
