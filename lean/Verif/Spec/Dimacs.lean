import Mathlib.Data.Nat.Notation
import Mathlib.Data.Int.Notation

/-! A reader of the DIMACS CNF format. -/

namespace Verif.Spec

/-- Reading integers: sign seen, value of the digits seen so far, integers read. -/
structure IntReader where
  neg : Bool
  cur : Option ℕ
  out : List ℤ

/-- The end of a number (if there is one). -/
def IntReader.flush (r : IntReader) : IntReader :=
  match r.cur with
  | none => ⟨false, none, r.out⟩
  | some v => ⟨false, none, r.out ++ [if r.neg then -(v : ℤ) else (v : ℤ)]⟩

/-- One more character: a digit, a minus sign, or a separator. -/
def IntReader.step (r : IntReader) (c : Char) : IntReader :=
  if c.isDigit then ⟨r.neg, some (r.cur.getD 0 * 10 + (c.toNat - 48)), r.out⟩
  else if c = '-' then { r.flush with neg := true }
  else r.flush

/-- The integers in a text. -/
def readInts (text : List Char) : List ℤ := (text.foldl IntReader.step ⟨false, none, []⟩).flush.out

/-- Split a list of integers at the zeros that end the clauses; a last clause without zero is dropped. -/
def splitZeros : List ℤ → List ℤ → List (List ℤ)
  | _, [] => []
  | cl, x :: l => if x = 0 then cl :: splitZeros [] l else splitZeros (cl ++ [x]) l

/-- Number of variables, number of clauses, clauses. -/
def readCnf (text : List Char) : Option (ℤ × ℤ × List (List ℤ)) :=
  if "p cnf ".toList.isPrefixOf text then
    match readInts ((text.drop 6).takeWhile (· ≠ '\n')) with
    | [n, m] => some (n, m, splitZeros [] (readInts ((text.drop 6).dropWhile (· ≠ '\n'))))
    | _ => none
  else none

/-- One line with its line feed, whose first character is in `first`. -/
def LineFrom (first : List Char) (l : List Char) : Prop := (∃ c ∈ first, l.head? = some c) ∧ ∃ b, l = b ++ ['\n'] ∧ ∀ c ∈ b, c ≠ '\n'

end Verif.Spec
