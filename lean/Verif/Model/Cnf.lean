import Mathlib.Data.Nat.Notation
import Mathlib.Data.Int.Notation

/-!
Model of the CNF export (/repo/test/python_ksat/src/process2cnf.py:3-17).  The file is the list of its characters; `str(x)` of a natural
number is its decimal representation.  The two clause tables are zipped.
-/

namespace Verif.Model

/-- process2cnf.py:13-16: one literal, with the variable number increased by one. -/
def cnfLiteral (l : ℕ × ℤ) : List Char := (if l.2 = -1 then ['-'] else []) ++ (Nat.toDigits 10 (l.1 + 1) ++ [' '])

/-- process2cnf.py:10-17: one clause. -/
def cnfClause (cl : List (ℕ × ℤ)) : List Char := cl.flatMap cnfLiteral ++ ['0', '\n']

/-- process2cnf.py:3-17 `create_cnf_file`. -/
def cnfText (n m : ℕ) (F : List (List (ℕ × ℤ))) : List Char :=
  "p cnf ".toList ++ (Nat.toDigits 10 n ++ ([' '] ++ (Nat.toDigits 10 m ++ (['\n'] ++ F.flatMap cnfClause))))

end Verif.Model
