import Verif.Arr
import Mathlib.Data.List.Dedup

/-!
Model of /repo/test/python_ksat/src/run_minisat.py: the reader of CNF files and the evaluation of the assignment found by the reference solver.  A file
is the list of its characters.  Simplifications: white space is blank, tab and line feed; numbers are digits with at most one minus sign in front, every
other number, a negative number in the header and a literal 0 inside a clause line count as errors; only the order in which `set` lists its elements is
left out (first occurrences are kept).  The solver (`Minisat22` of pysat) is a parameter: the function from the added clauses to the result of
`get_model`, which is `None` (`none`) without a model.  Saving the results and the running time are not modelled.
-/

namespace Verif.Model
open Verif

/-- run_minisat.py:19 `readlines`: the lines with their line feeds; `cur` is the part of the current line already seen. -/
def fileLines : List Char → List Char → List (List Char)
  | cur, [] => if cur = [] then [] else [cur]
  | cur, c :: l => if c = '\n' then (cur ++ [c]) :: fileLines [] l else fileLines (cur ++ [c]) l

/-- `line.strip().split()`; `cur` is the part of the current word already seen. -/
def splitWords : List Char → List Char → List (List Char)
  | cur, [] => if cur = [] then [] else [cur]
  | cur, c :: l =>
    if c = ' ' ∨ c = '\t' ∨ c = '\n' then (if cur = [] then splitWords [] l else cur :: splitWords [] l) else splitWords (cur ++ [c]) l

/-- `int(word)` for a word without sign; `ValueError` otherwise. -/
def wordNat (w : List Char) : Option ℕ := if w ≠ [] ∧ w.all Char.isDigit then some (Nat.ofDigitChars 10 w 0) else none

/-- run_minisat.py:37 `int(x)`. -/
def wordInt (w : List Char) : Option ℤ :=
  match w with
  | '-' :: r => (wordNat r).map (fun v => -(v : ℤ))
  | w => (wordNat w).map (fun v => (v : ℤ))

/-- run_minisat.py:43-45, 51-53: variable and type of a literal. -/
def wordLiteral (w : List Char) : Option (ℕ × ℤ) :=
  match w with
  | '-' :: r => (wordNat r).bind (fun v => if v = 0 then none else some (v - 1, -1))
  | w => (wordNat w).bind (fun v => if v = 0 then none else some (v - 1, 1))

/-- run_minisat.py:21-27: `index_start`, the number of variables and the number of clauses, from the first line with the header.  Without such a line the
names are unbound; with another number of words the unpacking fails. -/
def cnfHeader (lines : List (List Char)) : Option (ℕ × ℕ × ℕ) := do
  let i := lines.findIdx (fun l => "p cnf".toList.isPrefixOf l)
  let line ← lines[i]?
  match splitWords [] line with
  | [_, _, a, b] => do
    let n ← wordNat a
    let m ← wordNat b
    some (i + 1, n, m)
  | _ => none

/-- run_minisat.py:33: the lines that are skipped. -/
def skippedLine (line : List Char) : Bool :=
  match line with
  | c :: _ => c == 'c' || c == 'p' || c == '%' || c == '\n' || c == '0'
  | [] => false

/-- The variables of `read_cnf_file`: `constraints_connections` with types, the clauses given to the solver, `used_variables`, `variables_connections`
with types, `k_variable` (`none` while unbound). -/
structure CnfState where
  clauses : List (List (ℕ × ℤ))
  added : List (List ℤ)
  used : List ℕ
  conns : List (List (ℤ × ℤ))
  k : Option ℕ
  deriving DecidableEq

/-- run_minisat.py:42-58: one literal of clause `ci`; the first component collects `connections` with types.  A variable without a list is an
`IndexError`. -/
def readWord (ci : ℤ) (w : List Char) (s : List (ℕ × ℤ) × CnfState) : Option (List (ℕ × ℤ) × CnfState) := do
  let l ← wordLiteral w
  let row ← s.2.conns[l.1]?
  some (s.1 ++ [l], { s.2 with used := s.2.used ++ [l.1], conns := s.2.conns.set l.1 (row ++ [(ci, l.2)]) })

/-- run_minisat.py:61-64: the number of literals is noted for clause 0 and compared for the others; `none` is the `ValueError`, or the use of the
unbound name. -/
def checkLength (ci : ℤ) (len : ℕ) (k : Option ℕ) : Option (Option ℕ) :=
  if ci = 0 then some (some len) else if k = some len then some k else none

/-- run_minisat.py:32-64: one line, with its number. -/
def readLine (start : ℕ) (p : List Char × ℕ) (s : CnfState) : Option CnfState :=
  if skippedLine p.1 then some s
  else do
    let ws := (splitWords [] p.1).dropLast
    let ints ← ws.mapM wordInt
    let ci := (p.2 : ℤ) - start
    let (cl, s) ← loopList ws (readWord ci) ([], { s with added := s.added ++ [ints] })
    let k ← checkLength ci cl.length s.k
    some { s with clauses := s.clauses ++ [cl], k := k }

/-- What `read_cnf_file` returns. -/
structure CnfFile where
  n : ℕ
  m : ℕ
  k : ℕ
  state : CnfState
  deriving DecidableEq

/-- run_minisat.py:13-68 `read_cnf_file`. -/
def readCnfFile (text : List Char) : Option CnfFile := do
  let lines := fileLines [] text
  let (start, n, m) ← cnfHeader lines
  let s ← loopList lines.zipIdx (readLine start) ⟨[], [], [], List.replicate n [], none⟩
  let k ← s.k
  some ⟨n, m, k, { s with used := s.used.dedup }⟩

/-- run_minisat.py:126-130: the clauses that some variable in `vars` lists with type `ty`. -/
def connsWith (conns : List (List (ℤ × ℤ))) (ty : ℤ) (vars : List ℕ) : List ℤ :=
  (conns.zipIdx.flatMap (fun r => (r.1.filter (fun p => p.2 == ty && vars.contains r.2)).map Prod.fst)).dedup

/-- What is stored about one file. -/
structure MinisatResult where
  active : List ℕ
  inactive : List ℕ
  satisfied : List ℤ
  unsatisfied : List ℕ
  flag : Bool
  deriving DecidableEq

/-- run_minisat.py:121-141: evaluate the assignment `variables` (here `lits`). -/
def evalModel (f : CnfFile) (lits : List ℤ) : MinisatResult :=
  let hard := lits.map (fun x => decide (0 < x))
  let active := (hard.zipIdx.filter (fun p => p.1)).map Prod.snd
  let inactive := (hard.zipIdx.filter (fun p => !p.1)).map Prod.snd
  let sat := (connsWith f.state.conns 1 active ++ connsWith f.state.conns (-1) inactive).dedup
  let unsat := (List.range f.m).filter (fun c : ℕ => !sat.contains (c : ℤ))
  ⟨active, inactive, sat, unsat, unsat.isEmpty⟩

/-- run_minisat.py:107-141: one file; without a model `variables` is `None` and line 121 raises a `TypeError`. -/
def runMinisat (solve : List (List ℤ) → Option (List ℤ)) (text : List Char) : Option (CnfFile × MinisatResult) := do
  let f ← readCnfFile text
  let lits ← solve f.state.added
  some (f, evalModel f lits)

end Verif.Model
