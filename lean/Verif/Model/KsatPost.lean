import Verif.Arr
import Mathlib.Data.List.Dedup
import Mathlib.Data.Finset.Basic
import Mathlib.Data.Finset.Card
import Mathlib.Algebra.Field.Rat

/-!
Model of the decision, the report and the post-processing of `GraphicalModelKsat` (/repo/src/impa/Impa.py:2552-2769).
`hard_decision` is kept as the list of truth values of its entries (only truthiness is used; a NaN belief stays NaN, which is
true).  A clause is the list of its (variable, sign) pairs and `conns` the list of (clause, sign) pairs of each variable, that is,
each pair of tables `constraints_connections`/`constraints_connections_type` and `variables_connections`/
`variables_connections_type` is zipped (they have the same shape).  Python sets are modelled up to their iteration
order, which is a parameter.  Printing is not modelled.
-/

namespace Verif.Model
open Verif Num

/-- The formula tables used after the run. -/
structure KsatTables where
  used : List ℕ
  clauses : List (List (ℕ × ℤ))
  conns : List (List (ℕ × ℤ))

/-- Impa.py:2629-2631: `≤ threshold` gives 1, `> threshold` gives 0, NaN is kept (and is truthy). -/
def hardDecisions (threshold : Num) (beliefs : List Num) : List Bool :=
  beliefs.map (fun b => if Num.lt threshold b then false else true)

/-- What `get_summary` stores. -/
structure KsatSummary where
  active : List ℕ
  inactive : List ℕ
  unsat : List ℕ

/-- Impa.py:2601-2602: the used variables with decision `d`; an index out of range is an `IndexError`. -/
def usedWith (t : KsatTables) (hard : List Bool) (d : Bool) : Option (List ℕ) := do
  let ds ← t.used.mapM (fun v => hard[v]?)
  some (((t.used.zip ds).filter (fun p => p.2 == d)).map Prod.fst)

/-- Impa.py:2604-2608: clauses that contain one of the variables `vars` with sign `s`. -/
def clausesWith (t : KsatTables) (s : ℤ) (vars : List ℕ) : List ℕ :=
  ((List.range t.conns.length).flatMap (fun i =>
    ((t.conns.getD i []).filter (fun p => p.2 == s && vars.contains i)).map Prod.fst)).dedup

/-- Impa.py:2599-2614 `get_summary`. -/
def getSummary (t : KsatTables) (hard : List Bool) : Option KsatSummary := do
  let active ← usedWith t hard true
  let inactive ← usedWith t hard false
  let sat := (clausesWith t 1 active ++ clausesWith t (-1) inactive).dedup
  some ⟨active, inactive, (List.range t.clauses.length).filter (fun c => !sat.contains c)⟩

/-- `clause.index(x)` followed by a look-up of its sign: the sign of the first occurrence. -/
def signOf (clause : List (ℕ × ℤ)) (x : ℕ) : Option ℤ := (clause.find? (fun p => p.1 == x)).map Prod.snd

/-- The attributes changed by post-processing: `hard_decision`, the last summary, `formula_satisfied`. -/
structure PostState where
  hard : List Bool
  sum : KsatSummary
  flag : Bool

/-- Impa.py:2675-2690 and 2725-2738: try to set variables to given values, in order, each from the current decisions; keep a
trial iff it has fewer violated clauses than the last kept one (`old` at the beginning); stop at zero.  An assignment out
of range is an `IndexError`. -/
def tryAll (t : KsatTables) : List (ℕ × Bool) → ℕ → PostState → Option PostState
  | [], _, st => some st
  | (v, b) :: l, old, st => do
    let trial ← (if v < st.hard.length then some (st.hard.set v b) else none)
    let s ← getSummary t trial
    if s.unsat.length < old then
      if s.unsat.length = 0 then some ⟨trial, s, true⟩
      else tryAll t l s.unsat.length ⟨trial, s, false⟩
    else tryAll t l old { st with sum := s }

/-- Impa.py:2662-2671: literals shared by two violated clauses, in order of discovery. -/
def commonLiterals (t : KsatTables) (s : KsatSummary) : List (ℕ × ℤ) :=
  s.unsat.foldl (fun acc c => (s.unsat.filter (· ≠ c)).foldl (fun acc r =>
    let common := (t.clauses.getD c []).flatMap (fun p => ((t.clauses.getD r []).filter (fun q =>
      p.1 == q.1 && p.2 == q.2 && ((s.active.contains p.1 && p.2 == -1) || (s.inactive.contains p.1 && p.2 == 1)))).map (fun _ => p))
    acc ++ common.filter (fun p => !acc.contains p)) acc) []

/-- Impa.py:2662-2691, first phase. -/
def postPhase1 (t : KsatTables) (st : PostState) : Option PostState := do
  let st ← tryAll t ((commonLiterals t st.sum).map (fun p => (p.1, p.2 != -1))) st.sum.unsat.length st
  let s ← getSummary t st.hard
  some { st with sum := s }

/-- Impa.py:2698-2711: the clauses that share some but not all variables of the violated clause `c` and have no literal outside
of it that is true according to the last summary. -/
def neighbours (t : KsatTables) (s : KsatSummary) (c : ℕ) : List ℕ :=
  let vars := (t.clauses.getD c []).map Prod.fst
  (List.range t.clauses.length).filter (fun i =>
    let cl := t.clauses.getD i []
    vars.any (fun x => (cl.map Prod.fst).contains x) && !vars.all (fun x => (cl.map Prod.fst).contains x) &&
      !cl.any (fun p => !vars.contains p.1 && ((p.2 == 1 && s.active.contains p.1) || (p.2 == -1 && s.inactive.contains p.1))))

/-- Impa.py:2709-2723: the set of variables to try (before ordering). -/
def poolOf (t : KsatTables) (c : ℕ) (nb : List ℕ) : List ℕ :=
  let clause := t.clauses.getD c []
  let overlap := fun i => ((t.clauses.getD i []).map Prod.fst).filter (fun x => (clause.map Prod.fst).contains x)
  let common := nb.flatMap (fun i => (overlap i).filter (fun x => signOf (t.clauses.getD i []) x == signOf clause x))
  let forbidden := nb.flatMap (fun i => if (overlap i).length = 1 then overlap i else [])
  (common.filter (fun x => !forbidden.contains x)).dedup

/-- Impa.py:2696-2738, one violated clause of the second phase.  `order` is the iteration order of the set of variables.
Second component: `combinations_list`, flattened. -/
def postClause (t : KsatTables) (order : List ℕ → List ℕ) (c : ℕ) (s : PostState × List ℕ) : Option (PostState × List ℕ) := do
  let nb := neighbours t s.1.sum c
  let pool := order (poolOf t c nb)
  let st ← tryAll t (pool.map (fun x => (x, signOf (t.clauses.getD c []) x == some 1))) s.1.sum.unsat.length s.1
  some (st, s.2 ++ (c :: nb).flatMap (fun i => (t.clauses.getD i []).map Prod.fst))

/-- Impa.py:2692-2741, second phase: the clauses violated at its start, one after the other. -/
def postPhase2 (t : KsatTables) (order : List ℕ → List ℕ) (st : PostState) : Option (PostState × List ℕ) := do
  let (st, combos) ← loopList st.sum.unsat (postClause t order) (st, [])
  let s ← getSummary t st.hard
  some ({ st with sum := s }, combos)

/-- `itertools.combinations(l, m)`. -/
def combinations : ℕ → List ℕ → List (List ℕ)
  | 0, _ => [[]]
  | _ + 1, [] => []
  | m + 1, x :: l => (combinations m l).map (x :: ·) ++ combinations (m + 1) l

/-- `itertools.product(range(2), repeat=m)`. -/
def decisions : ℕ → List (List Bool)
  | 0 => [[]]
  | m + 1 => (decisions m).map (false :: ·) ++ (decisions m).map (true :: ·)

/-- Impa.py:2753-2755: set several variables. -/
def setAll (hard : List Bool) : List (ℕ × Bool) → Option (List Bool)
  | [] => some hard
  | (v, b) :: l => if v < hard.length then setAll (hard.set v b) l else none

/-- Impa.py:2752-2767: the decisions for one combination; the first improvement is kept.  State: attributes and `old`. -/
def tryDecisions (t : KsatTables) (vars : List ℕ) : List (List Bool) → PostState × ℕ → Option (PostState × ℕ)
  | [], s => some s
  | d :: ds, s => do
    let trial ← setAll s.1.hard (vars.zip d)
    let sm ← getSummary t trial
    if sm.unsat.length < s.2 then some (⟨trial, sm, sm.unsat.length == 0⟩, sm.unsat.length)
    else tryDecisions t vars ds ({ s.1 with sum := sm }, s.2)

/-- Impa.py:2750-2769: all combinations of one size, until the last trial violated nothing. -/
def tryCombinations (t : KsatTables) (m : ℕ) : List (List ℕ) → PostState × ℕ → Option (PostState × ℕ)
  | [], s => some s
  | vars :: l, s => do
    let s ← tryDecisions t vars (decisions m) s
    if s.1.sum.unsat.length = 0 then some s else tryCombinations t m l s

/-- Impa.py:2743-2769, third phase.  `order` is the iteration order of the set of variables of `combinations_list`; sizes
`ppElements, …, 2`. -/
def postPhase3 (t : KsatTables) (order : List ℕ → List ℕ) (ppElements : ℕ) (s : PostState × List ℕ) : Option PostState := do
  let (st, _) ← (if s.1.sum.unsat.length ≠ 0 then
      loopDown (ppElements - 1) (fun m x => tryCombinations t (m + 2) (combinations (m + 2) (order s.2.dedup)) x) (s.1, s.1.sum.unsat.length)
    else some (s.1, 0))
  let sm ← getSummary t st.hard
  some { st with sum := sm }

/-- Impa.py:2646-2769 `run_post_processing`. -/
def postProcess (t : KsatTables) (order order' : List ℕ → List ℕ) (ppElements : ℕ) (st : PostState) : Option PostState := do
  let st ← postPhase1 t st
  let s ← postPhase2 t order st
  postPhase3 t order' ppElements s

/-- Impa.py:2625-2637, 2486-2499: hard decision, report, and post-processing if something is violated and it is switched on. -/
def decideAndPost (t : KsatTables) (threshold : Num) (order order' : List ℕ → List ℕ) (post : Bool) (ppElements : ℕ)
    (beliefs : List Num) : Option PostState := do
  let hard := hardDecisions threshold beliefs
  let s ← getSummary t hard
  let st : PostState := ⟨hard, s, s.unsat.length == 0⟩
  if s.unsat.length ≠ 0 ∧ post then postProcess t order order' ppElements st else some st

/-- Impa.py:2552-2559 `calculate_similarity` of two sets of variables. -/
def similarity (a b : Finset ℕ) : ℚ :=
  if (a ∪ b).card = 0 then 1 else ((a ∩ b).card : ℚ) / ((a ∪ b).card : ℚ)

end Verif.Model
