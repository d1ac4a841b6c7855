import Verif.Model.KsatIO
import Verif.Model.KsatGen

/-!
Model of a whole k-SAT call: `GraphicalModelKsat.run_impa` (/repo/src/impa/Impa.py:2443-2515) after `initialize`
(/repo/src/impa/Impa.py:2267-2359).  Printing, times and `results_composed` (2517-2544) are not modelled.  The costs
(`incoming_metrics_cost`, drawn at random or read from a file) are a parameter.
-/

namespace Verif.Model
open Verif Num

/-- Impa.py:2287-2294, 2310-2316, 2357: the attributes that `initialize` stores, for the formula tables `t` (whose clauses and
variable lists are zipped with their signs) and the variable costs `cost`. -/
def ksatObject (n k : ℕ) (t : KsatTables) (cost : List Num) : KsatPy where
  numVars := n
  numConstraints := t.clauses.length
  k := k
  used := t.used
  conns := t.conns.map (List.map Prod.fst)
  conx := t.clauses.map (List.map Prod.fst)
  conxType := t.clauses.map (List.map Prod.snd)
  cost := cost

/-- What `run_impa` stores: `intrinsic_out_variable_ec`; hard decision, summary and `formula_satisfied`; `required_PP`;
`average_similarity` (`none` is the empty list). -/
structure KsatResult where
  beliefs : List Num
  post : PostState
  requiredPP : Bool
  similarity : Option ℚ

/-- Impa.py:2506-2515: comparison with the planted assignment `sol`; `used_variables` indexes it. -/
def averageSimilarity (t : KsatTables) (sol : List Bool) (s : KsatSummary) : Option (Option ℚ) :=
  if sol.length ≠ 0 ∧ s.unsat.length = 0 then do
    let act ← usedWith t sol true
    let inact ← usedWith t sol false
    some (some (100 * (similarity s.active.toFinset act.toFinset + similarity s.inactive.toFinset inact.toFinset) / 2))
  else some none

/-- Impa.py:2443-2515 `run_impa`.  `order` and `order'` are the iteration orders of the two sets used in post-processing. -/
def ksatCall (n k numIter : ℕ) (flag : Bool) (alpha : ℚ) (threshold : Num) (order order' : List ℕ → List ℕ) (post : Bool)
    (ppElements : ℕ) (sol : List Bool) (t : KsatTables) (cost : List Num) : Option KsatResult := do
  let beliefs ← ksatBeliefs numIter flag alpha (ksatObject n k t cost)
  let first ← getSummary t (hardDecisions threshold beliefs)
  let st ← decideAndPost t threshold order order' post ppElements beliefs
  let sim ← averageSimilarity t sol st.sum
  some ⟨beliefs, st, first.unsat.length != 0 && post, sim⟩

end Verif.Model
