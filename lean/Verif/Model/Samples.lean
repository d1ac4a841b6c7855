import Verif.Model.KsatMetrics
import Verif.Model.TspPost

/-!
Model of the scripts that write test inputs, /repo/test/python_ksat/src/generate_inputs.py and /repo/test/python_tsp/src/generate_inputs.py: one sample.
Every draw is a parameter, as in `generate` and `generateMetrics`.  The function `create_incoming_metrics_cost` of the first script has the statements of
`create_model_structure` and of the first branch of `generate_incoming_metrics` (both in Impa.py), so their models are used.  The file is the stored list;
folders and pickling are not modelled.
-/

namespace Verif.Model
open Verif Num

/-- test/python_ksat/src/generate_inputs.py:110-122: what is stored.  The lists of clauses and of variables are in `tables`. -/
structure KsatSample where
  n : ℕ
  numConstraints : ℕ
  k : ℕ
  tables : KsatTables
  cost : List Num
  type : ℤ
  sol : List Bool

/-- test/python_ksat/src/generate_inputs.py:125-128: two clauses with the same variables. -/
def similarClauses (F : List (List (ℕ × ℤ))) : Bool :=
  (List.range F.length).any (fun i => (List.range F.length).any (fun j => decide (i < j) && sameVars (F.getD i []) (F.getD j [])))

/-- test/python_ksat/src/generate_inputs.py:11-80, 104-139: one sample.  The outer option is `none` for an exception, the inner one if "ERROR" is printed
and the script ends. -/
def ksatSample (n m k : ℕ) (type : ℤ) (var : ℚ) (sol : List Bool) (sgn : ℕ → Bool) (noise : ℕ → ℚ) (order : List ℕ → List ℕ) (first : ℕ → ℕ)
    (pick : ℕ → ℕ → ℕ) (sign : ℕ → ℕ → Bool) : Option (Option KsatSample) := do
  let cost ← generateMetrics n type var sol sgn noise
  let t ← generate n m k order sol first pick sign
  if similarClauses t.clauses then some none
  else some (some ⟨n, t.clauses.length, k, t, cost.toList, type, sol⟩)

/-- Impa.py:2271-2276, 2308-2324 and `run_impa`: a test with the stored costs. -/
def runKsatSample (f : KsatSample) (numIter : ℕ) (flag : Bool) (alpha : ℚ) (threshold : Num) (order order' : List ℕ → List ℕ) (post : Bool) (pp : ℕ) :
    Option KsatResult :=
  ksatFileTest f.n f.k false f.type 0 (fun _ => true) (fun _ => 0) numIter flag alpha threshold order order' post pp f.sol f.tables f.cost

/-- test/python_tsp/src/generate_inputs.py:58-63: what is stored. -/
structure TspSample where
  n : ℕ
  symmetric : Bool
  matrix : Mat Num
  edges : List (ℕ × ℕ)

/-- test/python_tsp/src/generate_inputs.py:28-63: one sample with the drawn numbers `r`. -/
def tspSample (n : ℕ) (r : ℕ → ℕ → Num) : TspSample := ⟨n, false, costMatrix false n r, nonzeroEdges (costMatrix false n r)⟩

end Verif.Model
