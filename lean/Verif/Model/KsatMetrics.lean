import Verif.Model.KsatCall

/-!
Model of the random costs of the k-SAT solver, `GraphicalModelKsat.generate_incoming_metrics` (/repo/src/impa/Impa.py:2361-2387), and of the two
ways in which `initialize` (/repo/src/impa/Impa.py:2267-2359) prepares a run: a random test, and a test file whose costs may be replaced.
Random draws are parameters: `sgn i` is the sign drawn by `np.random.choice([-1, 1])` for variable `i` (true for 1), and `noise i` is the
difference between the number drawn by `np.random.normal` and its mean.  How `noise` is distributed is not modelled, nor what numpy does with a
negative variance.
-/

namespace Verif.Model
open Verif Num

/-- Impa.py:2367-2376, 2382-2386: the mean of the cost drawn for a variable with planted value `value`; `none` if no branch applies and the cost
stays zero. -/
def metricMean (type : ℤ) (var : ℚ) (value sgn : Bool) : Option ℚ :=
  if type = 1 then some (if value then -var / 2 else var / 2)
  else if type = 0 then some ((if sgn then 1 else -1) * var / 2)
  else if type = 2 then some 0
  else none

/-- Impa.py:2369, 2373, 2375, 2384, 2386: draw the cost of variable `i`; `IndexError` if there is no such variable. -/
def drawMetric (type : ℤ) (var : ℚ) (sgn : ℕ → Bool) (noise : ℕ → ℚ) (value : Bool) (i : ℕ) (a : Arr Num) : Option (Arr Num) :=
  match metricMean type var value (sgn i) with
  | some m => a.wr i (fin (m + noise i))
  | none => some a

/-- Impa.py:2361-2387 `generate_incoming_metrics`; `none` is the `ValueError` of line 2379 or an `IndexError`. -/
def generateMetrics (n : ℕ) (type : ℤ) (var : ℚ) (sol : List Bool) (sgn : ℕ → Bool) (noise : ℕ → ℚ) : Option (Arr Num) :=
  if sol.length ≠ 0 then
    loopUp sol.length (fun i a => do
      let value ← sol[i]?
      drawMetric type var sgn noise value i a) (Arr.fill n 0)
  else if type = 1 then none
  else loopUp n (fun i a => drawMetric type var sgn noise false i a) (Arr.fill n 0)

/-- Impa.py:2299-2306, 2389-2441 and `run_impa`: a random test.  `sol` is the planted assignment; the other draws are as in `generate`. -/
def ksatRandomTest (n m k : ℕ) (type : ℤ) (var : ℚ) (sol : List Bool) (sgn : ℕ → Bool) (noise : ℕ → ℚ) (order0 : List ℕ → List ℕ) (first : ℕ → ℕ)
    (pick : ℕ → ℕ → ℕ) (sign : ℕ → ℕ → Bool) (numIter : ℕ) (flag : Bool) (alpha : ℚ) (threshold : Num) (order order' : List ℕ → List ℕ)
    (post : Bool) (pp : ℕ) : Option (KsatTables × KsatResult) := do
  let cost ← generateMetrics n type var sol sgn noise
  let t ← generate n m k order0 sol first pick sign
  let res ← ksatCall n k numIter flag alpha threshold order order' post pp sol t cost.toList
  some (t, res)

/-- Impa.py:2308-2324 and `run_impa`: a test from a file with formula `t`, costs `cost` and planted assignment `sol`; with `overwrite` the
costs are replaced by random ones. -/
def ksatFileTest (n k : ℕ) (overwrite : Bool) (type : ℤ) (var : ℚ) (sgn : ℕ → Bool) (noise : ℕ → ℚ) (numIter : ℕ) (flag : Bool) (alpha : ℚ)
    (threshold : Num) (order order' : List ℕ → List ℕ) (post : Bool) (pp : ℕ) (sol : List Bool) (t : KsatTables) (cost : List Num) :
    Option KsatResult := do
  let cost ← if overwrite then (generateMetrics n type var sol sgn noise).map Arr.toList else some cost
  ksatCall n k numIter flag alpha threshold order order' post pp sol t cost

end Verif.Model
