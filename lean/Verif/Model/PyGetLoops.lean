import Verif.Model.TspLoops

/-!
Model of the search for one loop of a given length: /repo/src/impa/Impa.py, lines 998-1073.  The functions are not called by the rest of the
package.
-/

namespace Verif.Model
open Verif

/-- Impa.py:1028-1037: the loop over the neighbours of a node; `f` is the recursive call.  `log` is `self.visited_nodes_loop`, which all calls
share.  Falling off the end of the function returns `None`. -/
def pyScan (f : ℕ → List ℕ → Option (Option (List ℕ) × List ℕ)) (visited : List ℕ) : List ℕ → List ℕ → Option (Option (List ℕ) × List ℕ)
  | [], log => some (none, log)
  | node :: rest, log =>
    if node ∈ visited then pyScan f visited rest log
    else do
      let r ← f node log
      match r.1 with
      | some (_ :: _) => some r
      | _ => pyScan f visited rest r.2

/-- Impa.py:998-1037 `find_loops`.  The outer option stands for the bound on the depth (`none`: bound reached), the inner one for
Python's `None`; the second result is the log. -/
def pyFindLoops (g : Graph) (start : ℕ) : ℕ → ℕ → List ℕ → List ℕ → List ℕ → Option (Option (List ℕ) × List ℕ)
  | 0, _, _, _, _ => none
  | fuel + 1, cur, visited, path, log =>
    let visited := cur :: visited
    let log := log ++ [cur]
    let path := path ++ [cur]
    if cur = start then some (some path, log)
    else match g.lookup cur with
      | none => some (none, log)
      | some nbrs => pyScan (fun node log => pyFindLoops g start fuel node visited path log) visited nbrs log

/-- Impa.py:1067-1073: the searches from the edges of one start node.  The first component of the state is the returned loop. -/
def pyLoopOfLength (g : Graph) (fuel len start : ℕ) (ends : List ℕ) (s : Option (List ℕ) × List ℕ) : Option (Option (List ℕ) × List ℕ) :=
  loopList ends (fun e s =>
    if s.1.isSome then some s
    else do
      let r ← pyFindLoops g start fuel e [] [] s.2
      match r.1 with
      | some l => some (if l.length = len then some l else none, r.2)
      | none => some (none, r.2)) s

/-- Impa.py:1039-1073 `get_loops`.  Lines 1050-1056 build the same dictionary as the C++ code; a search never goes deeper than the number of
distinct nodes. -/
def pyGetLoops (sel : List (ℕ × ℕ)) (len : ℕ) : Option (Option (List ℕ)) := do
  let g := buildGraph sel
  let s ← loopList g (fun kv s =>
    if s.1.isSome ∨ kv.1 ∈ s.2 then some s
    else pyLoopOfLength g (2 * sel.length + 1) len kv.1 kv.2 s) (none, [])
  some s.1

end Verif.Model
