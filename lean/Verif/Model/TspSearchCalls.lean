import Verif.Model.TspLoops

/-!
The search for loops (/repo/include/impalib/graphical_model.hpp, lines 826-854) with a counter of calls.
-/

namespace Verif.Model
open Verif

/-- graphical_model.hpp:842-851 with the number of calls of `find_closed_loop` made below. -/
def firstLoopCalls (f : ℕ → Option (List ℕ × ℕ)) (visited : List ℕ) : List ℕ → Option (List ℕ × ℕ)
  | [] => some ([], 0)
  | node :: rest =>
    if node ∈ visited then firstLoopCalls f visited rest
    else do
      let (p, c) ← f node
      if p = [] then do
        let (q, d) ← firstLoopCalls f visited rest
        some (q, c + d)
      else some (p, c)

/-- graphical_model.hpp:826-854 `find_closed_loop` with the number of calls, itself included.  As in `findLoop`, `fuel` bounds the depth. -/
def findLoopCalls (g : Graph) (start : ℕ) : ℕ → ℕ → List ℕ → List ℕ → Option (List ℕ × ℕ)
  | 0, _, _, _ => none
  | fuel + 1, cur, visited, path =>
    if cur = start then some (path ++ [cur], 1)
    else match g.lookup cur with
      | none => some ([], 1)
      | some nbrs => do
        let (p, c) ← firstLoopCalls (fun node => findLoopCalls g start fuel node (cur :: visited) (path ++ [cur])) (cur :: visited) nbrs
        some (p, c + 1)

end Verif.Model
