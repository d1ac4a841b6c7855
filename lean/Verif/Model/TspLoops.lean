import Verif.Model.Filter

/-!
Model of the decisions `GraphicalModelTsp` takes on the beliefs: /repo/include/impalib/graphical_model.hpp, lines 557-854.
Nodes are natural numbers; an edge `vector<int>{u, v}` is a pair.  Output to the terminal is left out.
-/

namespace Verif.Model
open Verif Num

/-- graphical_model.hpp:557-608 `hard_decision_analysis`: the selected edges and their cost (`costImpa_`).  `hd` is
`hard_decision`; the set `uniqueNodes` is only used by a commented-out print and left out. -/
def hardDecision (numEdges : ℕ) (thr : Num) (intr : Arr Num) (edges : List (ℕ × ℕ)) (cost : Arr Num) :
    Option (List (ℕ × ℕ) × Num) := do
  let hd ← (⟨intr.size, fun e => if gt (intr.data e) thr then 0 else 1⟩ : Arr ℕ).copyTo (Arr.fill numEdges 2147483647)
  let sel ← loopUp numEdges (fun e sel => do
    let h ← hd.rd e
    if h = 1 then do
      let c ← edges[e]?
      some (sel ++ [c])
    else some sel) []
  let total ← loopUp hd.size (fun e acc => do
    let h ← hd.rd e
    if h = 1 then do
      let c ← cost.rd e
      some (acc + c)
    else some acc) 0
  some (sel, total)

/-- `unordered_map<int, vector<int>>`: the entries in order of insertion, one per key.  The order in which a loop over the
map visits the keys is not specified; where it matters it is a separate argument. -/
abbrev Graph := List (ℕ × List ℕ)

/-- graphical_model.hpp:714-718: add one edge to the map. -/
def graphAdd (g : Graph) (c : ℕ × ℕ) : Graph :=
  if c.1 ∈ g.map Prod.fst then g.map (fun kv => if kv.1 = c.1 then (kv.1, kv.2 ++ [c.2]) else kv) else g ++ [(c.1, [c.2])]

/-- graphical_model.hpp:713-719: the map of the selected edges (the caller passes an empty map). -/
def buildGraph (sel : List (ℕ × ℕ)) : Graph := sel.foldl graphAdd []

/-- graphical_model.hpp:842-851: the loop over the neighbours of a node; `f` is the recursive call. -/
def firstLoop (f : ℕ → Option (List ℕ)) (visited : List ℕ) : List ℕ → Option (List ℕ)
  | [] => some []
  | node :: rest =>
    if node ∈ visited then firstLoop f visited rest
    else do
      let p ← f node
      if p = [] then firstLoop f visited rest else some p

/-- graphical_model.hpp:826-854 `find_closed_loop`.  The recursion has no explicit bound in the code; `fuel` bounds its depth
and `none` means that the bound was reached.  `visited` and `path` are copied by the code.  `visited_nodes` is never filled
and left out; `new_path` of lines 837-838 is discarded by the code. -/
def findLoop (g : Graph) (start : ℕ) : ℕ → ℕ → List ℕ → List ℕ → Option (List ℕ)
  | 0, _, _, _ => none
  | fuel + 1, cur, visited, path =>
    if cur = start then some (path ++ [cur])
    else match g.lookup cur with
      | none => some []
      | some nbrs => firstLoop (fun node => findLoop g start fuel node (cur :: visited) (path ++ [cur])) (cur :: visited) nbrs

/-- graphical_model.hpp:732-740: the loops found from the edges of one start node. -/
def loopsFrom (g : Graph) (fuel start : ℕ) (ends : List ℕ) (loops : List (List ℕ)) : Option (List (List ℕ)) :=
  loopList ends (fun e loops => do
    let l ← findLoop g start fuel e [] []
    if l = [] then some loops else some (loops ++ [l])) loops

/-- graphical_model.hpp:721-742: all loops; `order` is the order in which the map is visited. -/
def allLoops (g : Graph) (fuel : ℕ) (order : List ℕ) : Option (List (List ℕ)) :=
  loopList order (fun start loops => do
    let ends ← g.lookup start
    loopsFrom g fuel start ends loops) []

/-- graphical_model.hpp:799-806 `isSubsequence` (the caller makes sure that `seq` is not shorter). -/
def isSubsequence (seq sub : List ℕ) : Bool :=
  (List.range (seq.length - sub.length)).any (fun i => (seq.drop i).take sub.length == sub)

/-- graphical_model.hpp:758-774: compare loop `i` with the later loops. -/
def markDuplicates (loops : List (List ℕ)) (i : ℕ) (rm : List ℕ) : List ℕ :=
  let l1 := loops.getD i []
  (List.range' (i + 1) (loops.length - (i + 1))).foldl (fun rm j =>
    let l2 := loops.getD j []
    let rm := if l2 = [] then rm ++ [j] else rm
    if (l1 ++ l1).length < l2.length then rm
    else if isSubsequence (l1 ++ l1) l2 then rm ++ [j] else rm) rm

/-- graphical_model.hpp:744-775: the indices to remove. -/
def toRemove (loops : List (List ℕ)) : List ℕ :=
  (List.range loops.length).foldl (fun rm i =>
    if loops.getD i [] = [] then rm ++ [i]
    else if i ∈ rm then rm
    else markDuplicates loops i rm) []

/-- graphical_model.hpp:777-782: the loops that stay. -/
def dropDuplicates (loops : List (List ℕ)) : List (List ℕ) :=
  ((List.range loops.length).filter (fun i => i ∉ toRemove loops)).map (fun i => loops.getD i [])

/-- graphical_model.hpp:711-785 `get_closed_loops`.  A search never goes deeper than the number of distinct nodes
(`C15_search_terminates`), which is at most twice the number of edges. -/
def getClosedLoops (sel : List (ℕ × ℕ)) (order : List ℕ) : Option (List (List ℕ)) := do
  let loops ← allLoops (buildGraph sel) (2 * sel.length + 1) order
  some (dropDuplicates loops)

/-- graphical_model.hpp:671-677: the edges that leave the nodes of a loop. -/
def leavingEdges (edges : List (ℕ × ℕ)) (loop : List ℕ) : List ℕ :=
  (List.range edges.length).filter (fun i => match edges[i]? with
    | some c => c.1 ∈ loop ∧ c.2 ∉ loop
    | none => false)

/-- graphical_model.hpp:678-697: add a constraint to `delta_S_indices_list` unless it is empty or present. -/
def addDelta (delta : List ℕ) (deltas : List (List ℕ)) : List (List ℕ) :=
  if deltas = [] ∧ delta ≠ [] then deltas ++ [delta]
  else
    let found := deltas.any (fun d => d == delta)
    if ¬ found ∧ delta ≠ [] then deltas ++ [delta] else deltas

/-- The members written by `subtour_elimination_constraints_analysis`. -/
structure TspAnalysis where
  subtourPaths : List (List ℕ) := []
  closedPathsSize : List ℕ := []
  noConsCount : ℕ := 0
  noConsFlag : Bool := false
  tourFlag : Bool := false
  satisfied : Bool := false
  tour : List ℕ := []
  deltas : List (List ℕ) := []

/-- graphical_model.hpp:619-700 `subtour_elimination_constraints_analysis`, after `get_closed_loops` returned `loops`. -/
def analyseLoops (numNodes maxCount : ℕ) (edges : List (ℕ × ℕ)) (loops : List (List ℕ)) (s : TspAnalysis) : TspAnalysis :=
  let s := { s with closedPathsSize := [], subtourPaths := loops }
  match loops with
  | [] =>
    let s := { s with noConsCount := s.noConsCount + 1 }
    if s.noConsCount > maxCount then { s with noConsFlag := true } else s
  | l :: rest =>
    if rest = [] ∧ l.length = numNodes then
      { s with tourFlag := true, satisfied := true, tour := l ++ l.take 1 }
    else
      (l :: rest).foldl (fun s loop => { s with
        closedPathsSize := s.closedPathsSize ++ [loop.length], deltas := addDelta (leavingEdges edges loop) s.deltas })
        { s with noConsCount := 0 }

/-- graphical_model.hpp:619-700 `subtour_elimination_constraints_analysis`. -/
def analyse (numNodes maxCount : ℕ) (edges sel : List (ℕ × ℕ)) (order : List ℕ) (s : TspAnalysis) : Option TspAnalysis := do
  let loops ← getClosedLoops sel order
  some (analyseLoops numNodes maxCount edges loops s)

end Verif.Model
