import Verif.Arr

/-!
Model of the TSP post-processing of `GraphicalModelTsp` (/repo/src/impa/Impa.py:179-204, 440-950).  Printing, and values that are only
printed (the lists of `paths_cleaning`, `duplicate_nodes_counts`, `degree_constraints_satisfied`), are not modelled.  `none` is an
exception.  numpy's `argmin` returns the first index of the smallest entry and the first NaN if there is one; an assignment to a list of
indices writes from left to right.
-/

namespace Verif.Model
open Verif Num

/-- Impa.py:179-204 `create_cost_matrix`: the matrix for the random numbers `r`. -/
def costMatrix (symmetric : Bool) (n : ℕ) (r : ℕ → ℕ → Num) : Mat Num :=
  if symmetric then ⟨n, n, fun i j => if i = j then 0 else (if i ≤ j then r i j else 0) + (if j < i then r j i else 0)⟩
  else ⟨n, n, fun i j => if i = j then 0 else r i j⟩

/-- Impa.py:203 `np.transpose(np.nonzero(matrix))`: the positions of the nonzero entries in row-major order. -/
def nonzeroEdges (m : Mat Num) : List (ℕ × ℕ) :=
  (List.range m.rows).flatMap (fun i => ((List.range m.cols).filter (fun j => m.data i j ≠ 0)).map (fun j => (i, j)))

/-- Impa.py:154-170: cost of every edge; rows of `edge_ec_to_degree_constraint_m` have this cost at both ends of the edge. -/
def edgeCosts (m : Mat Num) (edges : List (ℕ × ℕ)) : Option (List Num) := edges.mapM (fun e => m.rd e.1 e.2)

/-- The attributes used by the post-processing: `edge_connections`, `cost_edge_variable`, `intrinsic_out_edge_ec`, `cost_matrix`,
`num_nodes`. -/
structure TspPy where
  edges : List (ℕ × ℕ)
  costs : List Num
  intr : List Num
  matrix : Mat Num
  n : ℕ

/-- A dictionary from nodes to (inward nodes, outward nodes), in order of insertion. -/
abbrev NodeGraph := List (ℕ × (List ℕ × List ℕ))

/-- `if k in graph: change the entry else: graph[k] = new`. -/
def upsert (g : NodeGraph) (k : ℕ) (change : List ℕ × List ℕ → List ℕ × List ℕ) (new : List ℕ × List ℕ) : NodeGraph :=
  if g.any (fun p => p.1 == k) then g.map (fun p => if p.1 = k then (p.1, change p.2) else p) else g ++ [(k, new)]

/-- Impa.py:515-538 `construct_graph`. -/
def constructGraph (selected : List (ℕ × ℕ)) : NodeGraph :=
  selected.foldl (fun g e =>
    upsert (upsert g e.1 (fun p => (p.1, p.2 ++ [e.2])) ([], [e.2])) e.2 (fun p => (p.1 ++ [e.1], p.2)) ([e.1], [])) []

/-- `graph[k]`. -/
def lookupNode (g : NodeGraph) (k : ℕ) : Option (List ℕ × List ℕ) := (g.find? (fun p => p.1 == k)).map Prod.snd

/-- `np.argmin` of a list: `lt` does not hold between NaN and numbers; a NaN found first stays. -/
def argmin : List Num → Option ℕ
  | [] => none
  | x :: l => some ((l.zipIdx 1).foldl (fun (s : Num × ℕ) p => if s.1 = nan then s else if p.1 = nan ∨ lt p.1 s.1 then p else s) (x, 0)).2

/-- `idx[np.argmin(np.abs(intrinsic_out_edge_ec[idx]))]`. -/
def weakestEdge (py : TspPy) (idx : List ℕ) : Option ℕ := do
  let vs ← idx.mapM (fun i => py.intr[i]?)
  let k ← argmin (vs.map Num.abs)
  idx[k]?

/-- Impa.py:588-592: index of the edge in `edge_connections`; without one, the indexing with `None` fails. -/
def edgeIndex (py : TspPy) (e : ℕ × ℕ) : Option ℕ := py.edges.findIdx? (fun x => x == e)

/-- Impa.py:576-618: one direction of one node.  `conns` are the edges of the node, `own` is `removed_edges_per_node`, `removed` is
`removed_edges_violated_dc`. -/
def thinOut (py : TspPy) (conns : List (ℕ × ℕ)) : ℕ → List (ℕ × ℕ) → List (ℕ × ℕ) → Option (List (ℕ × ℕ))
  | fuel, own, removed =>
    if conns.length - own.length ≤ 1 then some removed
    else match fuel with
      | 0 => none
      | fuel + 1 => do
        let idx ← (conns.filter (fun e => !removed.contains e)).mapM (edgeIndex py)
        if idx = [] then some removed
        else do
          let m ← weakestEdge py idx
          let e ← py.edges[m]?
          thinOut py conns fuel (if own.contains e then own else own ++ [e]) (if removed.contains e then removed else removed ++ [e])

/-- Impa.py:556-620: the edges removed at nodes with more than one inward or outward edge. -/
def removeExcess (py : TspPy) (g : NodeGraph) : Option (List (ℕ × ℕ)) :=
  loopList ((g.filter (fun p => p.2.1.length > 1 || p.2.2.length > 1)).map Prod.fst) (fun key removed => do
    let (ins, outs) ← lookupNode g key
    let removed ← thinOut py (ins.map (fun v => (v, key))) ins.length [] removed
    thinOut py (outs.map (fun v => (key, v))) outs.length [] removed) []

/-- Consecutive pairs of a path. -/
def pathPairs (path : List ℕ) : List (ℕ × ℕ) := path.zip path.tail

/-- Impa.py:839-855 `find_indices_edges_from_tour`. -/
def tourEdges (py : TspPy) (tour : List ℕ) : List ℕ :=
  py.edges.zipIdx.flatMap (fun p => ((tour.zip (tour.tail ++ tour.head?.toList)).filter (fun e => p.1 == e)).map (fun _ => p.2))

/-- Impa.py:624-646: from every reported subtour that is still connected (Impa.py:489-507, flag of `paths_cleaning`) the weakest edge is
removed. -/
def breakSubtours (py : TspPy) (removed : List (ℕ × ℕ)) (subtours : List (List ℕ)) : Option (List (ℕ × ℕ)) :=
  (subtours.filter (fun path => !(pathPairs path).any (fun e => removed.contains e))).mapM (fun path => do
    let m ← weakestEdge py (tourEdges py path)
    py.edges[m]?)

/-- Impa.py:553-653: the selected edges that are left.  `subtours = none` is `None`. -/
def keptEdges (py : TspPy) (selected : List (ℕ × ℕ)) (subtours : Option (List (List ℕ))) : Option (List (ℕ × ℕ)) := do
  let removed ← removeExcess py (constructGraph selected)
  let broken ← (match subtours with
    | none => some []
    | some s => breakSubtours py removed s)
  some ((selected.filter (fun e => !broken.contains e)).filter (fun e => !removed.contains e))

/-- Impa.py:857-889 `find_paths`: the path found (or `None`) and `self.visited_nodes`.  `fuel` is the recursion limit. -/
def findPaths (g : NodeGraph) : ℕ → ℕ → List ℕ → List ℕ → List ℕ → Option (Option (List ℕ) × List ℕ)
  | 0, _, _, _, _ => none
  | fuel + 1, node, visited, path, seen => do
    let (_, outs) ← lookupNode g node
    if outs = [] then some (some (path ++ [node]), seen ++ [node])
    else
      loopList outs (fun v (s : Option (List ℕ) × List ℕ) =>
        match s.1 with
        | some _ => some s
        | none => if (visited ++ [node]).contains v then some s else findPaths g fuel v (visited ++ [node]) (path ++ [node]) s.2)
        (none, seen ++ [node])

/-- Impa.py:916: drop every path whose nodes all occur in another path of the list. -/
def dropContained (paths : List (List ℕ)) : List (List ℕ) :=
  (paths.zipIdx.filter (fun p => !(paths.zipIdx.any (fun q => q.2 != p.2 && p.1.all (fun v => q.1.contains v))))).map Prod.fst

/-- Impa.py:891-917 `get_paths`. -/
def getPaths (limit : ℕ) (g : NodeGraph) : Option (List (List ℕ)) := do
  let r ← loopList (g.map Prod.fst) (fun node (s : List (List ℕ) × List ℕ) =>
    if s.2.contains node then some s
    else do
      let (p, seen) ← findPaths g limit node [] [] s.2
      some (match p with
        | some p => (s.1 ++ [p], seen)
        | none => (s.1, seen))) ([], [])
  some (dropContained r.1)

/-- Impa.py:812-822: the last strict improvement over infinity among the combinations; `old` is the value the variable had before. -/
def cheapest (m : Mat Num) (combos : List (ℕ × ℕ)) (old : Option (ℕ × ℕ)) : Option (Num × Option (ℕ × ℕ)) :=
  loopList combos (fun c s => do
    let x ← m.rd c.1 c.2
    some (if lt x s.1 then (x, some c) else s)) (pinf, old)

/-- Impa.py:793-837 `add_missing_nodes`; `left`, `right` are `combination_left`, `combination_right`. -/
def addMissingLoop (m : Mat Num) (missing : List ℕ) : ℕ → List ℕ → List ℕ → Option (ℕ × ℕ) → Option (ℕ × ℕ) → Option (List ℕ)
  | fuel, tour, added, left, right =>
    if added.length = missing.length then some tour
    else match fuel with
      | 0 => none
      | fuel + 1 => do
        let first ← tour.head?
        let last ← tour.getLast?
        let rest := missing.filter (fun v => !added.contains v)
        let (x, left) ← cheapest m (rest.map (fun v => (v, first))) left
        let (y, right) ← cheapest m (rest.map (fun v => (last, v))) right
        let side ← argmin [x, y]
        if side = 0 then do
          let c ← left
          addMissingLoop m missing fuel (c.1 :: tour) (added ++ [c.1]) left right
        else do
          let c ← right
          addMissingLoop m missing fuel (tour ++ [c.2]) (added ++ [c.2]) left right

def addMissing (m : Mat Num) (tour missing : List ℕ) : Option (List ℕ) := addMissingLoop m missing missing.length tour [] none none

/-- `sum(cost_edge_variable[pair_occurrences])`. -/
def tourCost (py : TspPy) (tour : List ℕ) : Option Num := do
  let cs ← (tourEdges py tour).mapM (fun i => py.costs[i]?)
  some (cs.foldl (fun s c => s + c) 0)

/-- `itertools.permutations` of a list without repeated elements: lexicographic order of positions. -/
def lexPerms : ℕ → List ℕ → List (List ℕ)
  | 0, _ => [[]]
  | n + 1, l => l.flatMap (fun x => (lexPerms n (l.erase x)).map (x :: ·))

/-- `itertools.combinations(range(n), 2)`. -/
def pairsBelow (n : ℕ) : List (ℕ × ℕ) := (List.range n).flatMap (fun i => ((List.range n).filter (fun j => i < j)).map (fun j => (i, j)))
/-- `itertools.combinations(range(n), 3)`. -/
def triplesBelow (n : ℕ) : List (ℕ × ℕ × ℕ) :=
  (List.range n).flatMap (fun i => ((pairsBelow n).filter (fun p => i < p.1)).map (fun p => (i, p)))

/-- `x[is], x[js] = x[js], x[is]` with index lists: both right-hand sides are read first, then written from left to right. -/
def assignPairs (path : List ℕ) (swaps : List (ℕ × ℕ)) : Option (List ℕ) := do
  let a ← swaps.mapM (fun p => path[p.2]?)
  let b ← swaps.mapM (fun p => path[p.1]?)
  let path := ((swaps.map Prod.fst).zip a).foldl (fun l p => l.set p.1 p.2) path
  some (((swaps.map Prod.snd).zip b).foldl (fun l p => l.set p.1 p.2) path)

/-- Impa.py:919-950 `generate_k_opt_paths` for `k = 2, 3`; too few nodes are a `ValueError`. -/
def kOptPaths (path : List ℕ) (three : Bool) : Option (List (List ℕ)) :=
  if three then
    if 3 > (path.length : ℤ) - 2 then none
    else (triplesBelow path.length).mapM (fun t => assignPairs path [(t.1, t.2.1), (t.1, t.2.2), (t.2.1, t.2.2)])
  else
    if 2 > (path.length : ℤ) - 2 then none
    else (pairsBelow path.length).mapM (fun p => assignPairs path [p])

/-- Impa.py:763-791 `perform_k_opt`. -/
def performKOpt (py : TspPy) (tour : List ℕ) (cost : Num) : Option (List ℕ × Num) :=
  loopList [true, false] (fun three s => do
    let cands ← kOptPaths s.1 three
    let _ ← cands.head?
    loopList cands (fun c s => do
      let x ← tourCost py c
      some (if lt x s.2 then (c, x) else s)) s) (tour, cost)

/-- Impa.py:672-736: the best tour from joining the paths; the first path stays first. -/
def joinPaths (py : TspPy) (paths : List (List ℕ)) (missing : List ℕ) : Option (List ℕ × Num) := do
  let perms := (lexPerms paths.length (List.range paths.length)).filter (fun p => p.head? == some 0)
  let tours ← perms.mapM (fun p => do
    let parts ← p.mapM (fun i => paths[i]?)
    let tour ← (if missing.length ≠ 0 then addMissing py.matrix parts.flatten missing else some parts.flatten)
    let c ← tourCost py tour
    some (tour, c))
  let k ← argmin (tours.map Prod.snd)
  tours[k]?

/-- Impa.py:540-761 `run_post_processing_improved`: closed tour and its cost.  `limit` is Python's recursion limit. -/
def runPostProcessing (py : TspPy) (limit : ℕ) (kOpt : Bool) (selected : List (ℕ × ℕ)) (subtours : Option (List (List ℕ))) :
    Option (List ℕ × Num) := do
  let kept ← keptEdges py selected subtours
  let paths ← getPaths limit (constructGraph kept)
  let missing := (List.range py.n).filter (fun v => !paths.flatten.contains v)
  let (tour, cost) ← (if paths.length > 1 then joinPaths py paths missing
    else do
      let path ← paths.head?
      let tour ← (if missing.length ≠ 0 then addMissing py.matrix path missing else some path)
      let c ← tourCost py tour
      some (tour, c))
  let (tour, cost) ← (if kOpt then performKOpt py tour cost else some (tour, cost))
  let first ← tour.head?
  some (tour ++ [first], cost)

end Verif.Model
