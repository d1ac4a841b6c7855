import Verif.Model.PyTsp
import Verif.Model.TspLoops

/-!
Model of the decisions and the control flow of the pure Python TSP solver: /repo/test/python_tsp/src/graphical_model.py,
lines 175-215 and 300-488.  Left out: printing, the open paths (only printed), the reference solvers and the saving of
results (lines 217-248).
-/

namespace Verif.Model
open Verif Num

/-- graphical_model.py:470-488 `hard_decision_analysis`: the selected edges and their cost (`cost_impa`).  An entry that is
neither above nor at most the threshold keeps its value.  A mask of the wrong length is an error. -/
def pyHardDecision (thr : Num) (intr : Arr Num) (edges : List (ℕ × ℕ)) (cost : Arr Num) : Option (List (ℕ × ℕ) × Num) :=
  if edges.length = intr.size ∧ cost.size = intr.size then
    let hard : ℕ → Num := fun e =>
      if gt (intr.data e) thr then 0 else if gt thr (intr.data e) ∨ (intr.data e = thr ∧ thr ≠ nan) then fin 1 else intr.data e
    let idx := (List.range intr.size).filter (fun e => hard e = fin 1)
    some (idx.map (fun e => edges.getD e (0, 0)), npSum (idx.map cost.data))
  else none

/-- graphical_model.py:322-332: the loop over the neighbours of a node; `f` is the recursive call.  Falling off the end of
the function returns `None`. -/
def pyFirstLoop (f : ℕ → Option (Option (List ℕ))) (visited : List ℕ) : List ℕ → Option (Option (List ℕ))
  | [] => some none
  | node :: rest =>
    if node ∈ visited then pyFirstLoop f visited rest
    else do
      let p ← f node
      match p with
      | some (a :: q) => some (some (a :: q))
      | _ => pyFirstLoop f visited rest

/-- graphical_model.py:300-332 `find_closed_loop_new`.  The outer option stands for the bound on the depth (`none`: bound
reached), the inner one for Python's `None`. -/
def pyFindLoop (g : Graph) (start : ℕ) : ℕ → ℕ → List ℕ → List ℕ → Option (Option (List ℕ))
  | 0, _, _, _ => none
  | fuel + 1, cur, visited, path =>
    let visited := cur :: visited
    let path := path ++ [cur]
    if cur = start then some (some path)
    else match g.lookup cur with
      | none => some none
      | some nbrs => pyFirstLoop (fun node => pyFindLoop g start fuel node visited path) visited nbrs

/-- graphical_model.py:347-366: all searches; a dictionary is visited in the order of insertion (`visited_nodes` stays
empty). -/
def pyAllLoops (g : Graph) (fuel : ℕ) : Option (List (Option (List ℕ))) :=
  loopList g (fun kv loops =>
    loopList kv.2 (fun e loops => do
      let l ← pyFindLoop g kv.1 fuel e [] []
      some (loops ++ [l])) loops) []

/-- graphical_model.py:390: is `l2` a slice of `l1 + l1`? -/
def pyDuplicate (l1 l2 : List ℕ) : Bool :=
  (List.range l1.length).any (fun i => ((l1 ++ l1).drop i).take l2.length == l2)

/-- graphical_model.py:371-391: the indices to remove. -/
def pyToRemove (loops : List (Option (List ℕ))) : List ℕ :=
  (List.range loops.length).foldl (fun rm i =>
    match loops.getD i none with
    | none => rm ++ [i]
    | some l1 =>
      if i ∈ rm then rm
      else (List.range' (i + 1) (loops.length - (i + 1))).foldl (fun rm j =>
        match loops.getD j none with
        | none => rm ++ [j]
        | some l2 => if pyDuplicate l1 l2 then rm ++ [j] else rm) rm) []

/-- graphical_model.py:395-399: `sublist.insert(0, sublist.pop(-1))`; an error for an empty list and for `None`. -/
def pyRotate (l : Option (List ℕ)) : Option (List ℕ) := do
  let l ← l
  let x ← l.getLast?
  some (x :: l.dropLast)

/-- graphical_model.py:334-401 `get_closed_loops`: the dictionary of lines 338-343, the searches, the removal of duplicates.
A search never goes deeper than the number of distinct nodes. -/
def pyGetClosedLoops (sel : List (ℕ × ℕ)) : Option (List (List ℕ)) := do
  let loops ← pyAllLoops (buildGraph sel) (2 * sel.length + 1)
  (((List.range loops.length).filter (fun i => i ∉ pyToRemove loops)).map (fun i => loops.getD i none)).mapM pyRotate

/-- `list(itertools.permutations(l, 2))`: all pairs from two different positions. -/
def pyPairs (l : List ℕ) : List (ℕ × ℕ) :=
  (List.range l.length).flatMap (fun i => ((List.range l.length).filter (fun j => i ≠ j)).map (fun j => (l.getD i 0, l.getD j 0)))

/-- graphical_model.py:456-466: `delta_S_indices`. -/
def pyDelta (edges : List (ℕ × ℕ)) (loop : List ℕ) : List ℕ :=
  (List.range edges.length).filter (fun i => match edges[i]? with
    | some c => c ∉ pyPairs loop ∧ c.1 ∈ loop
    | none => false)

/-- graphical_model.py:440-453: `pairs`, the steps of a loop. -/
def pySteps (loop : List ℕ) : List (ℕ × ℕ) := (loop.zip loop.tail) ++ [(loop.getLastD 0, loop.headD 0)]

/-- graphical_model.py:454: the indices of the steps.  `pair in self.edge_connections` on a numpy table asks whether some
row agrees with the pair in some column; `index` is an error for a pair that is not in the list. -/
def pyStepIndices (edges : List (ℕ × ℕ)) (loop : List ℕ) : Option (List ℕ) :=
  ((pySteps loop).filter (fun p => edges.any (fun c => c.1 == p.1 || c.2 == p.2))).mapM (fun p => edges.findIdx? (fun c => c == p))

/-- The members of `GraphicalModel` that change; `tour` is `tour_impa`, unset at first. -/
structure PyTspSolver where
  msgs : PyTspState
  intr : Arr Num
  selected : List (ℕ × ℕ) := []
  cost : Num := 0
  loops : List (List ℕ) := []
  deltas : List (List ℕ) := []
  satisfied : Bool := false
  tourFlag : Bool := false
  tour : Option (List ℕ) := none

/-- graphical_model.py:436-468: one subtour.  `np.sum(self.hard_decision[indices])` is only compared for a message. -/
def pySubtour (edges : List (ℕ × ℕ)) (loop : List ℕ) (deltas : List (List ℕ)) : Option (List (List ℕ)) := do
  let _ ← pyStepIndices edges loop
  let d := pyDelta edges loop
  some (if d ∈ deltas then deltas else deltas ++ [d])

/-- graphical_model.py:420-468 `subtour_elimination_constraints_analysis`. -/
def pyAnalyse (numNodes : ℕ) (edges : List (ℕ × ℕ)) (st : PyTspSolver) : Option PyTspSolver := do
  let loops ← pyGetClosedLoops st.selected
  let st := { st with loops := loops }
  match loops with
  | [] => some st
  | l :: rest =>
    if rest = [] ∧ l.length = numNodes then do
      let x ← l[0]?
      some { st with tourFlag := true, satisfied := true, tour := some (l ++ [x]) }
    else do
      let deltas ← loopList (l :: rest) (pySubtour edges) st.deltas
      some { st with satisfied := false, tourFlag := false, deltas := deltas }

/-- The settings of the Python program. -/
structure PyTspSettings where
  inp : TspInputs
  numIter : ℕ
  reset : Bool
  augmentation : Bool
  thr : Num

/-- graphical_model.py:195-197: hard decision and analysis. -/
def pyDecide (c : PyTspSettings) (st : PyTspSolver) : Option PyTspSolver := do
  let (sel, cost) ← pyHardDecision c.thr st.intr c.inp.edges c.inp.cost
  pyAnalyse c.inp.numNodes c.inp.edges { st with selected := sel, cost := cost }

/-- graphical_model.py:175-200: `iterate_relaxed_graph` and the beginning of `pre_analysis`. -/
def pyTspFirst (c : PyTspSettings) (start : PyTspState) : Option PyTspSolver := do
  let (msgs, intr) ← pyTspRelaxed c.inp c.numIter start
  let st ← pyDecide c { msgs := msgs, intr := intr }
  some (if !st.satisfied && c.augmentation then
    { st with msgs := { st.msgs with s2e := Mat.fill st.deltas.length c.inp.numEdges 0 } } else st)

/-- graphical_model.py:206: equal shapes and equal sets of end nodes (`frozenset` forgets the direction). -/
def pySameEdges (a b : List (ℕ × ℕ)) : Bool :=
  let sub := fun (a b : List (ℕ × ℕ)) => a.all (fun p => b.any (fun q => p == q || p == (q.2, q.1)))
  decide (a.length = b.length) && sub a b && sub b a

/-- graphical_model.py:203-215: one time round the loop of `pre_analysis`. -/
def pyTspRound (c : PyTspSettings) (st : PyTspSolver) : Option PyTspSolver := do
  let (msgs, intr) ← pyTspAugmented c.inp c.reset st.deltas c.numIter st.msgs
  let (sel, cost) ← pyHardDecision c.thr intr c.inp.edges c.inp.cost
  if pySameEdges sel st.selected && anyNan msgs.e2d then none
  else do
    let st ← pyAnalyse c.inp.numNodes c.inp.edges { st with msgs := msgs, intr := intr, selected := sel, cost := cost }
    some { st with msgs := pyTspAddCuts (st.deltas.length - st.msgs.s2e.rows) st.msgs }

/-- graphical_model.py:202-218: the loop of `pre_analysis`.  `fuel` bounds the number of times round the loop, the outcome
`none` means that the bound was reached; `some none` means that an exception was raised or the process ended.  Afterwards
`tour_impa` is printed if the augmentation flag is set, an error if it is unset. -/
def pyTspLoop (c : PyTspSettings) : ℕ → PyTspSolver → Option (Option PyTspSolver)
  | 0, _ => none
  | fuel + 1, st =>
    if !st.satisfied && c.augmentation && !st.tourFlag then
      match pyTspRound c st with
      | none => some none
      | some st => pyTspLoop c fuel st
    else some (if c.augmentation && st.tour.isNone then none else some st)

/-- graphical_model.py:175-218: the whole program after `initialize`. -/
def pyTspSolve (c : PyTspSettings) (fuel : ℕ) (start : PyTspState) : Option (Option PyTspSolver) :=
  match pyTspFirst c start with
  | none => some none
  | some st => pyTspLoop c fuel st

end Verif.Model
