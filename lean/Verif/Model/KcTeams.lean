import Verif.Arr

/-!
Model of the generation of teams in `ImpaKcMwm`: `prune_teams` and `team_reward_generation` (/repo/src/impa/Impa.py:1241-1428).  Units are
numbered from 1 in pairs, as in the code; tables are indexed from 0.  The tables of /repo/src/impa/initializationModule.py are a parameter
(`TeamData`) apart from the unit counts; `ratio a b` is the floating-point value of `exp(-F_u[a]) * exp(-W_u[b])`.  Capacities are
nonnegative integers; `floor(a / b)` of such integers and `floor(min(a / 2, b))` are computed exactly.  Printing is not modelled.
-/

namespace Verif.Model
open Verif

/-- initializationModule.py:11-32, 46-172; `size` is the length of the tables (11 in the code). -/
structure TeamData where
  size : ℕ
  fu : ℕ → ℤ
  wu : ℕ → ℤ
  k1 : ℤ
  dist : ℕ → ℕ → ℤ
  rdv : ℕ → ℕ → ℕ
  ratio : ℕ → ℕ → ℚ

/-- initializationModule.py:9 `fighters_count`, for the type `t` (read at `t - 1`). -/
def fightersCount (t : ℕ) : ℕ := [1, 1, 2, 2, 2].getD (t - 1) 0

/-- initializationModule.py:10 `weasels_count`. -/
def weaselsCount (t : ℕ) : ℕ := [0, 1, 0, 1, 2].getD (t - 1) 0

/-- Impa.py:1256-1272: the pair to be pruned among `c` and its reverse, if any. -/
def prunePair (d : TeamData) (c : ℕ × ℕ) : Option (ℕ × ℕ) :=
  let a := c.1 - 1
  let b := c.2 - 1
  if d.ratio b a < d.ratio a b ∧ d.dist b a = d.dist a b ∧ d.rdv b a = d.rdv a b then some (c.2, c.1)
  else if d.ratio a b < d.ratio b a ∧ d.dist b a = d.dist a b ∧ d.rdv b a = d.rdv a b then some c
  else if d.ratio b a = d.ratio a b ∧ d.rdv b a = d.rdv a b then some (c.2, c.1)
  else none

/-- Impa.py:1241-1275 `prune_teams`; a unit beyond the tables is an `IndexError`. -/
def pruneTeams (d : TeamData) (n : ℕ) : Option (List (ℕ × ℕ)) :=
  let units := (List.range n).map (· + 1)
  let perms := units.flatMap (fun a => units.map (fun b => (a, b)))
  let combs := units.flatMap (fun a => (units.filter (fun b => a < b)).map (fun b => (a, b)))
  if combs = [] ∨ n ≤ d.size then some (perms.filter (fun x => !(combs.filterMap (prunePair d)).contains x)) else none

/-- The lists built by `team_reward_generation` and the local variables that survive from one type to the next. -/
structure TeamGen where
  weights : List (List ℕ)
  types : List (List ℕ)
  rewards : List ℤ
  size : Option ℕ
  remaining : Option (List ℕ)
  reward : Option ℤ

/-- `table[u - 1].append(x)` followed by `table[u - 1].extend([x for i in range(0, size - 1)])`. -/
def pushTeams (table : List (List ℕ)) (u x size : ℕ) : Option (List (List ℕ)) := do
  let row ← table[u - 1]?
  some (table.set (u - 1) (row ++ x :: List.replicate (size - 1) x))

/-- Impa.py:1311-1314 and the like: weights and types of `size` teams of type `t` for unit `u`. -/
def addUnit (t u x size : ℕ) (st : TeamGen) : Option TeamGen := do
  let w ← pushTeams st.weights u x size
  let y ← pushTeams st.types u t size
  some { st with weights := w, types := y }

/-- `np.setdiff1d(indices_departments, us)`: the units `1..n` other than `us`. -/
def otherUnits (n : ℕ) (us : List ℕ) : List ℕ := ((List.range n).map (· + 1)).filter (fun x => !us.contains x)

/-- `distance_metric[v - 1][u - 1] + F_u[u - 1] - K_1`. -/
def baseReward (d : TeamData) (u v : ℕ) : ℤ := d.dist (v - 1) (u - 1) + d.fu (u - 1) - d.k1

/-- A type whose teams come from one unit only (Impa.py:1307-1318, 1341-1352). -/
def singleType (d : TeamData) (n u v t size : ℕ) (st : TeamGen) : Option TeamGen :=
  if u = v then do
    let st ← addUnit t u (fightersCount t) size st
    some { st with size := some size, remaining := some (otherUnits n [v]), reward := some (baseReward d u v) }
  else some { st with size := some 0 }

/-- A type whose teams come from one unit or from two (Impa.py:1319-1340, 1353-1374, 1375-1397). -/
def pairType (d : TeamData) (n u v t same two : ℕ) (st : TeamGen) : Option TeamGen :=
  if u = v then do
    let st ← addUnit t u (fightersCount t + weaselsCount t) same st
    some { st with size := some same, remaining := some (otherUnits n [v]), reward := some (baseReward d u v + d.wu (v - 1)) }
  else do
    let st ← addUnit t u (fightersCount t) two st
    let st ← addUnit t v (weaselsCount t) two st
    some { st with size := some two, remaining := some (otherUnits n [u, v]), reward := some (baseReward d u v + d.wu (v - 1)) }

/-- Impa.py:1306-1397: the branch of type `t`.  An unknown type changes nothing (the variables of the previous type are reused). -/
def typeBranch (d : TeamData) (caps : List ℕ) (u v t : ℕ) (st : TeamGen) : Option TeamGen := do
  let cu ← caps[u - 1]?
  let cv ← caps[v - 1]?
  if t = 1 then singleType d caps.length u v t cu st
  else if t = 2 then pairType d caps.length u v t (cu / 2) (min cu cv) st
  else if t = 3 then singleType d caps.length u v t (cu / 2) st
  else if t = 4 then pairType d caps.length u v t (cu / 3) (min (cu / 2) cv) st
  else if t = 5 then pairType d caps.length u v t (cu / 4) (min (cu / 2) (cv / 2)) st
  else some st

/-- Impa.py:1305-1406: one type for the pair `(u, v)`; the second component is `team_array`.  A variable that was never assigned is an
`UnboundLocalError`. -/
def genType (d : TeamData) (caps : List ℕ) (u v t : ℕ) (s : TeamGen × List ℕ) : Option (TeamGen × List ℕ) := do
  let st ← typeBranch d caps u v t s.1
  let size ← st.size
  if size ≠ 0 then do
    let reward ← st.reward
    let remaining ← st.remaining
    let st ← loopList remaining (fun x st => addUnit t x 0 size st)
      { st with rewards := st.rewards ++ reward :: List.replicate (size - 1) reward }
    some (st, s.2 ++ [size])
  else some (st, s.2 ++ [size])

/-- Impa.py:1300-1409: one pair; the second component is `sum_teams`. -/
def genPair (d : TeamData) (caps types : List ℕ) (c : ℕ × ℕ) (s : TeamGen × List ℕ) : Option (TeamGen × List ℕ) := do
  let (st, sizes) ← loopList types (fun t s => genType d caps c.1 c.2 t s) (s.1, [])
  some (st, s.2 ++ [sizes.sum])

/-- Impa.py:1413-1421: the index of the last team of every pair. -/
def lastIndex (sums : List ℕ) : List ℤ := (List.range sums.length).map (fun i => ((sums.take (i + 1)).sum : ℤ) - 1)

/-- What `team_reward_generation` returns (the table of types is used at index 0 only, Impa.py:1214). -/
structure Teams where
  rewards : List ℤ
  weights : List (List ℕ)
  types : List (List ℕ)
  last : List ℤ

/-- Impa.py:1277-1428 `team_reward_generation`. -/
def generateTeams (d : TeamData) (caps types : List ℕ) (combos : List (ℕ × ℕ)) : Option Teams := do
  let start : TeamGen := ⟨List.replicate caps.length [], List.replicate caps.length [], [], none, none, none⟩
  let (st, sums) ← loopList combos (genPair d caps types) (start, [])
  some ⟨st.rewards, st.weights, st.types, lastIndex sums⟩

end Verif.Model
