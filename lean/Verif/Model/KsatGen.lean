import Verif.Model.KsatPost

/-!
Model of the random formula generator `GraphicalModelKsat.create_model_structure` (/repo/src/impa/Impa.py:2389-2441).  Every random draw
is a parameter: `sol` is `valid_sol`, `first c` the variable drawn at 2405, `pick c j` the position drawn by `random.choice` at 2415 and
`sign c j` the outcome at 2417.  The tables are zipped as in `KsatTables`.  The incoming metrics (2399) are not modelled: they do not
influence the formula.
-/

namespace Verif.Model
open Verif

/-- State while one clause is drawn: `connections` with `connections_types`, `used_variables`, `variables_connections` with types. -/
structure GenClause where
  cl : List (ℕ × ℤ)
  used : List ℕ
  conns : List (List (ℕ × ℤ))

/-- Impa.py:2408-2412, 2416-2422: one literal; `ic` is `index_constraint`. -/
def addLiteral (ic : ℕ) (l : ℕ × ℤ) (g : GenClause) : Option GenClause := do
  let row ← g.conns[l.1]?
  some ⟨g.cl ++ [l], g.used ++ [l.1], g.conns.set l.1 (row ++ [(ic, l.2)])⟩

/-- Impa.py:2402-2422: draw one clause. -/
def drawClause (n k : ℕ) (sol : List Bool) (first : ℕ) (pick : ℕ → ℕ) (sign : ℕ → Bool) (ic : ℕ) (g : GenClause) : Option GenClause := do
  let b ← sol[first]?
  let g ← addLiteral ic (first, if b then 1 else -1) { g with cl := [] }
  loopUp (k - 1) (fun j g => do
    let cands := (List.range n).filter (fun x => !(g.cl.map Prod.fst).contains x)
    let v ← cands[pick j]?
    addLiteral ic (v, if sign j then 1 else -1) g) g

/-- State of the outer loop (`slots` is `constraints_connections` with types). -/
structure GenState where
  slots : List (List (ℕ × ℤ))
  used : List ℕ
  conns : List (List (ℕ × ℤ))
  ic : ℕ

/-- `set(a) == set(b)` for the variables of two clauses. -/
def sameVars (a b : List (ℕ × ℤ)) : Bool :=
  (a.map Prod.fst).all (fun x => (b.map Prod.fst).contains x) && (b.map Prod.fst).all (fun x => (a.map Prod.fst).contains x)

/-- Impa.py:2435-2437: take the first entry of clause `ic` out of the list of variable `v`; `ValueError` if there is none. -/
def popConn (ic v : ℕ) (conns : List (List (ℕ × ℤ))) : Option (List (List (ℕ × ℤ))) := do
  let row ← conns[v]?
  if row.any (fun p => p.1 == ic) then some (conns.set v (row.eraseP (fun p => p.1 == ic))) else none

/-- Impa.py:2401-2437: one round of the outer loop. -/
def genStep (n k : ℕ) (sol : List Bool) (first : ℕ → ℕ) (pick : ℕ → ℕ → ℕ) (sign : ℕ → ℕ → Bool) (c : ℕ) (st : GenState) :
    Option GenState := do
  let g ← drawClause n k sol (first c) (pick c) (sign c) st.ic ⟨[], st.used, st.conns⟩
  if !st.slots.any (fun a => sameVars a g.cl) then
    if st.ic < st.slots.length then some ⟨st.slots.set st.ic g.cl, g.used, g.conns, st.ic + 1⟩ else none
  else do
    let conns ← loopList (g.cl.map Prod.fst) (popConn st.ic) g.conns
    some ⟨st.slots, g.used, conns, st.ic⟩

/-- Impa.py:2389-2441 `create_model_structure`; `order` is the iteration order of the set of used variables. -/
def generate (n m k : ℕ) (order : List ℕ → List ℕ) (sol : List Bool) (first : ℕ → ℕ) (pick : ℕ → ℕ → ℕ) (sign : ℕ → ℕ → Bool) :
    Option KsatTables := do
  let st ← loopUp m (genStep n k sol first pick sign) ⟨List.replicate m [], [], List.replicate n [], 0⟩
  some ⟨order st.used.dedup, st.slots.filter (fun l => !l.isEmpty), st.conns⟩

end Verif.Model
