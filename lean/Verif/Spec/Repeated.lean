import Mathlib.Data.Rat.Defs
import Mathlib.Order.Bounds.Defs
import Verif.Arr

/-! Specification of clauses in which variables may occur more than once. -/

namespace Verif.Spec
open Verif

/-- Tables of `C` clauses with `k` literals each, out of `n` variables; signs are `1` or `-1`.  A variable may occur several times in
a clause, also with both signs. -/
structure LooseTables (C k n : ℕ) (conx : Mat ℕ) (ty : Mat ℤ) : Prop where
  conx_rows : conx.rows = C
  conx_cols : conx.cols = k
  ty_rows : ty.rows = C
  ty_cols : ty.cols = k
  conx_lt : ∀ c < C, ∀ s < k, conx.data c s < n
  sign : ∀ c < C, ∀ s < k, ty.data c s = 1 ∨ ty.data c s = -1

/-- What it costs, with costs `z` of making variables true, to make the literal `l` (variable, sign) true rather than false. -/
def litCost (z : ℕ → ℚ) (l : ℕ × ℤ) : ℚ := z l.1 * (l.2 : ℚ)

/-- The literal at position `s` of clause `c`. -/
def litAt (conx : Mat ℕ) (ty : Mat ℤ) (c s : ℕ) : ℕ × ℤ := (conx.data c s, ty.data c s)

/-- The message to the literal at position `s` of a clause with literals `l 0, …, l (k-1)`: push the literal towards true by the cost of
the cheapest other literal, if that cost is positive. -/
def IsPush (k : ℕ) (l : ℕ → ℕ × ℤ) (z : ℕ → ℚ) (s : ℕ) (p : ℚ) : Prop :=
  ∃ q, IsLeast {q | ∃ j < k, j ≠ s ∧ litCost z (l j) = q} q ∧ p = -(max 0 q) * ((l s).2 : ℚ)

/-- A formula with `n` variables and `C` clauses of `k` literals whose clause `c0` is the literal `(v0, σ)`, `k` times; `v0` occurs in no
other clause, and its list of clauses is `c0`, `m` times.  The other clauses and lists are arbitrary. -/
structure SameLiteral (n C k : ℕ) (used : List ℕ) (conns : List (List ℕ)) (cx : ℕ → ℕ → ℕ) (ty : ℕ → ℕ → ℤ) (c0 v0 : ℕ) (σ : ℤ) (m : ℕ) :
    Prop where
  two : 2 ≤ k
  lt : ∀ c < C, ∀ s < k, cx c s < n
  sign : ∀ c < C, ∀ s < k, ty c s = 1 ∨ ty c s = -1
  clause_lt : c0 < C
  same : ∀ s < k, cx c0 s = v0 ∧ ty c0 s = σ
  only : ∀ c < C, c ≠ c0 → ∀ s < k, cx c s ≠ v0
  length : conns.length = n
  conns_lt : ∀ l ∈ conns, ∀ c ∈ l, c < C
  used_lt : ∀ v ∈ used, v < n
  used_mem : ∀ v < n, conns.getD v [] ≠ [] → v ∈ used
  conns_eq : conns.getD v0 [] = List.replicate m c0
  pos : m ≠ 0

/-- A formula with `n` variables and `C` clauses of `k` literals whose clause `c0` shares no variable with other clauses and has no variable
with both signs; the list of clauses of its variable `v` is `c0`, `m v` times.  The other clauses and lists are arbitrary. -/
structure LoneClause (n C k : ℕ) (used : List ℕ) (conns : List (List ℕ)) (cx : ℕ → ℕ → ℕ) (ty : ℕ → ℕ → ℤ) (c0 : ℕ) (m : ℕ → ℕ) : Prop where
  two : 2 ≤ k
  lt : ∀ c < C, ∀ s < k, cx c s < n
  sign : ∀ c < C, ∀ s < k, ty c s = 1 ∨ ty c s = -1
  clause_lt : c0 < C
  same : ∀ s < k, ∀ t < k, cx c0 s = cx c0 t → ty c0 s = ty c0 t
  only : ∀ c < C, c ≠ c0 → ∀ s < k, ∀ t < k, cx c s ≠ cx c0 t
  length : conns.length = n
  conns_lt : ∀ l ∈ conns, ∀ c ∈ l, c < C
  used_lt : ∀ v ∈ used, v < n
  used_mem : ∀ v < n, conns.getD v [] ≠ [] → v ∈ used
  conns_eq : ∀ s < k, conns.getD (cx c0 s) [] = List.replicate (m (cx c0 s)) c0
  pos : ∀ s < k, m (cx c0 s) ≠ 0

end Verif.Spec
