import Mathlib.Order.Bounds.Basic

/-!
What a generated team is.  A team kind is `(u, v, t)`: the first unit sends the fighters of type `t`, the second its weasels; `u = v` is
allowed and then one unit sends both.  Units are numbered from 1.
-/

namespace Verif.Spec

/-- Fighters and weasels of a team of each type. -/
def crew : ℕ → ℕ × ℕ
  | 1 => (1, 0)
  | 2 => (1, 1)
  | 3 => (2, 0)
  | 4 => (2, 1)
  | 5 => (2, 2)
  | _ => (0, 0)

/-- What a team of kind `k` takes from unit `d`. -/
def need (k : ℕ × ℕ × ℕ) (d : ℕ) : ℕ := (if d = k.1 then (crew k.2.2).1 else 0) + (if d = k.2.1 then (crew k.2.2).2 else 0)

/-- A kind that exists: without weasels only one unit is involved. -/
def RealKind (k : ℕ × ℕ × ℕ) : Prop := (crew k.2.2).2 ≠ 0 ∨ k.1 = k.2.1

/-- `c` is the number of teams of kind `k` to offer: as many as the units could send if they sent nothing else. -/
def IsCount (cap : ℕ → ℕ) (k : ℕ × ℕ × ℕ) (c : ℕ) : Prop :=
  (RealKind k → IsGreatest {m | ∀ d, m * need k d ≤ cap d} c) ∧ (¬ RealKind k → c = 0)

/-- All teams: pair by pair, type by type, `count` of each kind. -/
def teams (combos : List (ℕ × ℕ)) (types : List ℕ) (count : ℕ × ℕ × ℕ → ℕ) : List (ℕ × ℕ × ℕ) :=
  combos.flatMap (fun c => types.flatMap (fun t => List.replicate (count (c.1, c.2, t)) (c.1, c.2, t)))

/-- Pairs of units `1..n`. -/
def PairsOk (n : ℕ) (combos : List (ℕ × ℕ)) : Prop := ∀ c ∈ combos, 1 ≤ c.1 ∧ c.1 ≤ n ∧ 1 ≤ c.2 ∧ c.2 ≤ n

/-- The known team types. -/
def TypesOk (types : List ℕ) : Prop := ∀ t ∈ types, 1 ≤ t ∧ t ≤ 5

end Verif.Spec
