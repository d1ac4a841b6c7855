import Mathlib.Data.List.Range
import Mathlib.Data.Finset.Dedup

/-! Specification of k-SAT formulas given as lists of clauses, a clause being a list of (variable, sign) pairs. -/

namespace Verif.Spec

/-- The literal is true when variable `v` has value `σ v`. -/
def LitTrue (σ : ℕ → Bool) (l : ℕ × ℤ) : Prop := (l.2 = 1 ∧ σ l.1 = true) ∨ (l.2 = -1 ∧ σ l.1 = false)

instance (σ : ℕ → Bool) (l : ℕ × ℤ) : Decidable (LitTrue σ l) := by unfold LitTrue; infer_instance

/-- The clauses (by number, in increasing order) with no true literal. -/
def violated (F : List (List (ℕ × ℤ))) (σ : ℕ → Bool) : List ℕ :=
  (List.range F.length).filter (fun c => ∀ l ∈ F.getD c [], ¬ LitTrue σ l)

/-- The assignment given by a list of values. -/
def asgn (h : List Bool) (v : ℕ) : Bool := h.getD v false

/-- The variable side of the tables agrees with the clauses: variable `v` lists clause `c` with sign `s` iff the literal
`(v, s)` is in clause `c`; every variable of the formula is in the list of used variables, and these are below `n`. -/
structure FormulaTables (n : ℕ) (F : List (List (ℕ × ℤ))) (used : List ℕ) (conns : List (List (ℕ × ℤ))) : Prop where
  mem : ∀ v c s, (c, s) ∈ conns.getD v [] ↔ (v, s) ∈ F.getD c []
  used_mem : ∀ cl ∈ F, ∀ l ∈ cl, l.1 ∈ used
  used_lt : ∀ v ∈ used, v < n

/-- Tables of a formula whose clauses have `k` literals with distinct variables and signs ±1; each of the `n` variables lists its
clauses once. -/
structure KFormula (n k : ℕ) (F : List (List (ℕ × ℤ))) (used : List ℕ) (conns : List (List (ℕ × ℤ))) : Prop where
  clause : ∀ cl ∈ F, cl.length = k ∧ (cl.map Prod.fst).Nodup ∧ ∀ l ∈ cl, l.2 = 1 ∨ l.2 = -1
  tables : FormulaTables n F used conns
  length : conns.length = n
  nodup : ∀ v, ((conns.getD v []).map Prod.fst).Nodup

/-- The assignment that makes exactly the variables in `S` true satisfies every clause. -/
def Satisfies (F : List (List (ℕ × ℤ))) (S : Finset ℕ) : Prop := violated F (fun v => decide (v ∈ S)) = []

/-- The variables of clause `c`. -/
def varsOf (F : List (List (ℕ × ℤ))) (c : ℕ) : Finset ℕ := ((F.getD c []).map Prod.fst).toFinset

end Verif.Spec
