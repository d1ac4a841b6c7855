import Mathlib.Data.Finset.Card
import Mathlib.Data.Finset.Prod
import Mathlib.Data.Rat.Defs
import Mathlib.Order.Bounds.Basic
import Verif.Spec.Teams

/-! What the decision and the post-processing of the assignment solver should do. -/

namespace Verif.Spec

/-- The chosen (project, team) pairs. -/
def chosen (P T : ℕ) (M : ℕ → ℕ → Bool) : Finset (ℕ × ℕ) := (Finset.range P ×ˢ Finset.range T).filter (fun c => M c.1 c.2 = true)

/-- The chosen pairs are a matching: no project and no team twice. -/
def IsMatching (P T : ℕ) (M : ℕ → ℕ → Bool) : Prop :=
  (∀ a ∈ chosen P T M, ∀ b ∈ chosen P T M, a.1 = b.1 → a = b) ∧ (∀ a ∈ chosen P T M, ∀ b ∈ chosen P T M, a.2 = b.2 → a = b)

/-- What the selected teams `sel` take from unit `d` (numbered from 1) if team `i` is of kind `K i`. -/
def load (K : List (ℕ × ℕ × ℕ)) (sel : List ℕ) (d : ℕ) : ℕ := (sel.map (fun i => need (K.getD i (0, 0, 0)) d)).sum

/-- Team `i` takes something from unit `d`. -/
def Uses (K : List (ℕ × ℕ × ℕ)) (i d : ℕ) : Prop := 0 < need (K.getD i (0, 0, 0)) d

/-- Unit `d` (from 1) sends more than its capacity. -/
def Over (caps : List ℕ) (K : List (ℕ × ℕ × ℕ)) (sel : List ℕ) (d : ℕ) : Prop :=
  1 ≤ d ∧ d ≤ caps.length ∧ caps.getD (d - 1) 0 < load K sel d

/-- Option 1 may remove the teams of the first overloaded unit. -/
def OfFirst (caps : List ℕ) (K : List (ℕ × ℕ × ℕ)) (sel : List ℕ) (i : ℕ) : Prop :=
  i ∈ sel ∧ ∃ d, IsLeast {d | Over caps K sel d} d ∧ Uses K i d

/-- Every unit of team `i` is overloaded. -/
def AllOver (caps : List ℕ) (K : List (ℕ × ℕ × ℕ)) (sel : List ℕ) (i : ℕ) : Prop := ∀ d, Uses K i d → Over caps K sel d

/-- For some overloaded unit, team `i` is one of its teams all of whose units are overloaded, or one of its teams if there is no such team. -/
def OfSome (caps : List ℕ) (K : List (ℕ × ℕ × ℕ)) (sel : List ℕ) (i : ℕ) : Prop :=
  i ∈ sel ∧ ∃ d, Over caps K sel d ∧ Uses K i d ∧ (AllOver caps K sel i ∨ ∀ j ∈ sel, Uses K j d → ¬ AllOver caps K sel j)

/-- A team of two different units. -/
def Mixed (K : List (ℕ × ℕ × ℕ)) (i : ℕ) : Prop := (K.getD i (0, 0, 0)).1 ≠ (K.getD i (0, 0, 0)).2.1

/-- Option 2 prefers mixed teams among those of `OfSome`. -/
def OfSomeMixed (caps : List ℕ) (K : List (ℕ × ℕ × ℕ)) (sel : List ℕ) (i : ℕ) : Prop :=
  OfSome caps K sel i ∧ (Mixed K i ∨ ∀ j, OfSome caps K sel j → ¬ Mixed K j)

/-- Which teams option 2 (`true`) and option 1 (`false`) may remove. -/
def candidates : Bool → List ℕ → List (ℕ × ℕ × ℕ) → List ℕ → ℕ → Prop
  | true => OfSomeMixed
  | false => OfFirst

/-- From `sel`, teams given by `Pick` are removed one by one while some unit is overloaded; `r` is left. -/
inductive Removals (caps : List ℕ) (K : List (ℕ × ℕ × ℕ)) (Pick : List ℕ → ℕ → Prop) : List ℕ → List ℕ → Prop
  | done {sel : List ℕ} : (∀ d, ¬ Over caps K sel d) → Removals caps K Pick sel sel
  | step {sel r : List ℕ} {d t : ℕ} : Over caps K sel d → t ∈ sel → Pick sel t →
      Removals caps K Pick (sel.filter (fun i => i ≠ t)) r → Removals caps K Pick sel r

end Verif.Spec
