import Verif.Model.TestScripts

namespace Verif.Spec
open Verif Model

/-- The three scripts in /repo/test/src, the first for any number of departments. -/
def Shipped (sc : Script) : Prop := (∃ D : ℕ, sc = kcScript D) ∨ sc = tspScript ∨ sc = ksatScript

/-- The name with the first `pure` replaced by `wrapper`. -/
def replacePure : List Char → List Char
  | 'p' :: 'u' :: 'r' :: 'e' :: s => "wrapper".toList ++ s
  | c :: s => c :: replacePure s
  | [] => []

/-- Every file in a report was written in the given sub-test: the first of each pair by the Python program, the second by the native program, which had
read the inputs that the Python program wrote in this sub-test. -/
def Fresh {α : Type} (reads : List String) (s : SubTest α) (r : Report α) : Prop :=
  ∀ q ∈ r.files, q.1.2 = s.pyWrites true q.1.1 ∧ q.2.2 = s.natWrites (reads.map (s.pyWrites false)) q.2.1

/-- Neither program dies. -/
def Finishes {α : Type} (s : SubTest α) : Prop := s.pyStops = none ∧ s.natStops = none

end Verif.Spec
