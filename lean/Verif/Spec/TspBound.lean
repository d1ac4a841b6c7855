import Verif.Spec.TspSolve

/-! How large the messages of the augmentation rounds become. -/

namespace Verif.Spec
open Verif Num Model

/-- The state at the start of augmentation round `j` of the solver started in `st`, the first round being round 0. -/
def roundState (c : TspSetup) (st : TspState) : ℕ → Option TspState
  | 0 => (iterateRelaxed c st).map addFirstRows
  | j + 1 => (roundState c st j).bind fun s => (iterateAugmented c s).bind addMissingRows

/-- The messages before iteration `i` of a round with cuts `deltas` that starts with the messages `m`. -/
def roundMsgs (inp : TspInputs) (reset : Bool) (deltas : List (List ℕ)) (m : TspMsgs) (i : ℕ) : Option TspMsgs :=
  (if reset then tspReset inp m.e2d else some m.e2d).bind fun e2d =>
    loopUp i (tspAugmentedIter inp deltas) { m with e2d := e2d, subOld := Mat.pushZeros deltas.length m.subOld }

/-- The finite entries of the table are at most `x` in magnitude. -/
def EntriesWithin (x : ℚ) (t : Mat Num) : Prop := ∀ i < t.rows, ∀ j < t.cols, ∀ q, t.data i j = fin q → |q| ≤ x

/-- The messages from edges to degree constraints, from degree constraints to edges and from cuts to edges are at most `x` in magnitude. -/
def MessagesWithin (x : ℚ) (m : TspMsgs) : Prop := EntriesWithin x m.e2d ∧ EntriesWithin x m.deg ∧ EntriesWithin x m.s2e

/-- In the first `rounds` augmentation rounds there are at most `D` cuts and no message ever exceeds `x` in magnitude. -/
def RoundsWithin (inp : TspInputs) (reset : Bool) (K : ℕ) (c : TspSetup) (st : TspState) (rounds D : ℕ) (x : ℚ) : Prop :=
  ∀ j < rounds, ∀ s, roundState c st j = some s → s.an.deltas.length ≤ D ∧
    ∀ i ≤ K, ∀ m, roundMsgs inp reset s.an.deltas s.msgs i = some m → MessagesWithin x m

end Verif.Spec
