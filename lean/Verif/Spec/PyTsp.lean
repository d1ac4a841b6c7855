import Verif.Model.PyTsp
import Verif.Spec.TspRun
import Verif.Spec.Same

/-! States of the pure Python and of the C++ TSP program that stand for the same messages. -/

namespace Verif.Spec
open Verif Num Model

/-- The two programs hold the same messages: from edges to the degree constraints at their two ends (other entries of that
table are never read), and from the cut constraints to the edges. -/
structure TspAlike (inp : TspInputs) (deltas : List (List ℕ)) (m : TspMsgs) (p : PyTspState) : Prop where
  e2d : ∃ x, p.e2d.Is inp.numEdges inp.numNodes x
  ends : ∀ e < inp.numEdges, ∀ v, v = src inp.edges e ∨ v = dst inp.edges e → p.e2d.data e v = m.e2d.data e v
  s2e : SameMat deltas.length inp.numEdges p.s2e m.s2e

end Verif.Spec
