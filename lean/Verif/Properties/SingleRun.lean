import Verif.Properties.SingleExact
import Verif.Model.RoundedKsat
import Verif.Proofs.FastSingle

/-! The run of 130 iterations in single precision. -/

namespace Verif.Properties
open Verif Num Spec Model

/-- After 130 iterations single precision violates the clause `¬x0 ∨ x2`: the messages have overflowed. -/
theorem c72_single : (Rounded.ksatCall single 3 2 130 false 0 (fin 0) id id false 0 [] loopFormula (listOf 3 (fun v => fin (loopCost v)))).map
    (fun res => (res.beliefs, res.post.hard, res.post.flag)) = some ([ninf, fin (-3), fin 1], [true, true, false], false) := by
  rw [Proofs.fastSingle_eq]; decide +kernel

end Verif.Properties
