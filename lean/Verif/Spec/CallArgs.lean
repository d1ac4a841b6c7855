import Verif.Model.CallArgs

/-! Specification of a call: every parameter receives the argument of the same name. -/

namespace Verif.Spec
open Verif Model

/-- Whatever the values of the arguments, every parameter receives the value of the argument with its name, passed with the
kind that the parameter has. -/
def ReceivesAll (conv : List Kind → List Loc) (names : List String) (declared : List Kind) (params : List (String × Kind)) : Prop :=
  ∀ (V : Type) (val : String → V), received conv names declared params val = params.map (fun p => (p.1, p.2, some (p.2, val p.1)))

end Verif.Spec
