import Verif.Spec.Formula

namespace Verif.Spec

/-- No variable occurs with both signs: `g v` is the sign of all occurrences of `v`. -/
def Unmixed (F : List (List (ℕ × ℤ))) (g : ℕ → ℤ) : Prop := ∀ cl ∈ F, ∀ l ∈ cl, l.2 = g l.1

end Verif.Spec
