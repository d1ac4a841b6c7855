import Verif.Model.TspSolve
import Verif.Spec.Loops

/-! The sequence of states of an augmentation run. -/

namespace Verif.Spec
open Verif Model

/-- `f 0, ..., f k` are the states at the starts of rounds `1, ..., k` and after the last round.  No round starts after a tour was
found, after a stop flag was set or with cost zero.  Between rounds message rows for new constraints are added; nothing is
added if the limit was reached. -/
structure AugRun (c : TspSetup) (f : ℕ → TspState) (k : ℕ) : Prop where
  going : ∀ i < k, (f i).an.tourFlag = false ∧ (f i).an.satisfied = false ∧ (f i).an.noConsFlag = false ∧
    (f i).noImprovFlag = false ∧ (f i).solOscFlag = false ∧ (f i).cost ≠ 0
  round : ∀ i < k, ∃ st, iterateAugmented c (f i) = some st ∧
    ((i + 1 = k ∧ (st.numAugm : ℤ) = c.maxAugm ∧ f k = st) ∨
      ((st.numAugm : ℤ) ≠ c.maxAugm ∧ addMissingRows st = some (f (i + 1))))

/-- Why no further round is started: nothing left to do, augmentation is switched off, a stop flag is set or the limit is
reached. -/
def StopReason (c : TspSetup) (st : TspState) : Prop :=
  st.an.tourFlag = true ∨ st.an.satisfied = true ∨ c.augmentation = false ∨ st.an.noConsFlag = true ∨ st.noImprovFlag = true ∨
    st.solOscFlag = true ∨ (st.numAugm : ℤ) = c.maxAugm

/-- A newly constructed solver. -/
def NewState (st : TspState) : Prop := ∃ m e i, st = { msgs := m, ext := e, intr := i }

end Verif.Spec
