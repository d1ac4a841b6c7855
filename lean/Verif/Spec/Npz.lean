import Verif.Model.Npy
import Verif.Spec.Npy

/-! Sequences of calls that write an archive. -/

namespace Verif.Spec
open Verif Model

/-- One call of `npz_save`. -/
structure Saved where
  name : List Char
  ty : Char
  ws : ℕ
  shape : List ℕ
  data : List Char

/-- At most fifteen dimensions, elements of fewer than 1000 bytes, fewer than 2^31 elements, a name whose length fits the header. -/
def Saved.Good (i : Saved) : Prop := i.shape ≠ [] ∧ TypeLetter i.ty ∧ 0 < i.shape.prod * i.ws ∧ i.shape.prod < 2 ^ 31 ∧ i.data.length = i.shape.prod * i.ws ∧
  i.ws < 1000 ∧ i.shape.length ≤ 15 ∧ i.name.length + 4 < 2 ^ 16

instance (i : Saved) : Decidable i.Good := inferInstanceAs (Decidable (_ ∧ _))

/-- A bound for the size of the file. -/
def Saved.room (l : List Saved) : ℕ := (l.map fun i => i.data.length + 2 * i.name.length + 350).sum

/-- The array of the call as it should be read. -/
def Saved.array (i : Saved) : NpyArray := ⟨i.shape, i.ws, false, i.data⟩

/-- The calls one after the other, each on the file the one before left (`none`: mode "w" or no file). -/
def saveAll (crc : List Char → ℕ) : Option (List Char) → List Saved → Option (Option (List Char))
  | old, [] => some old
  | old, i :: l => do
    let file ← npzSave crc old i.name i.ty i.ws i.shape i.data
    saveAll crc (some file) l

end Verif.Spec
