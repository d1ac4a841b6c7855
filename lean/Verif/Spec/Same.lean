import Verif.Arr

/-! Equality of tables: the same shape and the same entries. -/

namespace Verif.Spec
open Verif

/-- Two tables of shape `m x n` with equal entries. -/
def SameMat (m n : ℕ) (a b : Mat Num) : Prop :=
  a.rows = m ∧ b.rows = m ∧ a.cols = n ∧ b.cols = n ∧ ∀ i < m, ∀ j < n, a.data i j = b.data i j

/-- Two vectors of length `n` with equal entries. -/
def SameArr (n : ℕ) (a b : Arr Num) : Prop := a.size = n ∧ b.size = n ∧ ∀ i < n, a.data i = b.data i

/-- Both computations succeed, with equal tables. -/
def AgreeMat (m n : ℕ) (p q : Option (Mat Num)) : Prop := ∃ a b, p = some a ∧ q = some b ∧ SameMat m n a b

/-- Both computations succeed, with equal vectors. -/
def AgreeArr (n : ℕ) (p q : Option (Arr Num)) : Prop := ∃ a b, p = some a ∧ q = some b ∧ SameArr n a b

end Verif.Spec
