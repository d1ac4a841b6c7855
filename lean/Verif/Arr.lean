import Mathlib.Data.Rat.Defs
import Verif.Num

/-!
# Bounds checked arrays and loops

`Arr`/`Mat` model `vector<T>` and rectangular `vector<vector<T>>`.  Every read and write is bounds checked; an
out-of-range access (undefined behaviour in C++, `IndexError` in Python) is the outcome `none`.
The loops mirror `for (int i = 0; i < n; i++)`, `for (int i = n-1; i >= 0; i--)` and range-for loops.
-/

namespace Verif

/-- `vector<α>`. -/
structure Arr (α : Type) where
  size : ℕ
  data : ℕ → α

/-- Rectangular `vector<vector<α>>`. -/
structure Mat (α : Type) where
  rows : ℕ
  cols : ℕ
  data : ℕ → ℕ → α

namespace Arr
variable {α : Type}

/-- `vector<α>(n, v)`. -/
def fill (n : ℕ) (v : α) : Arr α := ⟨n, fun _ => v⟩
/-- `a[i]` (read). -/
def rd (a : Arr α) (i : ℕ) : Option α := if i < a.size then some (a.data i) else none
/-- `a[i] = v`. -/
def wr (a : Arr α) (i : ℕ) (v : α) : Option (Arr α) :=
  if i < a.size then some ⟨a.size, fun k => if k = i then v else a.data k⟩ else none
/-- The contents as a list. -/
def toList (a : Arr α) : List α := (List.range a.size).map a.data
/-- An array with the contents of a list. -/
def ofList [Inhabited α] (l : List α) : Arr α := ⟨l.length, fun i => l.getD i default⟩

/-- Refinement relation: `a` has `n` entries, all finite, equal to `x`. -/
def Is (a : Arr Num) (n : ℕ) (x : ℕ → ℚ) : Prop :=
  a.size = n ∧ ∀ i < n, a.data i = Num.fin (x i)

theorem rd_of_lt {a : Arr α} {i : ℕ} (h : i < a.size) : a.rd i = some (a.data i) := if_pos h
theorem wr_of_lt {a : Arr α} {i : ℕ} {v : α} (h : i < a.size) :
    a.wr i v = some ⟨a.size, fun k => if k = i then v else a.data k⟩ := if_pos h
theorem Is.rd {a : Arr Num} {n : ℕ} {x : ℕ → ℚ} (h : a.Is n x) {i : ℕ} (hi : i < n) :
    a.rd i = some (Num.fin (x i)) := by
  rw [rd_of_lt (by rw [h.1]; exact hi), h.2 i hi]
theorem Is.congr {a : Arr Num} {n : ℕ} {x y : ℕ → ℚ} (h : a.Is n x) (hxy : ∀ i < n, x i = y i) :
    a.Is n y := ⟨h.1, fun i hi => by rw [h.2 i hi, hxy i hi]⟩
end Arr

namespace Mat
variable {α : Type}

/-- `vector<vector<α>>(m, vector<α>(n, v))`. -/
def fill (m n : ℕ) (v : α) : Mat α := ⟨m, n, fun _ _ => v⟩
/-- `a[i][j]` (read). -/
def rd (a : Mat α) (i j : ℕ) : Option α :=
  if i < a.rows ∧ j < a.cols then some (a.data i j) else none
/-- `a[i][j] = v`. -/
def wr (a : Mat α) (i j : ℕ) (v : α) : Option (Mat α) :=
  if i < a.rows ∧ j < a.cols then
    some ⟨a.rows, a.cols, fun k l => if k = i ∧ l = j then v else a.data k l⟩
  else none
/-- `a[i] = v` for a whole row (a row of another length would make the matrix ragged: rejected). -/
def wrRow (a : Mat α) (i : ℕ) (v : Arr α) : Option (Mat α) :=
  if i < a.rows ∧ v.size = a.cols then
    some ⟨a.rows, a.cols, fun k l => if k = i then v.data l else a.data k l⟩
  else none
/-- `a[i]` (read a whole row). -/
def rdRow (a : Mat α) (i : ℕ) : Option (Arr α) :=
  if i < a.rows then some ⟨a.cols, a.data i⟩ else none

/-- Refinement relation: `a` has shape `m x n`, all entries finite, equal to `x`. -/
def Is (a : Mat Num) (m n : ℕ) (x : ℕ → ℕ → ℚ) : Prop :=
  a.rows = m ∧ a.cols = n ∧ ∀ i < m, ∀ j < n, a.data i j = Num.fin (x i j)

/-- The matrix holding the finite values `x`. -/
def ofRat (m n : ℕ) (x : ℕ → ℕ → ℚ) : Mat Num := ⟨m, n, fun i j => Num.fin (x i j)⟩

theorem ofRat_is (m n : ℕ) (x : ℕ → ℕ → ℚ) : (ofRat m n x).Is m n x := ⟨rfl, rfl, fun _ _ _ _ => rfl⟩

theorem rd_of_lt {a : Mat α} {i j : ℕ} (hi : i < a.rows) (hj : j < a.cols) :
    a.rd i j = some (a.data i j) := if_pos ⟨hi, hj⟩
theorem wr_of_lt {a : Mat α} {i j : ℕ} {v : α} (hi : i < a.rows) (hj : j < a.cols) :
    a.wr i j v = some ⟨a.rows, a.cols, fun k l => if k = i ∧ l = j then v else a.data k l⟩ :=
  if_pos ⟨hi, hj⟩
theorem wrRow_of_lt {a : Mat α} {i : ℕ} {v : Arr α} (hi : i < a.rows) (hv : v.size = a.cols) :
    a.wrRow i v = some ⟨a.rows, a.cols, fun k l => if k = i then v.data l else a.data k l⟩ :=
  if_pos ⟨hi, hv⟩
theorem rdRow_of_lt {a : Mat α} {i : ℕ} (hi : i < a.rows) :
    a.rdRow i = some ⟨a.cols, a.data i⟩ := if_pos hi
theorem Is.rd {a : Mat Num} {m n : ℕ} {x : ℕ → ℕ → ℚ} (h : a.Is m n x) {i j : ℕ}
    (hi : i < m) (hj : j < n) : a.rd i j = some (Num.fin (x i j)) := by
  rw [rd_of_lt (by rw [h.1]; exact hi) (by rw [h.2.1]; exact hj), h.2.2 i hi j hj]
theorem Is.congr {a : Mat Num} {m n : ℕ} {x y : ℕ → ℕ → ℚ} (h : a.Is m n x)
    (hxy : ∀ i < m, ∀ j < n, x i j = y i j) : a.Is m n y :=
  ⟨h.1, h.2.1, fun i hi j hj => by rw [h.2.2 i hi j hj, hxy i hi j hj]⟩
end Mat

/-- `for (int i = 0; i < n; i++) body(i)`. -/
def loopUp {σ : Type} (n : ℕ) (body : ℕ → σ → Option σ) (s : σ) : Option σ :=
  match n with
  | 0 => some s
  | n + 1 => (loopUp n body s).bind (body n)

/-- `for (int i = n - 1; i >= 0; i--) body(i)`. -/
def loopDown {σ : Type} (n : ℕ) (body : ℕ → σ → Option σ) (s : σ) : Option σ :=
  match n with
  | 0 => some s
  | n + 1 => (body n s).bind (loopDown n body)

/-- `for (x : l) body(x)`. -/
def loopList {σ β : Type} (l : List β) (body : β → σ → Option σ) (s : σ) : Option σ :=
  match l with
  | [] => some s
  | b :: l => (body b s).bind (loopList l body)

/-- Invariant rule for `loopUp`. -/
theorem loopUp_inv {σ : Type} {n : ℕ} {body : ℕ → σ → Option σ} {s : σ} (P : ℕ → σ → Prop)
    (h0 : P 0 s) (hs : ∀ i < n, ∀ t, P i t → ∃ t', body i t = some t' ∧ P (i + 1) t') :
    ∃ t, loopUp n body s = some t ∧ P n t := by
  induction n with
  | zero => exact ⟨s, rfl, h0⟩
  | succ n ih =>
    obtain ⟨t, ht, hp⟩ := ih (fun i hi => hs i (by omega))
    obtain ⟨t', ht', hp'⟩ := hs n (by omega) t hp
    exact ⟨t', by simp [loopUp, ht, ht'], hp'⟩

/-- Invariant rule for `loopDown`: `P i` holds when the indices `≥ i` have been processed. -/
theorem loopDown_inv {σ : Type} {n : ℕ} {body : ℕ → σ → Option σ} {s : σ} (P : ℕ → σ → Prop)
    (h0 : P n s) (hs : ∀ i < n, ∀ t, P (i + 1) t → ∃ t', body i t = some t' ∧ P i t') :
    ∃ t, loopDown n body s = some t ∧ P 0 t := by
  induction n generalizing s with
  | zero => exact ⟨s, rfl, h0⟩
  | succ n ih =>
    obtain ⟨t', ht', hp'⟩ := hs n (by omega) s h0
    obtain ⟨t, ht, hp⟩ := ih hp' (fun i hi => hs i (by omega))
    exact ⟨t, by simp [loopDown, ht', ht], hp⟩

/-- Invariant rule for `loopList`: `P l'` holds when `l'` is the list of remaining elements. -/
theorem loopList_inv {σ β : Type} {l : List β} {body : β → σ → Option σ} {s : σ}
    (P : List β → σ → Prop) (h0 : P l s)
    (hs : ∀ b l' t, P (b :: l') t → ∃ t', body b t = some t' ∧ P l' t') :
    ∃ t, loopList l body s = some t ∧ P [] t := by
  induction l generalizing s with
  | nil => exact ⟨s, rfl, h0⟩
  | cons b l ih =>
    obtain ⟨t', ht', hp'⟩ := hs b l s h0
    obtain ⟨t, ht, hp⟩ := ih hp'
    exact ⟨t, by simp [loopList, ht', ht], hp⟩

/-- Invariant rule for `loopList` indexed by position. -/
theorem loopList_inv_idx {σ β : Type} {l : List β} {body : β → σ → Option σ} {s : σ}
    (P : ℕ → σ → Prop) (h0 : P 0 s)
    (hs : ∀ (i : ℕ) (hi : i < l.length) (t), P i t → ∃ t', body l[i] t = some t' ∧ P (i + 1) t') :
    ∃ t, loopList l body s = some t ∧ P l.length t := by
  induction l generalizing s P with
  | nil => exact ⟨s, rfl, h0⟩
  | cons b l ih =>
    obtain ⟨t', ht', hp'⟩ := hs 0 (by simp) s h0
    obtain ⟨t, ht, hp⟩ := ih (s := t') (fun i => P (i + 1)) hp' (fun i hi t ht => by
      have := hs (i + 1) (by simpa using hi) t ht
      simpa using this)
    exact ⟨t, by simp only [List.getElem_cons_zero] at ht'; simp [loopList, ht', ht], by simpa using hp⟩

end Verif
