import Mathlib.Algebra.BigOperators.Group.Finset.Basic
import Mathlib.Algebra.Order.BigOperators.Group.Finset
import Mathlib.Tactic.Linarith
import Mathlib.Tactic.Ring
import Verif.Model.RoundedKc
import Verif.Model.TestSum
import Verif.Spec.Rounding

/-! Lemmas for C98. -/

namespace Verif.Proofs
open Verif Num Spec Model Model.Rounded Finset

theorem num_add_comm (a b : Num) : a + b = b + a := by
  cases a <;> cases b <;> try rfl
  rw [fin_add, fin_add, add_comm]

/-- The first `k` numbers added to `x` one after the other, each result rounded. -/
def accum (r : ℚ → Num) (x : Num) (y : ℕ → Num) : ℕ → Num
  | 0 => x
  | k + 1 => rn r (accum r x y k + y k)

theorem accum_exact {r : ℚ → Num} {x : ℚ} {y : ℕ → Num} {q : ℕ → ℚ} {n : ℕ} (hy : ∀ k < n, y k = fin (q k))
    (h : ∀ k < n, r (x + ∑ b ∈ range (k + 1), q b) = fin (x + ∑ b ∈ range (k + 1), q b)) :
    accum r (fin x) y n = fin (x + ∑ b ∈ range n, q b) := by
  induction n with
  | zero => simp [accum]
  | succ n ih =>
    rw [accum, ih (fun k hk => hy k (by omega)) (fun k hk => h k (by omega)), hy n (by omega), fin_add, rn, add_assoc, ← sum_range_succ,
      h n (by omega)]

theorem accum_error {r : ℚ → Num} {M ε : ℚ} (hr : Accurate r M ε) {x : ℚ} {y : ℕ → Num} {q : ℕ → ℚ} {n : ℕ} (hy : ∀ k < n, y k = fin (q k))
    (h : |x| + ∑ b ∈ range n, |q b| + n * ε ≤ M) (he : 0 ≤ ε) : ∃ z, accum r (fin x) y n = fin z ∧ |z - (x + ∑ b ∈ range n, q b)| ≤ n * ε := by
  induction n with
  | zero => exact ⟨x, by simp [accum]⟩
  | succ n ih =>
    rw [sum_range_succ] at h
    push_cast at h
    have h0 := abs_nonneg (q n)
    obtain ⟨z, h1, h2⟩ := ih (fun k hk => hy k (by omega)) (by linarith)
    have h3 : |x + ∑ b ∈ range n, q b| ≤ |x| + ∑ b ∈ range n, |q b| := (abs_add_le _ _).trans (by linarith [abs_sum_le_sum_abs q (range n)])
    have h4 : |z + q n| ≤ M := by
      have e : z + q n = (z - (x + ∑ b ∈ range n, q b)) + (x + ∑ b ∈ range n, q b) + q n := by ring
      rw [e]
      have := abs_add_le (z - (x + ∑ b ∈ range n, q b) + (x + ∑ b ∈ range n, q b)) (q n)
      have := abs_add_le (z - (x + ∑ b ∈ range n, q b)) (x + ∑ b ∈ range n, q b)
      linarith
    obtain ⟨z', h5, h6⟩ := hr.2 _ h4
    refine ⟨z', by rw [accum, h1, hy n (by omega), fin_add, rn, h5], ?_⟩
    rw [sum_range_succ]
    have e : z' - (x + (∑ b ∈ range n, q b + q n)) = (z' - (z + q n)) + (z - (x + ∑ b ∈ range n, q b)) := by ring
    rw [e]
    push_cast
    have := abs_add_le (z' - (z + q n)) (z - (x + ∑ b ∈ range n, q b))
    linarith

theorem accum_not_nan {r : ℚ → Num} (hr : ∀ q, r q ≠ nan) {x : Num} (hx : x ≠ nan) {y : ℕ → Num} {n : ℕ} (hy : ∀ k < n, ∃ q, y k = fin q) :
    accum r x y n ≠ nan := by
  induction n with
  | zero => exact hx
  | succ n ih =>
    have h := ih (fun k hk => hy k (by omega))
    obtain ⟨q, hq⟩ := hy n (by omega)
    rw [accum, hq]
    cases e : accum r x y n with
    | nan => exact absurd e h
    | ninf => simp [rn]
    | pinf => simp [rn]
    | fin a => rw [fin_add, rn]; exact hr _

theorem accum_congr {r : ℚ → Num} {x : Num} {y y' : ℕ → Num} {n : ℕ} (h : ∀ k < n, y k = y' k) : accum r x y n = accum r x y' n := by
  induction n with
  | zero => rfl
  | succ n ih => rw [accum, accum, ih (fun k hk => h k (by omega)), h n (by omega)]

/-- One row added entry by entry. -/
theorem add_row {r : ℚ → Num} {n : ℕ} {src : ℕ → Option Num} {y : ℕ → Num} (hs : ∀ i < n, src i = some (y i)) {dst : Arr Num} (hd : dst.size = n) :
    ∃ a, loopUp n (fun i dst => do
      let x ← dst.rd i
      let y ← src i
      dst.wr i (rn r (x + y))) dst = some a ∧ a.size = n ∧ ∀ i < n, a.data i = rn r (dst.data i + y i) := by
  obtain ⟨a, h1, h2, h3⟩ := loopUp_inv (n := n) (s := dst) (body := fun i dst => do
      let x ← dst.rd i
      let y ← src i
      dst.wr i (rn r (x + y)))
    (fun k a => a.size = n ∧ ∀ i, a.data i = if i < k then rn r (dst.data i + y i) else dst.data i) ⟨hd, fun i => by simp⟩
    (by
      rintro k hk a ⟨h1, h2⟩
      have hk' : k < a.size := by omega
      refine ⟨⟨a.size, fun i => if i = k then rn r (dst.data k + y k) else a.data i⟩, ?_, h1, fun i => ?_⟩
      · simp only [Arr.rd_of_lt hk', hs k hk, Option.bind_eq_bind, Option.bind_some, h2 k, lt_irrefl, if_false]
        rw [Arr.wr_of_lt hk']
      · dsimp only
        by_cases e : i = k
        · subst e; simp
        · rw [if_neg e, h2 i]
          by_cases e' : i < k
          · rw [if_pos e', if_pos (by omega)]
          · rw [if_neg e', if_neg (by omega)])
  exact ⟨a, h1, h2, fun i hi => by rw [h3 i, if_pos hi]⟩

theorem eopRows_eq {r : ℚ → Num} {bins : Mat Num} {dst : Arr Num} (hd : dst.size = bins.cols) :
    ∃ a, eopRows r bins dst = some a ∧ a.size = bins.cols ∧ ∀ i < bins.cols, a.data i = accum r (dst.data i) (fun b => bins.data b i) bins.rows := by
  refine loopUp_inv (fun k (a : Arr Num) => a.size = bins.cols ∧ ∀ i < bins.cols, a.data i = accum r (dst.data i) (fun b => bins.data b i) k) ⟨hd, fun i _ => rfl⟩ ?_
  rintro k hk a ⟨h1, h2⟩
  obtain ⟨a', e1, e2, e3⟩ := add_row (r := r) (n := bins.cols) (src := fun i => bins.rd k i) (y := fun i => bins.data k i)
    (fun i hi => Mat.rd_of_lt hk hi) h1
  exact ⟨a', e1, e2, fun i hi => by rw [e3 i hi, h2 i hi]; rfl⟩

theorem eopTransform_eq {r : ℚ → Num} {bins : Mat Num} {oric : Arr Num} (hd : oric.size = bins.cols) :
    ∃ a, eopTransform r bins oric = some a ∧ a.size = bins.cols ∧
      ∀ i < bins.cols, a.data i = accum r (oric.data i) (fun b => bins.data b i) bins.rows := by
  refine loopUp_inv (fun k (a : Arr Num) => a.size = bins.cols ∧ ∀ i < bins.cols, a.data i = accum r (oric.data i) (fun b => bins.data b i) k) ⟨hd, fun i _ => rfl⟩ ?_
  rintro k hk a ⟨h1, h2⟩
  refine ⟨⟨a.size, fun i => if i < bins.cols then rn r (bins.data k i + a.data i) else a.data i⟩, ?_, h1, fun i hi => ?_⟩
  · rw [Mat.rdRow_of_lt hk]
    simp only [Option.bind_eq_bind, Option.bind_some, addTo]
    rw [if_pos ⟨by omega, by omega⟩]
  · dsimp only
    rw [if_pos hi, h2 i hi, num_add_comm]; rfl

theorem eopDummy_eq {r : ℚ → Num} {bins : Mat Num} {oric : Arr Num} (hd : oric.size = bins.cols) :
    ∃ a, eopDummy r bins oric = some a ∧ a.size = bins.cols ∧
      ∀ i < bins.cols, a.data i = rn r (accum r (fin 0) (fun b => bins.data b i) bins.rows + oric.data i) := by
  obtain ⟨s, h1, h2, h3⟩ := eopRows_eq (r := r) (bins := bins) (dst := Arr.fill bins.cols 0) rfl
  obtain ⟨a, e1, e2, e3⟩ := add_row (r := r) (n := bins.cols) (src := fun i => oric.rd i) (y := fun i => oric.data i)
    (fun i hi => Arr.rd_of_lt (by omega)) h2
  refine ⟨a, ?_, e2, fun i hi => by rw [e3 i hi, h3 i hi]; rfl⟩
  unfold eopDummy
  rw [h1]
  exact e1

theorem foldl_accum {r : ℚ → Num} {x : Num} {y : ℕ → Num} (n : ℕ) : (List.range n).foldl (fun a b => rn r (a + y b)) x = accum r x y n := by
  induction n with
  | zero => rfl
  | succ n ih => rw [List.range_succ, List.foldl_append, ih]; rfl

/-- Starting from zero or from the first number. -/
theorem accum_first {r : ℚ → Num} {y : ℕ → Num} {q : ℚ} (h0 : y 0 = fin q) (hr : r q = fin q) (n : ℕ) :
    accum r (fin 0) y (n + 1) = accum r (y 0) (fun b => y (b + 1)) n := by
  induction n with
  | zero => simp [accum, h0, rn, hr]
  | succ n ih => rw [accum, ih]; rfl

theorem eqNum_fin (q : ℚ) : eqNum (fin q) (fin q) = true := by simp [eqNum]

theorem eqNum_self {x : Num} (h : x ≠ nan) : eqNum x x = true := by simp [eqNum, h]

/-- A NaN in a sum makes it NaN. -/
theorem accum_nan {r : ℚ → Num} {x : Num} {y : ℕ → Num} {n : ℕ} (h : x = nan ∨ ∃ k < n, y k = nan) : accum r x y n = nan := by
  have hl : ∀ a : Num, nan + a = nan := fun a => by cases a <;> rfl
  have hr : ∀ a : Num, a + nan = nan := fun a => by cases a <;> rfl
  induction n with
  | zero => simpa [accum] using h
  | succ n ih =>
    rw [accum]
    by_cases hn : y n = nan
    · rw [hn, hr]; rfl
    · rw [ih, hl]
      · rfl
      · rcases h with h | ⟨k, hk, h⟩
        · exact Or.inl h
        · refine Or.inr ⟨k, lt_of_le_of_ne (Nat.lt_succ_iff.mp hk) ?_, h⟩
          rintro rfl
          exact hn h

end Verif.Proofs
