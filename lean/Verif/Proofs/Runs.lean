import Verif.Proofs.Filter

/-! # Tools for whole runs: finite tables, traces of loops, damping as a recurrence -/

namespace Verif
open Num

/-- The finite value of a number (0 for the others). -/
def Num.val : Num → ℚ
  | fin q => q
  | _ => 0

@[simp] theorem Num.val_fin (q : ℚ) : (fin q).val = q := rfl

/-- The finite values of a table. -/
def Mat.val (m : Mat Num) (i j : ℕ) : ℚ := (m.data i j).val
/-- The finite values of a vector. -/
def Arr.val (a : Arr Num) (i : ℕ) : ℚ := (a.data i).val

theorem Mat.Is.val {m : Mat Num} {r c : ℕ} {x : ℕ → ℕ → ℚ} (h : m.Is r c x) {i j : ℕ} (hi : i < r) (hj : j < c) :
    m.val i j = x i j := by rw [Mat.val, h.2.2 i hi j hj, Num.val_fin]
theorem Arr.Is.val {a : Arr Num} {n : ℕ} {x : ℕ → ℚ} (h : a.Is n x) {i : ℕ} (hi : i < n) : a.val i = x i := by
  rw [Arr.val, h.2 i hi, Num.val_fin]

theorem Mat.Is.self {m : Mat Num} {r c : ℕ} {x : ℕ → ℕ → ℚ} (h : m.Is r c x) : m.Is r c m.val :=
  h.congr fun _ hi _ hj => (h.val hi hj).symm
theorem Arr.Is.self {a : Arr Num} {n : ℕ} {x : ℕ → ℚ} (h : a.Is n x) : a.Is n a.val :=
  h.congr fun _ hi => (h.val hi).symm

/-- A table of finite numbers, given entry by entry. -/
theorem Mat.isFin {m : Mat Num} {r c : ℕ} (hr : m.rows = r) (hc : m.cols = c)
    (h : ∀ i < r, ∀ j < c, ∃ q, m.data i j = fin q) : m.Is r c m.val :=
  ⟨hr, hc, fun i hi j hj => by obtain ⟨q, hq⟩ := h i hi j hj; rw [Mat.val, hq, Num.val_fin]⟩
theorem Arr.isFin {a : Arr Num} {n : ℕ} (hn : a.size = n) (h : ∀ i < n, ∃ q, a.data i = fin q) : a.Is n a.val :=
  ⟨hn, fun i hi => by obtain ⟨q, hq⟩ := h i hi; rw [Arr.val, hq, Num.val_fin]⟩

/-- The states of a loop that never fails, with a relation between consecutive states. -/
theorem loop_trace {σ : Type} {body : ℕ → σ → Option σ} {s0 : σ} (I : ℕ → σ → Prop) (R : ℕ → σ → σ → Prop) (h0 : I 0 s0)
    (hs : ∀ k s, I k s → ∃ s', body k s = some s' ∧ I (k + 1) s' ∧ R k s s') :
    ∃ st : ℕ → σ, st 0 = s0 ∧ ∀ k, loopUp k body s0 = some (st k) ∧ I k (st k) ∧ R k (st k) (st (k + 1)) := by
  classical
  let st : ℕ → σ := fun k => (loopUp k body s0).getD s0
  have key : ∀ k, loopUp k body s0 = some (st k) ∧ I k (st k) := by
    intro k
    induction k with
    | zero => exact ⟨rfl, h0⟩
    | succ k ih =>
      obtain ⟨s', h1, h2, -⟩ := hs k _ ih.2
      have : loopUp (k + 1) body s0 = some s' := by simp [loopUp, ih.1, h1]
      have e : st (k + 1) = s' := by simp [st, this]
      rw [e]; exact ⟨this, h2⟩
  refine ⟨st, rfl, fun k => ⟨(key k).1, (key k).2, ?_⟩⟩
  obtain ⟨s', h1, h2, h3⟩ := hs k _ (key k).2
  have : loopUp (k + 1) body s0 = some s' := by simp [loopUp, (key k).1, h1]
  have e : st (k + 1) = s' := by simp [st, this]
  rw [e]; exact h3

end Verif

namespace Verif.Proofs
open Verif Num Spec Model

/-- One step of damping. -/
def dampStep (flag : Bool) (alpha : ℚ) (k : ℕ) (r p : ℚ) : ℚ :=
  if flag ∧ alpha ≠ 0 then (if k = 0 then (1 - alpha) * r else (1 - alpha) * r + alpha * p) else r

theorem damped_of_step {flag : Bool} {alpha : ℚ} {r d : ℕ → ℚ} (h0 : ∀ p, d 0 = dampStep flag alpha 0 (r 0) p)
    (h : ∀ k, d (k + 1) = dampStep flag alpha (k + 1) (r (k + 1)) (d k)) (k : ℕ) : d k = damped flag alpha r k := by
  induction k with
  | zero => rw [h0 0, damped_zero, dampStep, if_pos rfl]
  | succ k ih => rw [h, damped_succ, dampStep, if_neg (Nat.succ_ne_zero k), ih]

theorem damped_congr {flag : Bool} {alpha : ℚ} {r r' : ℕ → ℚ} {k : ℕ} (h : ∀ i ≤ k, r i = r' i) :
    damped flag alpha r k = damped flag alpha r' k := by
  unfold damped
  rw [h k le_rfl, Finset.sum_congr rfl fun j hj => by rw [h j (by have := Finset.mem_range.mp hj; omega)]]

theorem filterVal_step {flag : Bool} {alpha : ℚ} {k : ℕ} {r p : ℚ} {o : Num}
    (h : k ≠ 0 → flag = true ∧ alpha ≠ 0 → o = fin p) :
    filterVal flag alpha k (fin r) o = fin (dampStep flag alpha k r p) := by
  unfold filterVal dampStep
  by_cases hf : flag ∧ alpha ≠ 0
  · rw [if_pos hf, if_pos hf]
    by_cases hk : k = 0
    · rw [if_pos hk, if_pos hk, fin_mul, mul_comm]
    · rw [if_neg hk, if_neg hk, h hk hf, fin_mul, fin_mul, fin_add, mul_comm r, mul_comm p]
  · rw [if_neg hf, if_neg hf]

/-- One filtering step: the output is finite and damped, the memory equals the output (when damping is on). -/
theorem processFiltering_step {rows n : ℕ} {flag : Bool} {alpha : ℚ} {k : ℕ} {dummy : Mat Num} {s : Mat Num × Mat Num}
    {r p : ℕ → ℕ → ℚ} (hd : dummy.Is rows n r) (hu : s.1.rows = rows) (huc : s.1.cols = n) (ho : rows ≤ s.2.rows)
    (hoc : s.2.cols = n) (hp : k ≠ 0 → flag = true ∧ alpha ≠ 0 → ∀ e < rows, ∀ i < n, s.2.data e i = fin (p e i)) :
    ∃ s' : Mat Num × Mat Num, processFiltering rows flag alpha k dummy s = some s' ∧
      s'.1.Is rows n (fun e i => dampStep flag alpha k (r e i) (p e i)) ∧ s'.2.rows = s.2.rows ∧ s'.2.cols = n ∧
      (flag = true ∧ alpha ≠ 0 → ∀ e < rows, ∀ i < n, s'.2.data e i = s'.1.data e i) := by
  obtain ⟨s', h1, h2, h3, h4, h5, h6, h7, h8⟩ := processFiltering_spec (rows := rows) (flag := flag) (alpha := alpha) (iter := k)
    (dummy := dummy) (s := s) (n := n) (by rw [hd.1]) (by omega) ho hd.2.1 huc hoc
  refine ⟨s', h1, ⟨by omega, h3, fun e he i hi => ?_⟩, h4, h5, fun hf e he i hi => ?_⟩
  · rw [h6 e he i hi, hd.2.2 e he i hi]
    exact filterVal_step fun hk hf => hp hk hf e he i hi
  · rw [h7 e he i hi, if_pos hf, h6 e he i hi]

end Verif.Proofs
