import Verif.Model.Filter
import Verif.Spec.Damping
import Mathlib.Algebra.Order.BigOperators.Group.Finset
import Mathlib.Algebra.Order.Field.Rat
import Mathlib.Algebra.BigOperators.Ring.Finset
import Mathlib.Tactic.Ring
import Mathlib.Tactic.Linarith

/-! # Damping -/

namespace Verif.Proofs
open Verif Num Spec Model

theorem damped_zero (flag : Bool) (alpha : ℚ) (r : ℕ → ℚ) :
    damped flag alpha r 0 = if flag ∧ alpha ≠ 0 then (1 - alpha) * r 0 else r 0 := by
  simp [damped]

theorem damped_succ (flag : Bool) (alpha : ℚ) (r : ℕ → ℚ) (k : ℕ) :
    damped flag alpha r (k + 1) =
      if flag ∧ alpha ≠ 0 then (1 - alpha) * r (k + 1) + alpha * damped flag alpha r k else r (k + 1) := by
  unfold damped
  by_cases h : flag ∧ alpha ≠ 0
  · simp only [if_pos h]
    rw [Finset.sum_range_succ]
    have : ((Finset.range (k + 1)).sum fun j => alpha ^ (k + 1 - j) * r j) =
        alpha * ((Finset.range (k + 1)).sum fun j => alpha ^ (k - j) * r j) := by
      rw [Finset.mul_sum]
      apply Finset.sum_congr rfl
      intro j hj
      rw [Finset.mem_range] at hj
      rw [show k + 1 - j = (k - j) + 1 by omega, pow_succ]; ring
    rw [this]; simp; ring
  · simp only [if_neg h]

theorem damped_range {flag : Bool} {alpha : ℚ} (h0 : 0 ≤ alpha) (h1 : alpha ≤ 1) {r : ℕ → ℚ} {lo hi : ℚ} (hlo : lo ≤ 0)
    (hhi : 0 ≤ hi) {k : ℕ} (hr : ∀ j ≤ k, lo ≤ r j ∧ r j ≤ hi) :
    lo ≤ damped flag alpha r k ∧ damped flag alpha r k ≤ hi := by
  induction k with
  | zero =>
    rw [damped_zero]
    obtain ⟨a, b⟩ := hr 0 le_rfl
    split_ifs
    · constructor <;> nlinarith
    · exact ⟨a, b⟩
  | succ k ih =>
    rw [damped_succ]
    obtain ⟨a, b⟩ := hr (k + 1) le_rfl
    obtain ⟨c, d⟩ := ih (fun j hj => hr j (by omega))
    split_ifs
    · constructor <;> nlinarith
    · exact ⟨a, b⟩

/-- The value filtering computes for one entry. -/
def filterVal (flag : Bool) (alpha : ℚ) (iter : ℕ) (d o : Num) : Num :=
  if flag ∧ alpha ≠ 0 then (if iter = 0 then d * fin (1 - alpha) else d * fin (1 - alpha) + o * fin alpha) else d

theorem filterRow_spec {flag : Bool} {alpha : ℚ} {iter : ℕ} {n : ℕ} {d u o : Arr Num} (hd : d.size = n) (hu : u.size = n)
    (ho : o.size = n) :
    ∃ u' o', filterRow flag alpha iter d u o = some (u', o') ∧ u'.size = n ∧ o'.size = n ∧
      (∀ i < n, u'.data i = filterVal flag alpha iter (d.data i) (o.data i)) ∧
      ∀ i < n, o'.data i = if flag ∧ alpha ≠ 0 then filterVal flag alpha iter (d.data i) (o.data i) else o.data i := by
  by_cases h : flag ∧ alpha ≠ 0
  · by_cases h0 : iter = 0
    · have e1 : (Arr.scale (fin (1 - alpha)) d).copyTo u =
          some ⟨u.size, fun i => if i < d.size then d.data i * fin (1 - alpha) else u.data i⟩ := by
        unfold Arr.copyTo; exact if_pos (show d.size ≤ u.size by omega)
      have e2 : (⟨u.size, fun i => if i < d.size then d.data i * fin (1 - alpha) else u.data i⟩ : Arr Num).copyTo o =
          some ⟨o.size, fun i => if i < u.size then (if i < d.size then d.data i * fin (1 - alpha) else u.data i)
            else o.data i⟩ := by
        simp only [Arr.copyTo]; rw [if_pos (by omega)]
      refine ⟨⟨u.size, fun i => if i < d.size then d.data i * fin (1 - alpha) else u.data i⟩,
        ⟨o.size, fun i => if i < u.size then (if i < d.size then d.data i * fin (1 - alpha) else u.data i)
            else o.data i⟩, ?_, hu, ho, ?_, ?_⟩
      · simp only [filterRow, if_pos h, if_pos h0, e1, e2, Option.bind_eq_bind, Option.bind_some]
      · intro i hi
        simp only [filterVal, if_pos h, if_pos h0, if_pos (show i < d.size by omega)]
      · intro i hi
        simp only [filterVal, if_pos h, if_pos h0, if_pos (show i < d.size by omega), if_pos (show i < u.size by omega)]
    · have e0 : (Arr.scale (fin (1 - alpha)) d).addTo (Arr.scale (fin alpha) o) (Arr.fill (Arr.scale (fin (1 - alpha)) d).size 0) =
          some ⟨d.size, fun i => if i < d.size then d.data i * fin (1 - alpha) + o.data i * fin alpha else 0⟩ := by
        unfold Arr.addTo; exact if_pos (show d.size ≤ o.size ∧ d.size ≤ d.size by omega)
      have e1 : (⟨d.size, fun i => if i < d.size then d.data i * fin (1 - alpha) + o.data i * fin alpha else 0⟩ : Arr Num).copyTo u =
          some ⟨u.size, fun i => if i < d.size then d.data i * fin (1 - alpha) + o.data i * fin alpha else u.data i⟩ := by
        simp only [Arr.copyTo]; rw [if_pos (by omega)]
        congr 2; funext i; split_ifs <;> rfl
      have e2 : (⟨u.size, fun i => if i < d.size then d.data i * fin (1 - alpha) + o.data i * fin alpha else u.data i⟩ : Arr Num).copyTo o =
          some ⟨o.size, fun i => if i < u.size then (if i < d.size then d.data i * fin (1 - alpha) + o.data i * fin alpha else u.data i)
            else o.data i⟩ := by
        simp only [Arr.copyTo]; rw [if_pos (by omega)]
      refine ⟨⟨u.size, fun i => if i < d.size then d.data i * fin (1 - alpha) + o.data i * fin alpha else u.data i⟩,
        ⟨o.size, fun i => if i < u.size then (if i < d.size then d.data i * fin (1 - alpha) + o.data i * fin alpha else u.data i)
            else o.data i⟩, ?_, hu, ho, ?_, ?_⟩
      · simp only [filterRow, if_pos h, if_neg h0, e0, e1, e2, Option.bind_eq_bind, Option.bind_some]
      · intro i hi
        simp only [filterVal, if_pos h, if_neg h0, if_pos (show i < d.size by omega)]
      · intro i hi
        simp only [filterVal, if_pos h, if_neg h0, if_pos (show i < d.size by omega), if_pos (show i < u.size by omega)]
  · have e1 : d.copyTo u = some ⟨u.size, fun i => if i < d.size then d.data i else u.data i⟩ := by
      simp only [Arr.copyTo]; rw [if_pos (by omega)]
    refine ⟨⟨u.size, fun i => if i < d.size then d.data i else u.data i⟩, o, ?_, hu, ho, ?_, ?_⟩
    · simp only [filterRow, if_neg h, e1, Option.bind_eq_bind, Option.bind_some]
    · intro i hi
      simp only [filterVal, if_neg h, if_pos (show i < d.size by omega)]
    · intro i hi
      simp only [if_neg h]

/-- Filtering one row changes that row only. -/
theorem filterAt_spec {flag : Bool} {alpha : ℚ} {iter e n : ℕ} {dummy : Mat Num} {s : Mat Num × Mat Num}
    (hd : e < dummy.rows) (hu : e < s.1.rows) (ho : e < s.2.rows) (hdc : dummy.cols = n) (huc : s.1.cols = n)
    (hoc : s.2.cols = n) :
    ∃ s' : Mat Num × Mat Num, filterAt flag alpha iter dummy e s = some s' ∧ s'.1.rows = s.1.rows ∧ s'.1.cols = n ∧
      s'.2.rows = s.2.rows ∧ s'.2.cols = n ∧
      (∀ i < n, s'.1.data e i = filterVal flag alpha iter (dummy.data e i) (s.2.data e i)) ∧
      (∀ i < n, s'.2.data e i = if flag ∧ alpha ≠ 0 then filterVal flag alpha iter (dummy.data e i) (s.2.data e i)
        else s.2.data e i) ∧
      ∀ k, k ≠ e → ∀ i, s'.1.data k i = s.1.data k i ∧ s'.2.data k i = s.2.data k i := by
  obtain ⟨u', o', h1, h2, h3, h4, h5⟩ := filterRow_spec (flag := flag) (alpha := alpha) (iter := iter)
    (d := ⟨dummy.cols, dummy.data e⟩) (u := ⟨s.1.cols, s.1.data e⟩) (o := ⟨s.2.cols, s.2.data e⟩) hdc huc hoc
  refine ⟨(⟨s.1.rows, s.1.cols, fun k l => if k = e then u'.data l else s.1.data k l⟩,
    ⟨s.2.rows, s.2.cols, fun k l => if k = e then o'.data l else s.2.data k l⟩), ?_, rfl, huc, rfl, hoc, ?_, ?_, ?_⟩
  · simp only [filterAt, Mat.rdRow_of_lt hd, Mat.rdRow_of_lt hu, Mat.rdRow_of_lt ho, Option.bind_eq_bind, Option.bind_some,
      h1, Mat.wrRow_of_lt hu (show u'.size = s.1.cols by omega), Mat.wrRow_of_lt ho (show o'.size = s.2.cols by omega)]
  · intro i hi; simpa using h4 i hi
  · intro i hi; simpa using h5 i hi
  · intro k hk i; simp [hk]

/-- Filtering of `rows` rows, entry by entry. -/
theorem processFiltering_spec {rows : ℕ} {flag : Bool} {alpha : ℚ} {iter n : ℕ} {dummy : Mat Num} {s : Mat Num × Mat Num}
    (hd : rows ≤ dummy.rows) (hu : rows ≤ s.1.rows) (ho : rows ≤ s.2.rows) (hdc : dummy.cols = n) (huc : s.1.cols = n)
    (hoc : s.2.cols = n) :
    ∃ s' : Mat Num × Mat Num, processFiltering rows flag alpha iter dummy s = some s' ∧ s'.1.rows = s.1.rows ∧ s'.1.cols = n ∧
      s'.2.rows = s.2.rows ∧ s'.2.cols = n ∧
      (∀ e < rows, ∀ i < n, s'.1.data e i = filterVal flag alpha iter (dummy.data e i) (s.2.data e i)) ∧
      (∀ e < rows, ∀ i < n, s'.2.data e i = if flag ∧ alpha ≠ 0 then
        filterVal flag alpha iter (dummy.data e i) (s.2.data e i) else s.2.data e i) ∧
      ∀ k, rows ≤ k → ∀ i, s'.1.data k i = s.1.data k i ∧ s'.2.data k i = s.2.data k i := by
  obtain ⟨s', h1, h2, h3, h4, h5, h6, h7, h8⟩ := loopUp_inv (n := rows) (body := filterAt flag alpha iter dummy) (s := s)
    (fun r s' => s'.1.rows = s.1.rows ∧ s'.1.cols = n ∧ s'.2.rows = s.2.rows ∧ s'.2.cols = n ∧
      (∀ e < r, ∀ i < n, s'.1.data e i = filterVal flag alpha iter (dummy.data e i) (s.2.data e i)) ∧
      (∀ e < r, ∀ i < n, s'.2.data e i = if flag ∧ alpha ≠ 0 then
        filterVal flag alpha iter (dummy.data e i) (s.2.data e i) else s.2.data e i) ∧
      ∀ k, r ≤ k → ∀ i, s'.1.data k i = s.1.data k i ∧ s'.2.data k i = s.2.data k i)
    ⟨rfl, huc, rfl, hoc, fun e he => absurd he (by omega), fun e he => absurd he (by omega), fun _ _ _ => ⟨rfl, rfl⟩⟩
    (by
      rintro r hr t ⟨t1, t2, t3, t4, t5, t6, t7⟩
      obtain ⟨t', p1, p2, p3, p4, p5, p6, p7, p8⟩ := filterAt_spec (flag := flag) (alpha := alpha) (iter := iter) (e := r)
        (dummy := dummy) (s := t) (n := n) (by omega) (by omega) (by omega) hdc t2 t4
      refine ⟨t', p1, by omega, p3, by omega, p5, ?_, ?_, ?_⟩
      · intro e he i hi
        by_cases h : e = r
        · subst h; rw [p6 i hi, (t7 e le_rfl i).2]
        · rw [(p8 e h i).1]; exact t5 e (by omega) i hi
      · intro e he i hi
        by_cases h : e = r
        · subst h; rw [p7 i hi, (t7 e le_rfl i).2]
        · rw [(p8 e h i).2]; exact t6 e (by omega) i hi
      · intro k hk i
        rw [(p8 k (by omega) i).1, (p8 k (by omega) i).2]
        exact t7 k (by omega) i)
  exact ⟨s', h1, h2, h3, h4, h5, h6, h7, h8⟩

/-- The remembered entry that filtering relies on at iteration `k` (nothing is relied on at iteration 0). -/
def Remembers (flag : Bool) (alpha : ℚ) (r : ℕ → ℚ) (k : ℕ) (o : Num) : Prop :=
  ∀ j, k = j + 1 → flag = true ∧ alpha ≠ 0 → o = fin (damped flag alpha r j)

theorem filterVal_damped {flag : Bool} {alpha : ℚ} {r : ℕ → ℚ} {k : ℕ} {o : Num} (h : Remembers flag alpha r k o) :
    filterVal flag alpha k (fin (r k)) o = fin (damped flag alpha r k) := by
  unfold filterVal
  cases k with
  | zero =>
    rw [damped_zero]
    by_cases h : flag ∧ alpha ≠ 0
    · rw [if_pos h, if_pos h, if_pos rfl, fin_mul, mul_comm]
    · rw [if_neg h, if_neg h]
  | succ k =>
    rw [damped_succ]
    by_cases h' : flag ∧ alpha ≠ 0
    · rw [if_pos h', if_pos h', if_neg (by omega), h k rfl h', fin_mul, fin_mul, fin_add, mul_comm (r _), mul_comm (damped _ _ _ _)]
    · rw [if_neg h', if_neg h']

/-- One filtering step of a run: the output is the damped value and the table remembers it. -/
theorem processFiltering_damped {rows : ℕ} {flag : Bool} {alpha : ℚ} {k n : ℕ} {dummy : Mat Num} {s : Mat Num × Mat Num}
    {r : ℕ → ℕ → ℕ → ℚ} (hd : dummy.rows = rows) (hu : rows ≤ s.1.rows) (ho : rows ≤ s.2.rows) (hdc : dummy.cols = n)
    (huc : s.1.cols = n) (hoc : s.2.cols = n) (hr : ∀ e < rows, ∀ i < n, dummy.data e i = fin (r k e i))
    (hrem : ∀ e < rows, ∀ i < n, Remembers flag alpha (fun j => r j e i) k (s.2.data e i)) :
    ∃ s' : Mat Num × Mat Num, processFiltering rows flag alpha k dummy s = some s' ∧ s'.1.rows = s.1.rows ∧ s'.1.cols = n ∧
      s'.2.rows = s.2.rows ∧ s'.2.cols = n ∧
      (∀ e < rows, ∀ i < n, s'.1.data e i = fin (damped flag alpha (fun j => r j e i) k)) ∧
      (∀ e < rows, ∀ i < n, Remembers flag alpha (fun j => r j e i) (k + 1) (s'.2.data e i)) ∧
      ∀ e, rows ≤ e → ∀ i, s'.1.data e i = s.1.data e i := by
  obtain ⟨s', h1, h2, h3, h4, h5, h6, h7, h8⟩ := processFiltering_spec (rows := rows) (flag := flag) (alpha := alpha) (iter := k)
    (dummy := dummy) (s := s) (n := n) (by omega) hu ho hdc huc hoc
  refine ⟨s', h1, h2, h3, h4, h5, ?_, ?_, fun e he i => (h8 e he i).1⟩
  · intro e he i hi
    rw [h6 e he i hi, hr e he i hi]
    exact filterVal_damped (r := fun j => r j e i) (hrem e he i hi)
  · intro e he i hi j hj hf
    obtain rfl : j = k := by omega
    rw [h7 e he i hi, if_pos hf, hr e he i hi]
    exact filterVal_damped (r := fun j => r j e i) (hrem e he i hi)

/-- A whole run. -/
theorem filterRun_spec {rows n : ℕ} {flag : Bool} {alpha : ℚ} {raw : ℕ → Mat Num} {r : ℕ → ℕ → ℕ → ℚ} {s : Mat Num × Mat Num}
    (hraw : ∀ k, (raw k).Is rows n (r k)) (hu : rows ≤ s.1.rows) (ho : rows ≤ s.2.rows) (huc : s.1.cols = n)
    (hoc : s.2.cols = n) (K : ℕ) :
    ∃ s' : Mat Num × Mat Num, filterRun rows flag alpha raw (K + 1) s = some s' ∧ s'.1.rows = s.1.rows ∧ s'.1.cols = n ∧
      ∀ e < rows, ∀ i < n, s'.1.data e i = fin (damped flag alpha (fun j => r j e i) K) := by
  obtain ⟨s', h1, h2, h3, h4, h5, h6, h7⟩ := loopUp_inv (n := K + 1)
    (body := fun iter s => processFiltering rows flag alpha iter (raw iter) s) (s := s)
    (fun k s' => s'.1.rows = s.1.rows ∧ s'.1.cols = n ∧ s'.2.rows = s.2.rows ∧ s'.2.cols = n ∧
      (∀ e < rows, ∀ i < n, Remembers flag alpha (fun j => r j e i) k (s'.2.data e i)) ∧
      ∀ j, k = j + 1 → ∀ e < rows, ∀ i < n, s'.1.data e i = fin (damped flag alpha (fun j => r j e i) j))
    ⟨rfl, huc, rfl, hoc, fun e _ i _ j hj => absurd hj (by omega), fun j hj => absurd hj (by omega)⟩
    (by
      rintro k hk t ⟨t1, t2, t3, t4, t5, -⟩
      obtain ⟨t', p1, p2, p3, p4, p5, p6, p7, -⟩ := processFiltering_damped (flag := flag) (alpha := alpha) (k := k) (s := t) (r := r) (hraw k).1
        (by omega) (by omega) (hraw k).2.1 t2 t4 (fun e he i hi => (hraw k).2.2 e he i hi) t5
      refine ⟨t', p1, by omega, p3, by omega, p5, p7, ?_⟩
      intro j hj e he i hi
      obtain rfl : j = k := by omega
      exact p6 e he i hi)
  exact ⟨s', h1, h2, h3, h7 K rfl⟩

end Verif.Proofs
