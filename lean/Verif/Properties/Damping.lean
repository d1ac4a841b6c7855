import Verif.Proofs.Filter
import Mathlib.Tactic.NormNum

/-! Property C08: damping. -/

namespace Verif.Properties
open Verif Num Spec Model Proofs

/-- C08: after iteration `K` of a run (iterations count from 0) every entry is the exponentially smoothed value of the
raw messages of this run; with damping off or rate 0 it is the last raw message.  The tables `s` found at the start of
the run (leftovers of an earlier run, of any content, even NaN, and with possibly more rows) play no role. -/
theorem C08_damping_closed_form {rows n : ℕ} {flag : Bool} {alpha : ℚ} {raw : ℕ → Mat Num} {r : ℕ → ℕ → ℕ → ℚ}
    {s : Mat Num × Mat Num} (hraw : ∀ k, (raw k).Is rows n (r k)) (hu : rows ≤ s.1.rows) (ho : rows ≤ s.2.rows)
    (huc : s.1.cols = n) (hoc : s.2.cols = n) (K : ℕ) :
    ∃ s' : Mat Num × Mat Num, filterRun rows flag alpha raw (K + 1) s = some s' ∧
      ∀ e < rows, ∀ i < n,
        (flag = true → alpha ≠ 0 →
          s'.1.data e i = fin ((1 - alpha) * ((Finset.range (K + 1)).sum fun j => alpha ^ (K - j) * r j e i))) ∧
        (flag = false ∨ alpha = 0 → s'.1.data e i = fin (r K e i)) := by
  obtain ⟨s', h1, -, -, h4⟩ := filterRun_spec (flag := flag) (alpha := alpha) hraw hu ho huc hoc K
  refine ⟨s', h1, fun e he i hi => ⟨fun hf ha => ?_, fun h => ?_⟩⟩
  · rw [h4 e he i hi, damped, if_pos ⟨hf, ha⟩]
  · rw [h4 e he i hi, damped, if_neg]
    rintro ⟨hf, ha⟩
    rcases h with h | h
    · rw [hf] at h; exact absurd h (by decide)
    · exact ha h

/-- C08: the tables left by an earlier run do not influence the messages of this run. -/
theorem C08_damping_forgets {rows n : ℕ} {flag : Bool} {alpha : ℚ} {raw : ℕ → Mat Num} {r : ℕ → ℕ → ℕ → ℚ}
    {s t s' t' : Mat Num × Mat Num} (hraw : ∀ k, (raw k).Is rows n (r k)) (hs : rows ≤ s.1.rows ∧ rows ≤ s.2.rows)
    (ht : rows ≤ t.1.rows ∧ rows ≤ t.2.rows) (hsc : s.1.cols = n ∧ s.2.cols = n) (htc : t.1.cols = n ∧ t.2.cols = n) {K : ℕ}
    (h1 : filterRun rows flag alpha raw (K + 1) s = some s') (h2 : filterRun rows flag alpha raw (K + 1) t = some t')
    {e i : ℕ} (he : e < rows) (hi : i < n) : s'.1.data e i = t'.1.data e i := by
  obtain ⟨a, a1, -, -, a4⟩ := filterRun_spec (flag := flag) (alpha := alpha) hraw hs.1 hs.2 hsc.1 hsc.2 K
  obtain ⟨b, b1, -, -, b4⟩ := filterRun_spec (flag := flag) (alpha := alpha) hraw ht.1 ht.2 htc.1 htc.2 K
  obtain rfl : s' = a := by rw [h1] at a1; exact Option.some.inj a1
  obtain rfl : t' = b := by rw [h2] at b1; exact Option.some.inj b1
  rw [a4 e he i hi, b4 e he i hi]

/-- C08: for `0 ≤ alpha ≤ 1` the damped message stays in any interval that contains 0 and the raw messages so far. -/
theorem C08_damping_range {rows n : ℕ} {flag : Bool} {alpha : ℚ} {raw : ℕ → Mat Num} {r : ℕ → ℕ → ℕ → ℚ}
    {s s' : Mat Num × Mat Num} (hraw : ∀ k, (raw k).Is rows n (r k)) (hu : rows ≤ s.1.rows) (ho : rows ≤ s.2.rows)
    (huc : s.1.cols = n) (hoc : s.2.cols = n) {K : ℕ} (h : filterRun rows flag alpha raw (K + 1) s = some s')
    (h0 : 0 ≤ alpha) (h1 : alpha ≤ 1) {e i : ℕ} (he : e < rows) (hi : i < n) {lo hi' : ℚ} (hlo : lo ≤ 0) (hhi : 0 ≤ hi')
    (hr : ∀ j ≤ K, lo ≤ r j e i ∧ r j e i ≤ hi') : ∃ q, s'.1.data e i = fin q ∧ lo ≤ q ∧ q ≤ hi' := by
  obtain ⟨a, a1, -, -, a4⟩ := filterRun_spec (flag := flag) (alpha := alpha) hraw hu ho huc hoc K
  obtain rfl : s' = a := by rw [h] at a1; exact Option.some.inj a1
  exact ⟨_, a4 e he i hi, damped_range h0 h1 hlo hhi hr⟩

/-- C08 for the departments: the knapsack code filters one row (department `e`) at a time; a run of calls for that row
gives the smoothed raw messages of the row and leaves the rows of the other departments alone. -/
theorem C08_damping_department {D n : ℕ} {flag : Bool} {alpha : ℚ} {raw : ℕ → Mat Num} {r : ℕ → ℕ → ℕ → ℚ}
    {s : Mat Num × Mat Num} (hraw : ∀ k, (raw k).Is D n (r k)) (hu : s.1.rows = D) (ho : s.2.rows = D)
    (huc : s.1.cols = n) (hoc : s.2.cols = n) {e : ℕ} (he : e < D) (K : ℕ) :
    ∃ s' : Mat Num × Mat Num, loopUp (K + 1) (fun iter s => filterAt flag alpha iter (raw iter) e s) s = some s' ∧
      (∀ i < n, s'.1.data e i = fin (damped flag alpha (fun j => r j e i) K)) ∧
      ∀ d, d ≠ e → ∀ i, s'.1.data d i = s.1.data d i := by
  obtain ⟨s', h1, h2, h3, h4, h5, h6, h7, h8⟩ := loopUp_inv (n := K + 1)
    (body := fun iter s => filterAt flag alpha iter (raw iter) e s) (s := s)
    (fun k s' => s'.1.rows = D ∧ s'.1.cols = n ∧ s'.2.rows = D ∧ s'.2.cols = n ∧
      (∀ i < n, Remembers flag alpha (fun j => r j e i) k (s'.2.data e i)) ∧
      (∀ j, k = j + 1 → ∀ i < n, s'.1.data e i = fin (damped flag alpha (fun j => r j e i) j)) ∧
      ∀ d, d ≠ e → ∀ i, s'.1.data d i = s.1.data d i)
    ⟨hu, huc, ho, hoc, fun i _ j hj => absurd hj (by omega), fun j hj => absurd hj (by omega), fun _ _ _ => rfl⟩
    (by
      rintro k hk t ⟨t1, t2, t3, t4, t5, -, t7⟩
      obtain ⟨t', p1, p2, p3, p4, p5, p6, p7, p8⟩ := filterAt_spec (flag := flag) (alpha := alpha) (iter := k) (e := e)
        (dummy := raw k) (s := t) (n := n) (by rw [(hraw k).1]; exact he) (by omega) (by omega) (hraw k).2.1 t2 t4
      have key : ∀ i < n, filterVal flag alpha k ((raw k).data e i) (t.2.data e i) =
          fin (damped flag alpha (fun j => r j e i) k) := fun i hi => by
        rw [(hraw k).2.2 e he i hi]; exact filterVal_damped (r := fun j => r j e i) (t5 i hi)
      refine ⟨t', p1, by omega, p3, by omega, p5, ?_, ?_, ?_⟩
      · intro i hi j hj hf
        obtain rfl : j = k := by omega
        rw [p7 i hi, if_pos hf, key i hi]
      · intro j hj i hi
        obtain rfl : j = k := by omega
        rw [p6 i hi, key i hi]
      · intro d hd i; rw [(p8 d hd i).1]; exact t7 d hd i)
  exact ⟨s', h1, h7 K rfl, h8⟩

/-- Non-trivial case: two rows, rate 1/2, raw messages that change with the iteration, garbage (NaN) in the tables. -/
example : ∃ s' : Mat Num × Mat Num, filterRun 2 true (1/2) (fun k => Mat.ofRat 2 3 (fun e i => e + i * (k + 1))) 3
    (Mat.fill 2 3 nan, Mat.fill 5 3 nan) = some s' ∧ s'.1.data 1 2 = fin (41/8) := by
  obtain ⟨s', h1, h2⟩ := C08_damping_closed_form (rows := 2) (n := 3) (flag := true) (alpha := 1/2)
    (raw := fun k => Mat.ofRat 2 3 (fun e i => e + i * (k + 1))) (r := fun k e i => e + i * (k + 1))
    (s := (Mat.fill 2 3 nan, Mat.fill 5 3 nan)) (fun k => Mat.ofRat_is _ _ _) (by decide) (by decide) rfl rfl 2
  refine ⟨s', h1, ?_⟩
  rw [(h2 1 (by omega) 2 (by omega)).1 rfl (by decide +kernel)]
  norm_num [Finset.sum_range_succ]

end Verif.Properties
