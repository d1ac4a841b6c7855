import Verif.Proofs.KsatConstraint
import Mathlib.Tactic.IntervalCases

/-! Property C04: the clause constraint of the k-SAT solver. -/

namespace Verif.Properties
open Verif Num Spec Model Proofs

/-- C04: for every clause length (also `k = 1`, where the message is infinite), every clause message is the exact
min-sum message of "some literal is true", and variables outside the clause get zero.  Nothing depends on the old
contents of the output. -/
theorem C04_clause_messages_exact {C k n : ℕ} {x : ℕ → ℕ → ℚ} {V old : Mat Num} {conx : Mat ℕ} {ty : Mat ℤ}
    (hV : V.Is C n x) (ht : ClauseTables C k n conx ty) (hr : old.rows = C) (hc : old.cols = n) :
    ∃ out, ksatToVariableUpdate C k V old conx ty = some out ∧ out.rows = C ∧ out.cols = n ∧
      ∀ c < C, (∀ s < k, IsMessage (clauseVars k (conx.data c)) (ClauseSat k (conx.data c) (ty.data c)) (x c)
          (conx.data c s) (out.data c (conx.data c s))) ∧
        ∀ j, j ∉ clauseVars k (conx.data c) → out.data c j = fin 0 := by
  obtain ⟨out, h1, h2, h3, h4⟩ := ksatToVariableUpdate_lit hV ht hr hc
  refine ⟨out, h1, h2, h3, fun c hc => ⟨fun s hs => ?_, fun j hj => ?_⟩⟩
  · obtain ⟨mu, ⟨a, b, ha, hb, rfl⟩, he⟩ := (h4 c hc).1 s hs
    rw [he]
    exact clause_lift (ht.conx_inj c hc) (ht.sign c hc) (fun j _ => rfl) hs ha hb
  · refine (h4 c hc).2 j (fun s hs e => hj ?_)
    rw [clauseVars, Finset.mem_image]
    exact ⟨s, by simpa using hs, e⟩

/-- C04, consequences for `k ≥ 2`: clause messages are finite, push the variable towards satisfying the clause
(non-positive for a positive literal, non-negative for a negated one), and are never larger in magnitude than the
incoming message of any other variable of the clause. -/
theorem C04_clause_messages_push {C k n : ℕ} {x : ℕ → ℕ → ℚ} {V old out : Mat Num} {conx : Mat ℕ} {ty : Mat ℤ}
    (hV : V.Is C n x) (ht : ClauseTables C k n conx ty) (hr : old.rows = C) (hc : old.cols = n) (hk : 2 ≤ k)
    (hout : ksatToVariableUpdate C k V old conx ty = some out) {c s : ℕ} (hcC : c < C) (hs : s < k) :
    ∃ q, out.data c (conx.data c s) = fin q ∧ (ty.data c s = 1 → q ≤ 0) ∧ (ty.data c s = -1 → 0 ≤ q) ∧
      ∀ s' < k, s' ≠ s → |q| ≤ |x c (conx.data c s')| := by
  obtain ⟨out', h1, h2, h3, h4⟩ := ksatToVariableUpdate_lit hV ht hr hc
  obtain rfl : out = out' := by rw [hout] at h1; exact Option.some.inj h1
  obtain ⟨mu, hmu, he⟩ := (h4 c hcC).1 s hs
  obtain ⟨q, hq, rfl⟩ := hmu.closed hs hk
  refine ⟨min (-q) 0 * (ty.data c s : ℚ), by rw [he, fin_mul], ?_, ?_, ?_⟩
  · intro h; rw [h]; simp
  · intro h; rw [h]; simp
  · intro s' hs' hne
    have h5 := hq.2 ⟨s', hs', hne, rfl⟩
    have h6 : |min (-q) 0 * (ty.data c s : ℚ)| = |min (-q) 0| := by
      rw [abs_mul]; rcases ht.sign c hcC s hs with h | h <;> simp [h]
    have h7 : |litVal x conx ty c s'| = |x c (conx.data c s')| := by
      rw [litVal, abs_mul]; rcases ht.sign c hcC s' hs' with h | h <;> simp [h]
    rw [h6, ← h7]
    rcases le_total q 0 with h | h
    · rw [min_eq_right (by linarith)]; simp
    · rw [min_eq_left (by linarith), abs_neg, abs_of_nonneg h]
      exact h5.trans (le_abs_self _)

/-- C04: the message to a variable does not depend on the variable's own incoming message. -/
theorem C04_clause_message_extrinsic {C k n : ℕ} {x y : ℕ → ℕ → ℚ} {V W oldV oldW a b : Mat Num} {conx : Mat ℕ}
    {ty : Mat ℤ} (hV : V.Is C n x) (hW : W.Is C n y) (ht : ClauseTables C k n conx ty) (hk : 2 ≤ k)
    (hrv : oldV.rows = C) (hcv : oldV.cols = n) (hrw : oldW.rows = C) (hcw : oldW.cols = n)
    (ha : ksatToVariableUpdate C k V oldV conx ty = some a) (hb : ksatToVariableUpdate C k W oldW conx ty = some b)
    {c s : ℕ} (hcC : c < C) (hs : s < k)
    (hxy : ∀ s' < k, s' ≠ s → x c (conx.data c s') = y c (conx.data c s')) :
    a.data c (conx.data c s) = b.data c (conx.data c s) := by
  obtain ⟨a', h1, -, -, h4⟩ := ksatToVariableUpdate_lit hV ht hrv hcv
  obtain rfl : a = a' := by rw [ha] at h1; exact Option.some.inj h1
  obtain ⟨b', g1, -, -, g4⟩ := ksatToVariableUpdate_lit hW ht hrw hcw
  obtain rfl : b = b' := by rw [hb] at g1; exact Option.some.inj g1
  obtain ⟨mu, hmu, he⟩ := (h4 c hcC).1 s hs
  obtain ⟨nu, hnu, hf⟩ := (g4 c hcC).1 s hs
  obtain ⟨q, hq, rfl⟩ := hmu.closed hs hk
  obtain ⟨r, hr, rfl⟩ := hnu.closed hs hk
  have e : {q | ∃ j < k, j ≠ s ∧ litVal x conx ty c j = q} = {q | ∃ j < k, j ≠ s ∧ litVal y conx ty c j = q} := by
    ext q; simp only [Set.mem_ofPred_eq]
    constructor
    · rintro ⟨j, hj, hne, rfl⟩; exact ⟨j, hj, hne, by rw [litVal, litVal, hxy j hj hne]⟩
    · rintro ⟨j, hj, hne, rfl⟩; exact ⟨j, hj, hne, by rw [litVal, litVal, hxy j hj hne]⟩
  rw [e] at hq
  rw [he, hf, hq.unique hr]

/-- A two-clause formula over four variables: `x3 ∨ ¬x0 ∨ x1` and `¬x1 ∨ x2 ∨ ¬x3`. -/
def exConx : Mat ℕ := ⟨2, 3, fun c s => if c = 0 then (if s = 0 then 3 else if s = 1 then 0 else 1) else s + 1⟩
def exType : Mat ℤ := ⟨2, 3, fun c s => if (c + s) % 2 = 0 then 1 else -1⟩

theorem exTables : ClauseTables 2 3 4 exConx exType := by
  refine ⟨rfl, rfl, rfl, rfl, by decide, by decide, by decide⟩

/-- Non-trivial instance of the hypotheses with the computed messages. -/
example : ClauseTables 2 3 4 exConx exType ∧
    (ksatToVariableUpdate 2 3 (Mat.ofRat 2 4 (fun c v => (v : ℚ) + 2 - 9 * c)) (Mat.fill 2 4 (fin 7)) exConx exType).map
      (fun o => (o.data 0 3, o.data 0 0, o.data 0 1, o.data 0 2)) = some (fin 0, fin 3, fin 0, fin 0) := by
  refine ⟨exTables, by decide +kernel⟩

end Verif.Properties
