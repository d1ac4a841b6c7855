import Verif.Proofs.Growth
import Verif.Properties.KsatStable
import Verif.Properties.TspRun

/-! # C71: how fast messages grow with the number of iterations -/

namespace Verif.Properties
open Verif Num Spec Model

section
variable {n k : ℕ} {t : KsatTables} (hf : KFormula n k t.clauses t.used t.conns) (hk : 2 ≤ k) {flag : Bool} {alpha : ℚ}
include hf hk

/-- C71, k-SAT, upper bound.  If no variable is in more than `D + 1` clauses and no cost exceeds `B` in magnitude, then after `K + 1` iterations with
damping `0 ≤ alpha ≤ 1` no belief exceeds `B (1 + (D + 1)(1 + D + … + D ^ K))` in magnitude. -/
theorem C71_ksat_bound {w : ℕ → ℚ} (ha : flag = true → 0 ≤ alpha ∧ alpha ≤ 1) {B : ℚ} (h0 : 0 ≤ B) (hw : ∀ v ∈ t.used, |w v| ≤ B) {D : ℕ}
    (hD : ∀ v ∈ t.used, ((Finset.range t.clauses.length).filter (fun c => v ∈ varsOf t.clauses c)).card ≤ D + 1) (K : ℕ) : ∃ b : ℕ → ℚ,
    ksatBeliefs (K + 1) flag alpha (ksatObject n k t (listOf n (fun v => fin (w v)))) = some (listOf n (fun v => fin (b v))) ∧
    ∀ v ∈ t.used, |b v| ≤ B * (1 + (D + 1) * ∑ l ∈ Finset.range (K + 1), (D : ℚ) ^ l) := by
  obtain ⟨b, b', h1, h2, h3, -⟩ := C57_beliefs (w' := fun _ => 0) hf hk ha h0 (fun v hv => by rw [sub_zero]; exact hw v hv) hD K
  obtain ⟨x, r, h, hb⟩ := Proofs.call_trace hf hk (fun _ => 0) flag alpha
  have hz := Proofs.zero_trace hf hk h K
  refine ⟨b, h1, fun v hv => ?_⟩
  have hvn := hf.tables.used_lt v hv
  have e : b' v = 0 := by
    rw [hb K] at h2
    have h4 := congrArg (fun l => l.getD v 0) (Option.some.inj h2)
    simp only [listOf, List.getD_eq_getElem?_getD, List.getElem?_map, List.getElem?_range hvn, Option.map_some, Option.getD_some, ite_self,
      add_zero] at h4
    rw [← Num.fin.inj h4]
    refine Finset.sum_eq_zero fun c hc => ?_
    have hm := Finset.mem_filter.mp hc
    rw [Proofs.damped_congr (r' := fun _ => 0) fun i hi => (hz i hi c (Finset.mem_range.mp hm.1) v hm.2).2]
    simp [damped]
  have := h3 v hv
  rwa [e, sub_zero] at this

/-- C71, k-SAT, growth.  If every clause is a rule with one unnegated literal, every variable is unnegated in `d` clauses and all costs are `-c`,
the beliefs after `K + 1` undamped iterations are exactly `-c (1 + d + … + d ^ (K + 1))`. -/
theorem C71_ksat_growth {d : ℕ} (hR : Rules t.clauses t.used d) {c : ℚ} (hc : 0 ≤ c) (hoff : flag = false ∨ alpha = 0) (K : ℕ) :
    ∃ b : ℕ → ℚ, ksatBeliefs (K + 1) flag alpha (ksatObject n k t (listOf n (fun _ => fin (-c)))) = some (listOf n (fun v => fin (b v))) ∧
      ∀ v ∈ t.used, b v = -(c * ∑ l ∈ Finset.range (K + 2), (d : ℚ) ^ l) := by
  obtain ⟨x, r, h, hb⟩ := Proofs.call_trace hf hk (fun _ => -c) flag alpha
  refine ⟨_, hb K, fun v hv => ?_⟩
  rw [if_pos hv]
  have hsum := Proofs.rules_sum hf hk hc hR hoff h K hv
  rw [hsum]
  have := Proofs.level_succ c d K
  unfold Proofs.level at this ⊢
  linarith

/-- C71, k-SAT, no bound: with `d ≥ 2` and `c > 0` the beliefs pass every bound, doubling in each iteration. -/
theorem C71_ksat_unbounded {d : ℕ} (hd : 2 ≤ d) (hR : Rules t.clauses t.used d) {c : ℚ} (hc : 0 < c) (hoff : flag = false ∨ alpha = 0) (K : ℕ) :
    ∃ b : ℕ → ℚ, ksatBeliefs (K + 1) flag alpha (ksatObject n k t (listOf n (fun _ => fin (-c)))) = some (listOf n (fun v => fin (b v))) ∧
      ∀ v ∈ t.used, b v ≤ -(c * 2 ^ (K + 1)) := by
  obtain ⟨b, h1, h2⟩ := C71_ksat_growth hf hk hR hc.le hoff K
  refine ⟨b, h1, fun v hv => ?_⟩
  rw [h2 v hv, neg_le_neg_iff]
  refine mul_le_mul_of_nonneg_left ?_ hc.le
  have h3 : (2 : ℚ) ^ (K + 1) ≤ (d : ℚ) ^ (K + 1) := pow_le_pow_left₀ (by norm_num) (by exact_mod_cast hd) _
  rw [Finset.sum_range_succ]
  have : (0 : ℚ) ≤ ∑ l ∈ Finset.range (K + 1), (d : ℚ) ^ l := Finset.sum_nonneg fun _ _ => by positivity
  linarith

end

section
variable {inp : TspInputs} {w : ℕ → ℚ} {c : ℕ → ℕ → ℚ}

/-- C71, TSP, upper bound.  If no cost and no start message exceeds `B` in magnitude, then after `K` iterations of the relaxed solver with damping
`0 ≤ alpha ≤ 1` no extrinsic output exceeds `2 K B` and no belief exceeds `(2 K + 1) B` in magnitude. -/
theorem C71_tsp_bound (h : TspOk inp w c) (ha : inp.flag = true → 0 ≤ inp.alpha ∧ inp.alpha ≤ 1) {B : ℚ}
    (hw : ∀ e < inp.numEdges, |w e| ≤ B) (hc : ∀ e < inp.numEdges, ∀ v, v = src inp.edges e ∨ v = dst inp.edges e → |c e v| ≤ B)
    {e2d : Mat Num} {x0 : ℕ → ℕ → ℚ} (he : e2d.Is inp.numEdges inp.numNodes x0)
    (hx : ∀ e < inp.numEdges, ∀ v, v = src inp.edges e ∨ v = dst inp.edges e → |x0 e v| ≤ B) (K : ℕ) :
    ∃ (m : TspMsgs) (ext intr : Arr Num) (b b' : ℕ → ℚ),
      tspRelaxed inp K (tspInit inp e2d) (Arr.fill inp.numEdges 0, Arr.fill inp.numEdges 0) = some (m, ext, intr) ∧
      ext.Is inp.numEdges b ∧ intr.Is inp.numEdges b' ∧ ∀ e < inp.numEdges, |b e| ≤ 2 * K * B ∧ |b' e| ≤ (2 * K + 1) * B := by
  obtain ⟨⟨x, r, y, q, ht⟩, hrun⟩ := C12_relaxed_run h he (fun _ _ => 0)
  obtain ⟨m, ext, intr, h1, -, -, h2, h3, -⟩ := hrun x r y q ht K
  refine ⟨m, ext, intr, _, _, h1, h2, h3, fun e hE => ?_⟩
  have hlen := h.len
  have hout : |tspOutput inp.flag inp.alpha inp.edges [] (fun _ _ => 0) (fun _ _ => 0) r q K e| ≤ 2 * K * B := by
    unfold tspOutput
    simp only [cuts, List.length_nil, Finset.range_zero, Finset.filter_empty, Finset.sum_empty, add_zero]
    have hp : ∀ v, v = src inp.edges e ∨ v = dst inp.edges e → |prev inp.flag inp.alpha 0 (fun i => r i e v) K| ≤ K * B := by
      intro v hv
      have hB : 0 ≤ B := (abs_nonneg _).trans (hw e hE)
      cases K with
      | zero => simp [prev]
      | succ K =>
        have hb := fun i hi => (Proofs.relaxed_bound h.edges ha (fun e he => hc e (hlen ▸ he)) (fun e he => hx e (hlen ▸ he)) ht K i hi e
          (by rw [hlen]; exact hE) v hv).2
        have h0 : 0 ≤ ((K : ℚ) + 1) * B := by positivity
        push_cast
        exact abs_le.mpr (Proofs.damped_le ha (by linarith) h0 fun i hi => abs_le.mp (hb i hi))
    have k1 := abs_le.mp (hp _ (Or.inl rfl))
    have k2 := abs_le.mp (hp _ (Or.inr rfl))
    exact abs_le.mpr ⟨by linarith [k1.1, k2.1], by linarith [k1.2, k2.2]⟩
  refine ⟨hout, ?_⟩
  have k1 := abs_le.mp hout
  have k2 := abs_le.mp (hw e hE)
  exact abs_le.mpr ⟨by linarith [k1.1, k2.1], by linarith [k1.2, k2.2]⟩

/-- C71, TSP, growth.  If the edges of disjoint cycles through all nodes cost `p` and all other edges `p + g`, the beliefs after `K + 1` undamped
iterations are `p - (K + 1) g` on the cycles and `p + g + (K + 1) g` elsewhere, minus `2 p + g` after an odd number of iterations. -/
theorem C71_tsp_growth (h : TspOk inp w c) {good : Finset ℕ} (hR : Rounds inp.numNodes inp.edges good) {p g : ℚ} (hg : 0 ≤ g)
    (hw : ∀ e < inp.numEdges, w e = if e ∈ good then p else p + g)
    (hc : ∀ e < inp.numEdges, ∀ v, v = src inp.edges e ∨ v = dst inp.edges e → c e v = if e ∈ good then p else p + g)
    (hoff : inp.flag = false ∨ inp.alpha = 0) {e2d : Mat Num} {x0 : ℕ → ℕ → ℚ} (he : e2d.Is inp.numEdges inp.numNodes x0)
    (hx : ∀ e < inp.numEdges, ∀ v, v = src inp.edges e ∨ v = dst inp.edges e → x0 e v = if e ∈ good then p else p + g) (K : ℕ) :
    ∃ (m : TspMsgs) (ext intr : Arr Num) (b : ℕ → ℚ),
      tspRelaxed inp (K + 1) (tspInit inp e2d) (Arr.fill inp.numEdges 0, Arr.fill inp.numEdges 0) = some (m, ext, intr) ∧ intr.Is inp.numEdges b ∧
      ∀ e < inp.numEdges, b e = (if e ∈ good then p - (K + 1) * g else p + g + (K + 1) * g) - if K % 2 = 0 then 2 * p + g else 0 := by
  obtain ⟨⟨x, r, y, q, ht⟩, hrun⟩ := C12_relaxed_run h he (fun _ _ => 0)
  obtain ⟨m, ext, intr, h1, -, -, -, h3, -⟩ := hrun x r y q ht (K + 1)
  refine ⟨m, ext, intr, _, h1, h3, fun e hE => ?_⟩
  have hlen := h.len
  have hr := Proofs.rounds_trace hg h.edges hR hoff (fun e he => hc e (hlen ▸ he)) (fun e he => hx e (hlen ▸ he)) ht K e (by rw [hlen]; exact hE)
  unfold tspOutput
  simp only [cuts, List.length_nil, Finset.range_zero, Finset.filter_empty, Finset.sum_empty, add_zero, prev]
  rw [Proofs.undamped hoff, Proofs.undamped hoff, hr _ (Or.inl rfl), hr _ (Or.inr rfl), hw e hE]
  unfold Proofs.swing
  split_ifs <;> ring

end

/-! ## Examples -/

/-- Three variables, each implying the two others. -/
def implyFormula : KsatTables :=
  ⟨[0, 1, 2], [[(0, -1), (1, 1)], [(0, -1), (2, 1)], [(1, -1), (0, 1)], [(1, -1), (2, 1)], [(2, -1), (0, 1)], [(2, -1), (1, 1)]],
    [[(0, -1), (1, -1), (2, 1), (4, 1)], [(0, 1), (2, -1), (3, -1), (5, 1)], [(1, 1), (3, 1), (4, -1), (5, -1)]]⟩

theorem implyFormula_ok : KFormula 3 2 implyFormula.clauses implyFormula.used implyFormula.conns := by
  refine ⟨by decide, ⟨fun v c s => ?_, by decide, by decide⟩, rfl, fun v => ?_⟩
  · by_cases hv : v < 3
    · by_cases hc : c < 6
      · interval_cases v <;> interval_cases c <;> simp [implyFormula]
      · have h1 : implyFormula.clauses.getD c [] = [] := by
          rw [List.getD_eq_getElem?_getD, List.getElem?_eq_none (by show 6 ≤ c; omega)]; rfl
        rw [h1]
        interval_cases v <;> simp [implyFormula] <;> omega
    · have h1 : implyFormula.conns.getD v [] = [] := by
        rw [List.getD_eq_getElem?_getD, List.getElem?_eq_none (by show 3 ≤ v; omega)]; rfl
      rw [h1]
      by_cases hc : c < 6
      · interval_cases c <;> simp [implyFormula] <;> omega
      · rw [List.getD_eq_getElem?_getD, List.getElem?_eq_none (by show 6 ≤ c; omega)]; simp
  · by_cases hv : v < 3
    · interval_cases v <;> decide
    · rw [List.getD_eq_getElem?_getD, List.getElem?_eq_none (by show 3 ≤ v; omega)]; simp

theorem implyFormula_rules : Rules implyFormula.clauses implyFormula.used 2 := by
  refine ⟨fun cl hcl => ?_, by decide⟩
  simp only [implyFormula, List.mem_cons, List.not_mem_nil, or_false] at hcl
  rcases hcl with rfl | rfl | rfl | rfl | rfl | rfl
  · exact ⟨1, by simp⟩
  · exact ⟨2, by simp⟩
  · exact ⟨0, by simp⟩
  · exact ⟨2, by simp⟩
  · exact ⟨0, by simp⟩
  · exact ⟨1, by simp⟩

/-- Non-vacuity: with costs -1 the beliefs are -3, -7, -15, ..., and after 128 iterations they exceed the largest 32-bit floating point number. -/
example : ksatBeliefs 1 false 0 (ksatObject 3 2 implyFormula (listOf 3 (fun _ => fin (-1)))) = some [fin (-3), fin (-3), fin (-3)] ∧
    ksatBeliefs 3 false 0 (ksatObject 3 2 implyFormula (listOf 3 (fun _ => fin (-1)))) = some [fin (-15), fin (-15), fin (-15)] ∧
    ∃ b : ℕ → ℚ, ksatBeliefs 128 false 0 (ksatObject 3 2 implyFormula (listOf 3 (fun _ => fin (-1)))) = some (listOf 3 (fun v => fin (b v))) ∧
      ∀ v ∈ [0, 1, 2], b v ≤ -(2 ^ 128) := by
  refine ⟨by decide +kernel, by decide +kernel, ?_⟩
  obtain ⟨b, h1, h2⟩ := C71_ksat_unbounded implyFormula_ok (by norm_num) (by norm_num) implyFormula_rules (c := 1) (by norm_num) (flag := false)
    (alpha := 0) (Or.inl rfl) 127
  exact ⟨b, h1, fun v hv => by have := h2 v hv; rwa [one_mul] at this⟩

/-- The bound for the same formula: four clauses for each variable, so `D = 3`. -/
example : (∀ v ∈ implyFormula.used, ((Finset.range implyFormula.clauses.length).filter (fun c => v ∈ varsOf implyFormula.clauses c)).card ≤ 3 + 1) ∧
    |(-15 : ℚ)| ≤ 1 * (1 + (3 + 1) * ∑ l ∈ Finset.range (2 + 1), (3 : ℚ) ^ l) := by
  refine ⟨by decide, ?_⟩
  rw [Finset.sum_range_succ, Finset.sum_range_succ, Finset.sum_range_succ, Finset.sum_range_zero]
  norm_num

/-- Three cities; the round trip 0, 1, 2 costs 1 per edge and the reverse one 2. -/
def tripInputs : TspInputs := { c12Inputs with flag := false, alpha := 0 }

theorem trip_ok : TspOk tripInputs (fun e => if e ∈ ({0, 3, 4} : Finset ℕ) then 1 else 1 + 1)
    (fun e _ => if e ∈ ({0, 3, 4} : Finset ℕ) then 1 else 1 + 1) where
  edges := by unfold EdgesOk; decide
  len := rfl
  two := by unfold TwoWays; decide
  cost := ⟨rfl, by decide +kernel⟩
  deg := ⟨rfl, rfl, by decide +kernel⟩

/-- Non-vacuity: on this instance the theorem applies with `p = g = 1`, and the model shows the stated beliefs. -/
example : Rounds 3 k3 {0, 3, 4} ∧
    (tspRelaxed tripInputs 5 (tspInit tripInputs tripInputs.degCost) (Arr.fill 6 0, Arr.fill 6 0)).map (fun r => (List.range 6).map r.2.2.data) =
      some [fin (-7), fin 4, fin 4, fin (-7), fin (-7), fin 4] ∧
    ∃ (m : TspMsgs) (ext intr : Arr Num) (b : ℕ → ℚ),
      tspRelaxed tripInputs (1000000 + 1) (tspInit tripInputs tripInputs.degCost) (Arr.fill 6 0, Arr.fill 6 0) = some (m, ext, intr) ∧ intr.Is 6 b ∧
      b 0 = -1000003 ∧ b 1 = 1000000 := by
  have hR : Rounds 3 k3 {0, 3, 4} := ⟨by decide, by decide⟩
  refine ⟨hR, by decide +kernel, ?_⟩
  obtain ⟨m, ext, intr, b, h1, h2, h3⟩ := C71_tsp_growth trip_ok hR (p := 1) (g := 1) (by norm_num) (fun _ _ => rfl) (fun _ _ _ _ => rfl) (Or.inl rfl)
    trip_ok.deg (fun _ _ _ _ => rfl) 1000000
  refine ⟨m, ext, intr, b, h1, h2, ?_, ?_⟩
  · rw [h3 0 (by decide)]; norm_num
  · rw [h3 1 (by decide)]; norm_num

end Verif.Properties
