import Verif.Proofs.GrowthCuts
import Verif.Properties.TspRun

/-! # C76: how fast messages grow once cuts are added -/

namespace Verif.Properties
open Verif Num Spec Model

section
variable {inp : TspInputs} {w : ℕ → ℚ} {c : ℕ → ℕ → ℚ}

/-- C76, upper bound.  Suppose no edge is in more than `N` cuts and no cost and no message from earlier rounds exceeds `B` in magnitude.  After
`K + 1` iterations with damping `0 ≤ alpha ≤ 1` no belief exceeds `2 B (M ^ (K + 1) + (N + 1) (1 + M + … + M ^ K))`, where `M = N ^ 2 + N + 1`. -/
theorem C76_bound (h : TspOk inp w c) (ha : inp.flag = true → 0 ≤ inp.alpha ∧ inp.alpha ≤ 1) {deltas : List (List ℕ)}
    (hd : CutsOk inp.numEdges deltas) {N : ℕ} (hN : ∀ e < inp.numEdges, (cuts deltas e).card ≤ N) {C : ℕ → ℕ → ℚ}
    (hC : inp.costMatrix.Is inp.numNodes inp.numNodes C) (reset : Bool) {m : TspMsgs} (hm : TspMsgsOk inp deltas m) {B : ℚ} (hB : 0 ≤ B)
    (hw : ∀ e < inp.numEdges, |w e| ≤ B) (hc : ∀ e < inp.numEdges, ∀ v, v = src inp.edges e ∨ v = dst inp.edges e → |c e v| ≤ B)
    (hcm : ∀ u < inp.numNodes, ∀ v < inp.numNodes, |C u v| ≤ B)
    (hx : ∀ e < inp.numEdges, ∀ v, v = src inp.edges e ∨ v = dst inp.edges e → |m.e2d.val e v| ≤ B)
    (hs : ∀ k < deltas.length, ∀ e ∈ deltas.getD k [], |m.s2e.val k e| ≤ B) (K : ℕ) {o : Arr Num × Arr Num}
    (ho1 : o.1.size = inp.numEdges) (ho2 : o.2.size = inp.numEdges) :
    ∃ (m' : TspMsgs) (ext intr : Arr Num) (b : ℕ → ℚ), tspAugmented inp reset deltas (K + 1) m o = some (m', ext, intr) ∧ intr.Is inp.numEdges b ∧
      ∀ e < inp.numEdges, |b e| ≤ 2 * (B * (((N : ℚ) ^ 2 + N + 1) ^ (K + 1) + (N + 1) * ∑ l ∈ Finset.range (K + 1), ((N : ℚ) ^ 2 + N + 1) ^ l)) := by
  obtain ⟨⟨x, r, y, q, ht⟩, hrun⟩ := C38_augmented_run h hd hC reset hm
  obtain ⟨m', ext, intr, h1, -, -, -, h3, -⟩ := hrun x r y q ht (K + 1) o ho1 ho2
  refine ⟨m', ext, intr, _, h1, h3, fun e hE => ?_⟩
  have hlen := h.len
  have hE' : ∀ {e}, e < inp.edges.length → e < inp.numEdges := fun he => by rw [← hlen]; exact he
  have hstart : ∀ e < inp.edges.length, ∀ v, v = src inp.edges e ∨ v = dst inp.edges e → |augStart inp.edges reset C m.e2d.val e v| ≤ B := by
    intro e he v hv
    unfold augStart
    split_ifs
    · exact hcm _ (Proofs.src_lt h.edges he) _ (Proofs.dst_lt h.edges he)
    · exact hx e (hE' he) v hv
  obtain ⟨b1, b2⟩ := Proofs.cuts_bound h.edges (hlen ▸ hd) ha hB (fun e he => hw e (hE' he)) (fun e he => hc e (hE' he)) hstart hs
    (fun e he => hN e (hE' he)) ht K
  have h0 := Proofs.cutLevel_nonneg hB N K
  have h0' : 0 ≤ ((N : ℚ) + 1) * Proofs.cutLevel B N K + B := by positivity
  have hr : ∀ v, v = src inp.edges e ∨ v = dst inp.edges e → |damped inp.flag inp.alpha (fun i => r i e v) K| ≤ Proofs.cutLevel B N K :=
    fun v hv => abs_le.mpr (Proofs.damped_le ha (by linarith) h0 fun i hi => abs_le.mp (b1 i hi e (hlen ▸ hE) v hv).2)
  have k3 := abs_le.mp (Proofs.abs_sum_card_le (f := fun k => damped inp.flag inp.alpha (fun i => q i k e) K) h0' (hN e hE) fun k hk =>
    abs_le.mpr (Proofs.damped_le ha (by linarith) h0' fun i hi => abs_le.mp
      (b2 i hi k (Proofs.mem_cuts.mp hk).1 e (Proofs.mem_cuts.mp hk).2)))
  have k1 := abs_le.mp (hr _ (Or.inl rfl))
  have k2 := abs_le.mp (hr _ (Or.inr rfl))
  have fourEdges := abs_le.mp (hw e hE)
  have k5 := Proofs.cutLevel_succ B N K
  have k6 := Proofs.cutLevel_le hB N (Nat.le_succ K)
  have hout : |tspOutput inp.flag inp.alpha inp.edges deltas m.deg.val m.s2e.val r q (K + 1) e + w e| ≤ 2 * Proofs.cutLevel B N (K + 1) := by
    unfold tspOutput
    simp only [prev]
    exact abs_le.mpr ⟨by linarith [k1.1, k2.1, k3.1, fourEdges.1], by linarith [k1.2, k2.2, k3.2, fourEdges.2]⟩
  exact hout

/-- C76, growth.  If all edges cost `p`, every edge is in `d + 1` cuts, no cut has a message yet and messages are reset, the beliefs after `K + 1`
undamped iterations are exactly `-p d ^ K`. -/
theorem C76_growth (h : TspOk inp w c) (hoff : inp.flag = false ∨ inp.alpha = 0) {deltas : List (List ℕ)} (hd : CutsOk inp.numEdges deltas) {d : ℕ}
    (hN : ∀ e < inp.numEdges, (cuts deltas e).card = d + 1) {C : ℕ → ℕ → ℚ} (hC : inp.costMatrix.Is inp.numNodes inp.numNodes C)
    {m : TspMsgs} (hm : TspMsgsOk inp deltas m) {p : ℚ} (hp : 0 ≤ p) (hw : ∀ e < inp.numEdges, w e = p)
    (hc : ∀ e < inp.numEdges, ∀ v, v = src inp.edges e ∨ v = dst inp.edges e → c e v = p)
    (hcm : ∀ e < inp.numEdges, C (src inp.edges e) (dst inp.edges e) = p)
    (hs : ∀ k < deltas.length, ∀ e ∈ deltas.getD k [], m.s2e.val k e = 0) (K : ℕ) {o : Arr Num × Arr Num}
    (ho1 : o.1.size = inp.numEdges) (ho2 : o.2.size = inp.numEdges) :
    ∃ (m' : TspMsgs) (ext intr : Arr Num), tspAugmented inp true deltas (K + 1) m o = some (m', ext, intr) ∧
      intr.Is inp.numEdges (fun _ => -(p * (d : ℚ) ^ K)) := by
  obtain ⟨⟨x, r, y, q, ht⟩, hrun⟩ := C38_augmented_run h hd hC true hm
  obtain ⟨m', ext, intr, h1, -, -, -, h3, -⟩ := hrun x r y q ht (K + 1) o ho1 ho2
  refine ⟨m', ext, intr, h1, h3.congr fun e hE => ?_⟩
  have hlen := h.len
  have hE' : ∀ {e}, e < inp.edges.length → e < inp.numEdges := fun he => by rw [← hlen]; exact he
  have hstart : ∀ e < inp.edges.length, ∀ v, v = src inp.edges e ∨ v = dst inp.edges e → augStart inp.edges true C m.e2d.val e v = p := by
    intro e he v hv
    rw [augStart, if_pos ⟨rfl, hv⟩]
    exact hcm e (hE' he)
  obtain ⟨b1, b2⟩ := Proofs.uniform_trace hp h.edges hoff (hlen ▸ hd) (fun e he => hN e (hE' he)) (fun e he => hw e (hE' he))
    (fun e he => hc e (hE' he)) hstart hs ht K
  have k1 := b1 e (hlen ▸ hE) _ (Or.inl rfl)
  have k2 := b1 e (hlen ▸ hE) _ (Or.inr rfl)
  have k3 : ∑ k ∈ cuts deltas e, damped inp.flag inp.alpha (fun i => q i k e) K = -((d + 1) * (p * ∑ l ∈ Finset.range K, (d : ℚ) ^ l)) := by
    rw [Finset.sum_congr rfl fun k hk => (Proofs.undamped hoff _ K).trans (b2 k (Proofs.mem_cuts.mp hk).1 e (Proofs.mem_cuts.mp hk).2),
      Finset.sum_const, hN e hE, nsmul_eq_mul]
    push_cast; ring
  have hgeom : ∀ K, ((d : ℚ) - 1) * ∑ l ∈ Finset.range K, (d : ℚ) ^ l = (d : ℚ) ^ K - 1 := by
    intro K
    induction K with
    | zero => simp
    | succ K ih => rw [Finset.sum_range_succ, mul_add, ih, pow_succ]; ring
  have fourEdges := congrArg (fun z => p * z) (hgeom K)
  unfold tspOutput
  simp only [prev]
  rw [Proofs.undamped hoff, Proofs.undamped hoff, k3, hw e hE]
  linarith

end

/-! ## Example: four cities -/

/-- The complete graph on four nodes. -/
def fourEdges : List (ℕ × ℕ) := [(0, 1), (0, 2), (0, 3), (1, 0), (1, 2), (1, 3), (2, 0), (2, 1), (2, 3), (3, 0), (3, 1), (3, 2)]

/-- The edges that leave each set of two or three nodes. -/
def fourCuts : List (List ℕ) :=
  [[1, 2, 4, 5], [0, 2, 7, 8], [0, 1, 10, 11], [3, 5, 6, 8], [3, 4, 9, 11], [6, 7, 9, 10], [2, 5, 8], [1, 4, 11], [0, 7, 10], [3, 6, 9]]

/-- All edges cost 1. -/
def fourInputs : TspInputs where
  numNodes := 4
  numEdges := 12
  edges := fourEdges
  cost := Arr.fill 12 (fin 1)
  costMatrix := ⟨4, 4, fun u v => if u = v then 0 else fin 1⟩
  degCost := Mat.fill 12 4 (fin 1)
  flag := false
  alpha := 0

theorem four_ok : TspOk fourInputs (fun _ => 1) (fun _ _ => 1) where
  edges := by unfold EdgesOk; decide
  len := rfl
  two := by unfold TwoWays; decide
  cost := ⟨rfl, fun _ _ => rfl⟩
  deg := ⟨rfl, rfl, fun _ _ _ _ => rfl⟩

/-- The messages before the round. -/
def fourMsgs : TspMsgs := tspAddCuts 10 (tspInit fourInputs fourInputs.degCost)

/-- Non-vacuity: every edge is in three cuts, so the beliefs double in each iteration: -1, -2, -4, …; after 129 iterations they exceed the largest
32-bit floating point number.  The bound applies with `N = 3` and `B = 1`. -/
example : (∀ e < 12, (cuts fourCuts e).card = 2 + 1) ∧
    (tspAugmented fourInputs true fourCuts 4 fourMsgs (Arr.fill 12 0, Arr.fill 12 0)).map (fun r => (List.range 12).map r.2.2.data) =
      some (List.replicate 12 (fin (-8))) ∧
    (∃ (m' : TspMsgs) (ext intr : Arr Num), tspAugmented fourInputs true fourCuts (128 + 1) fourMsgs (Arr.fill 12 0, Arr.fill 12 0) =
      some (m', ext, intr) ∧ intr.Is 12 (fun _ => -(1 * ((2 : ℕ) : ℚ) ^ 128))) ∧
    ∃ (m' : TspMsgs) (ext intr : Arr Num) (b : ℕ → ℚ), tspAugmented fourInputs true fourCuts (3 + 1) fourMsgs (Arr.fill 12 0, Arr.fill 12 0) =
      some (m', ext, intr) ∧ intr.Is 12 b ∧ ∀ e < 12, |b e| ≤
        2 * (1 * ((((3 : ℕ) : ℚ) ^ 2 + (3 : ℕ) + 1) ^ (3 + 1) + ((3 : ℕ) + 1) * ∑ l ∈ Finset.range (3 + 1), (((3 : ℕ) : ℚ) ^ 2 + (3 : ℕ) + 1) ^ l)) := by
  have hd : CutsOk 12 fourCuts := by unfold CutsOk; decide
  have hN : ∀ e < 12, (cuts fourCuts e).card = 2 + 1 := by decide
  have hm : TspMsgsOk fourInputs fourCuts fourMsgs := C38_new_cuts (Proofs.tspInit_ok four_ok.deg) fourCuts
  have hC : fourInputs.costMatrix.Is 4 4 (fun u v => if u = v then 0 else 1) := ⟨rfl, rfl, by decide +kernel⟩
  have hs : ∀ k < fourCuts.length, ∀ e ∈ fourCuts.getD k [], fourMsgs.s2e.val k e = 0 := by decide +kernel
  have hx : ∀ e < 12, ∀ v < 4, fourMsgs.e2d.val e v = 1 := by decide +kernel
  refine ⟨hN, by decide +kernel, ?_, ?_⟩
  · exact C76_growth four_ok (Or.inl rfl) hd hN hC hm (by norm_num) (fun _ _ => rfl) (fun _ _ _ _ => rfl) (by decide +kernel) hs 128 rfl rfl
  · refine C76_bound four_ok (by intro h; cases h) hd (fun e he => (hN e he).le) hC true hm (by norm_num) (by norm_num) (by norm_num) ?_ ?_ ?_ 3 rfl rfl
    · intro u hu v hv; split_ifs <;> norm_num
    · intro e he v hv
      have hlt : ∀ e < 12, src fourEdges e < 4 ∧ dst fourEdges e < 4 := by decide
      rw [hx e he v (by rcases hv with rfl | rfl; exacts [(hlt e he).1, (hlt e he).2])]; norm_num
    · intro k hk e he; rw [hs k hk e he]; norm_num

end Verif.Properties
