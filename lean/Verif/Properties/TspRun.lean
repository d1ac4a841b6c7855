import Verif.Proofs.TspTrace
import Mathlib.Tactic.IntervalCases

/-! # C12, C38: whole runs of the TSP message passing -/

namespace Verif.Properties
open Verif Num Spec Model

/-- C12, the graph condition used below holds for the complete directed graph on at least three nodes. -/
theorem C12_complete_two_ways {n : ℕ} (hn : 3 ≤ n) {edges : List (ℕ × ℕ)} (hc : Complete n edges) : TwoWays n edges := by
  have key : ∀ v < n, ∃ a < n, ∃ b < n, a ≠ b ∧ a ≠ v ∧ b ≠ v := by
    intro v hv
    by_cases h0 : v = 0
    · exact ⟨1, by omega, 2, by omega, by omega, by omega, by omega⟩
    · by_cases h1 : v = 1
      · exact ⟨0, by omega, 2, by omega, by omega, by omega, by omega⟩
      · exact ⟨0, by omega, 1, by omega, by omega, by omega, by omega⟩
  intro v hv
  obtain ⟨a, ha, b, hb, hab, hav, hbv⟩ := key v hv
  constructor
  · obtain ⟨i, hi, ei⟩ := List.mem_iff_getElem.mp (hc v hv a ha (Ne.symm hav))
    obtain ⟨j, hj, ej⟩ := List.mem_iff_getElem.mp (hc v hv b hb (Ne.symm hbv))
    have hij : i ≠ j := by rintro rfl; rw [ei] at ej; exact hab (Prod.ext_iff.mp ej).2
    refine Finset.one_lt_card.mpr ⟨i, ?_, j, ?_, hij⟩
    · exact (Proofs.outEdges_dec _ _ _).mpr ⟨hi, by rw [ei]⟩
    · exact (Proofs.outEdges_dec _ _ _).mpr ⟨hj, by rw [ej]⟩
  · obtain ⟨i, hi, ei⟩ := List.mem_iff_getElem.mp (hc a ha v hv hav)
    obtain ⟨j, hj, ej⟩ := List.mem_iff_getElem.mp (hc b hb v hv hbv)
    have hij : i ≠ j := by rintro rfl; rw [ei] at ej; exact hab (Prod.ext_iff.mp ej).1
    refine Finset.one_lt_card.mpr ⟨i, ?_, j, ?_, hij⟩
    · exact (Proofs.inEdges_dec _ _ _).mpr ⟨hi, by rw [ei]⟩
    · exact (Proofs.inEdges_dec _ _ _).mpr ⟨hj, by rw [ej]⟩

section
variable {inp : TspInputs} {w : ℕ → ℚ} {c : ℕ → ℕ → ℚ}

/-- C12.  The mathematical min-sum algorithm for the relaxed problem is well defined with finite messages, and for every
number of iterations the solver returns normally with exactly its outputs: the extrinsic output of an edge is the sum of the
two (damped) degree messages, the intrinsic output adds the cost of the edge. -/
theorem C12_relaxed_run (h : TspOk inp w c) {e2d : Mat Num} {x0 : ℕ → ℕ → ℚ} (he : e2d.Is inp.numEdges inp.numNodes x0)
    (s0 : ℕ → ℕ → ℚ) :
    (∃ x r y q, IsTspTrace inp.numNodes inp.edges [] w c inp.flag inp.alpha x0 s0 x r y q) ∧
    ∀ x r y q, IsTspTrace inp.numNodes inp.edges [] w c inp.flag inp.alpha x0 s0 x r y q → ∀ K,
      ∃ m ext intr, tspRelaxed inp K (tspInit inp e2d) (Arr.fill inp.numEdges 0, Arr.fill inp.numEdges 0) = some (m, ext, intr) ∧
        TspMsgsOk inp [] m ∧
        (∀ e < inp.numEdges, m.e2d.val e (src inp.edges e) = x K e (src inp.edges e) ∧
          m.e2d.val e (dst inp.edges e) = x K e (dst inp.edges e)) ∧
        ext.Is inp.numEdges (tspOutput inp.flag inp.alpha inp.edges [] (fun _ _ => 0) s0 r q K) ∧
        intr.Is inp.numEdges (fun e => tspOutput inp.flag inp.alpha inp.edges [] (fun _ _ => 0) s0 r q K e + w e) ∧
        ∀ e < inp.numEdges, ∀ v, v = src inp.edges e ∨ v = dst inp.edges e →
          m.deg.val e v = prev inp.flag inp.alpha 0 (fun i => r i e v) K := by
  obtain ⟨x, r, y, q, h1, h2⟩ := Proofs.tspRelaxed_run h (Proofs.tspInit_ok he)
  have hE : ∀ {e}, e < inp.edges.length → e < inp.numEdges := fun he => by rw [← h.len]; exact he
  have hE' : ∀ {e}, e < inp.numEdges → e < inp.edges.length := fun he => by rw [h.len]; exact he
  have ht : IsTspTrace inp.numNodes inp.edges [] w c inp.flag inp.alpha x0 s0 x r y q := { h1 with
    init_src := fun e hh => (h1.init_src e hh).trans (he.val (hE hh) (Proofs.src_lt h.edges hh))
    init_dst := fun e hh => (h1.init_dst e hh).trans (he.val (hE hh) (Proofs.dst_lt h.edges hh))
    to_cut := fun j k hk => by simp at hk }
  refine ⟨⟨x, r, y, q, ht⟩, fun x' r' y' q' ht' K => ?_⟩
  obtain ⟨m, ext, intr, m1, m2, m3, m4, m5, m6⟩ := h2 K (Arr.fill inp.numEdges 0, Arr.fill inp.numEdges 0) rfl rfl
  have hu := Proofs.tspTrace_unique h.edges (fun l hl => by simp at hl) ht ht'
  have hout : ∀ e < inp.numEdges, tspOutput inp.flag inp.alpha inp.edges [] (tspInit inp e2d).deg.val (tspInit inp e2d).s2e.val r q K e =
      tspOutput inp.flag inp.alpha inp.edges [] (fun _ _ => 0) s0 r' q' K e := by
    intro e he
    unfold tspOutput
    rw [Proofs.prev_congr fun i _ => ((hu i).1 e (hE' he) _ (Or.inl rfl)).2,
      Proofs.prev_congr fun i _ => ((hu i).1 e (hE' he) _ (Or.inr rfl)).2]
    simp only [cuts, List.length_nil, Finset.range_zero, Finset.filter_empty, Finset.sum_empty]
    rfl
  refine ⟨m, ext, intr, m1, m2, fun e he => ⟨?_, ?_⟩, m4.congr hout, m5.congr fun e he => by rw [hout e he], fun e he v hv => ?_⟩
  · rw [(m3 e he).1, ((hu K).1 e (hE' he) _ (Or.inl rfl)).1]
  · rw [(m3 e he).2, ((hu K).1 e (hE' he) _ (Or.inr rfl)).1]
  · rw [m6 e he v hv, Proofs.prev_congr fun i _ => ((hu i).1 e (hE' he) v hv).2]
    rfl

/-- C12, two nodes: whatever the messages, every degree message towards an edge is minus infinity. -/
theorem C12_two_nodes_infinite {x : ℕ → ℕ → ℚ} {M : Mat Num} (hM : M.Is 2 2 x) :
    ∃ D, degreeUpdate 2 2 M [(0, 1), (1, 0)] (Mat.fill 2 2 0) = some D ∧ ∀ e < 2, ∀ v < 2, D.data e v = ninf := by
  have hok : EdgesOk 2 [(0, 1), (1, 0)] := by unfold EdgesOk; decide
  obtain ⟨D, d1, d2, d3, d4⟩ := Proofs.degreeUpdate_eq (old := Mat.fill 2 2 0) hok rfl (by decide) (by decide) hM rfl rfl
  refine ⟨D, d1, ?_⟩
  have key : ∀ (S : Finset ℕ) (f : ℕ → ℚ) (e : ℕ) (z : Num), S = {e} → IsMin (Proofs.others S f e) z → z = pinf := by
    rintro S f e z rfl hz
    rcases hz with ⟨-, h⟩ | ⟨q, -, h⟩
    · exact h
    · obtain ⟨s, hs, hne, -⟩ := h.1
      simp at hs; exact absurd hs hne
  intro e he v hv
  by_cases hev : e = v
  · subst hev
    have hS : outEdges [(0, 1), (1, 0)] e = {e} := by
      revert he; revert e; decide
    obtain ⟨z, hz, hd⟩ := (d4 e hv).1 e (by rw [hS]; simp)
    rw [hd, key _ _ _ _ hS hz]; rfl
  · have hS : inEdges [(0, 1), (1, 0)] v = {e} := by
      have : ∀ e < 2, ∀ v < 2, e ≠ v → inEdges [(0, 1), (1, 0)] v = {e} := by decide
      exact this e he v hv hev
    obtain ⟨z, hz, hd⟩ := (d4 v hv).2.1 e (by rw [hS]; simp)
    rw [hd, key _ _ _ _ hS hz]; rfl

/-- C38.  On the augmented graph, every run of message passing is the mathematical min-sum algorithm with one
"at least one" constraint per cut, started from the messages of the previous run (or from the costs, if messages are
reset).  It leaves the last (damped) messages for the next run.  All messages and outputs are finite, so the NaN exit is never taken. -/
theorem C38_augmented_run (h : TspOk inp w c) {deltas : List (List ℕ)} (hd : CutsOk inp.numEdges deltas) {C : ℕ → ℕ → ℚ}
    (hC : inp.costMatrix.Is inp.numNodes inp.numNodes C) (reset : Bool) {m : TspMsgs} (hm : TspMsgsOk inp deltas m) :
    (∃ x r y q, IsTspTrace inp.numNodes inp.edges deltas w c inp.flag inp.alpha (augStart inp.edges reset C m.e2d.val)
      m.s2e.val x r y q) ∧
    ∀ x r y q, IsTspTrace inp.numNodes inp.edges deltas w c inp.flag inp.alpha (augStart inp.edges reset C m.e2d.val)
      m.s2e.val x r y q → ∀ K, ∀ o : Arr Num × Arr Num, o.1.size = inp.numEdges → o.2.size = inp.numEdges →
      ∃ m' ext intr, tspAugmented inp reset deltas K m o = some (m', ext, intr) ∧ TspMsgsOk inp deltas m' ∧
        (∀ e < inp.numEdges, m'.e2d.val e (src inp.edges e) = x K e (src inp.edges e) ∧
          m'.e2d.val e (dst inp.edges e) = x K e (dst inp.edges e)) ∧
        ext.Is inp.numEdges (tspOutput inp.flag inp.alpha inp.edges deltas m.deg.val m.s2e.val r q K) ∧
        intr.Is inp.numEdges (fun e => tspOutput inp.flag inp.alpha inp.edges deltas m.deg.val m.s2e.val r q K e + w e) ∧
        (∀ e < inp.numEdges, ∀ v, v = src inp.edges e ∨ v = dst inp.edges e →
          m'.deg.val e v = prev inp.flag inp.alpha (m.deg.val e v) (fun i => r i e v) K) ∧
        ∀ k < deltas.length, ∀ e ∈ deltas.getD k [],
          m'.s2e.val k e = prev inp.flag inp.alpha (m.s2e.val k e) (fun i => q i k e) K := by
  obtain ⟨x, r, y, q, ht, h2⟩ := Proofs.tspAugmented_run h hd hC reset hm
  have hE' : ∀ {e}, e < inp.numEdges → e < inp.edges.length := fun he => by rw [h.len]; exact he
  refine ⟨⟨x, r, y, q, ht⟩, fun x' r' y' q' ht' K o ho1 ho2 => ?_⟩
  obtain ⟨m', ext, intr, m1, m2, m3, m4, m5, m6, m7⟩ := h2 K o ho1 ho2
  have hu := Proofs.tspTrace_unique h.edges (fun l hl e he => hE' ((hd l hl).2.2 e he)) ht ht'
  have hout : ∀ e < inp.numEdges, tspOutput inp.flag inp.alpha inp.edges deltas m.deg.val m.s2e.val r q K e =
      tspOutput inp.flag inp.alpha inp.edges deltas m.deg.val m.s2e.val r' q' K e := by
    intro e he
    unfold tspOutput
    rw [Proofs.prev_congr fun i _ => ((hu i).1 e (hE' he) _ (Or.inl rfl)).2,
      Proofs.prev_congr fun i _ => ((hu i).1 e (hE' he) _ (Or.inr rfl)).2]
    congr 1
    exact Finset.sum_congr rfl fun k hk => Proofs.prev_congr fun i _ =>
      ((hu i).2 k (Proofs.mem_cuts.mp hk).1 e (Proofs.mem_cuts.mp hk).2).2
  refine ⟨m', ext, intr, m1, m2, fun e he => ⟨?_, ?_⟩, m4.congr hout, m5.congr fun e he => by rw [hout e he],
    fun e he v hv => ?_, fun k hk e he => ?_⟩
  · rw [(m3 e he).1, ((hu K).1 e (hE' he) _ (Or.inl rfl)).1]
  · rw [(m3 e he).2, ((hu K).1 e (hE' he) _ (Or.inr rfl)).1]
  · rw [m6 e he v hv, Proofs.prev_congr fun i _ => ((hu i).1 e (hE' he) v hv).2]
  · rw [m7 k hk e he, Proofs.prev_congr fun i _ => ((hu i).2 k hk e he).2]

/-- C38, the tables stay well formed between runs: after the relaxed run, and after zero rows are added for new cuts. -/
theorem C38_new_cuts {deltas : List (List ℕ)} {m : TspMsgs} (hm : TspMsgsOk inp deltas m) (more : List (List ℕ)) :
    TspMsgsOk inp (deltas ++ more) (tspAddCuts more.length m) := Proofs.tspAddCuts_ok hm more

end

/-- The complete graph on three nodes. -/
def k3 : List (ℕ × ℕ) := [(0, 1), (0, 2), (1, 0), (1, 2), (2, 0), (2, 1)]
/-- An instance on three nodes: going round `0 → 1 → 2 → 0` costs 1 per edge, the other direction 2. -/
def c12Inputs : TspInputs where
  numNodes := 3
  numEdges := 6
  edges := k3
  cost := Arr.ofList [fin 1, fin 2, fin 2, fin 1, fin 1, fin 2]
  costMatrix := ⟨3, 3, fun u v => if u = v then 0 else if v = (u + 1) % 3 then fin 1 else fin 2⟩
  degCost := ⟨6, 3, fun e _ => fin (if e = 0 ∨ e = 3 ∨ e = 4 then 1 else 2)⟩
  flag := true
  alpha := 1 / 2

example : EdgesOk 3 k3 ∧ Complete 3 k3 ∧ TwoWays 3 k3 ∧
    c12Inputs.cost.Is 6 (fun e => if e = 0 ∨ e = 3 ∨ e = 4 then 1 else 2) ∧
    c12Inputs.degCost.Is 6 3 (fun e _ => if e = 0 ∨ e = 3 ∨ e = 4 then 1 else 2) := by
  refine ⟨by unfold EdgesOk; decide, by
    unfold Complete
    intro u hu v hv
    interval_cases u <;> interval_cases v <;> decide, by unfold TwoWays; decide, ⟨rfl, by decide +kernel⟩,
    ⟨rfl, rfl, fun _ _ _ _ => rfl⟩⟩

/-- Two iterations on the example: the cheap direction is selected (negative intrinsic outputs). -/
example : (tspRelaxed c12Inputs 2 (tspInit c12Inputs c12Inputs.degCost) (Arr.fill 6 0, Arr.fill 6 0)).map
    (fun r => (List.range 6).map r.2.2.data) =
    some [fin (-3 / 2), fin (3 / 2), fin (3 / 2), fin (-3 / 2), fin (-3 / 2), fin (3 / 2)] := by decide +kernel

/-- One augmented iteration on the example with the cut of edges leaving node 0. -/
example : CutsOk 6 [[0, 1]] ∧ (tspAugmented c12Inputs true [[0, 1]] 1 (tspAddCuts 1 (tspInit c12Inputs c12Inputs.degCost))
    (Arr.fill 6 0, Arr.fill 6 0)).map (fun r => (List.range 6).map r.2.1.data) =
    some [fin (-5 / 2), fin (-1), fin (-1), fin (-2), fin (-2), fin (-1)] := by
  refine ⟨by unfold CutsOk; decide, ?_⟩
  decide +kernel

end Verif.Properties
