import Verif.Proofs.TspRounds

/-! # C46: the whole TSP solver is min-sum with growing cuts -/

namespace Verif.Properties
open Verif Num Spec Model

section
variable {inp : TspInputs} {w : ℕ → ℚ} {cc C x0 : ℕ → ℕ → ℚ} {e2d : Mat Num} {numIter maxCount fuel : ℕ} {reset augmentation : Bool}
  {thr : Num} {maxAugm : ℤ} {order : ℕ → List (ℕ × ℕ) → List ℕ} {st' : TspState}

/-- C46.  On complete graphs with three or more nodes and finite numbers, a run that returns has performed exactly rounds
`0, ..., k` of the mathematical algorithm (`TspRounds`), where `k` is the reported number of augmentations: in every round
exact min-sum messages with the cuts found so far, starting from the messages of the round before (or from the costs, if
messages are reset).  The reported edges, cost and beliefs are those of round `k`, the stop flags are about the selections
of these rounds, and a reported tour is a tour of edges selected in round `k`. -/
theorem C46_rounds (h : TspOk inp w cc) (hC : inp.costMatrix.Is inp.numNodes inp.numNodes C)
    (hn : 3 ≤ inp.numNodes) (hcomp : Complete inp.numNodes inp.edges) (ho : ∀ k sel, StartOrder sel (order k sel))
    (he : e2d.Is inp.numEdges inp.numNodes x0) (hm : 1 ≤ maxAugm)
    (hs : tspSolve (tspSetup inp numIter reset augmentation thr maxCount maxAugm order) fuel (tspStart inp e2d) = some (some st')) :
    ∃ k R, TspRounds (tspProblem inp w cc C numIter reset thr) x0 R k ∧ st'.numAugm = k ∧ (k : ℤ) ≤ maxAugm ∧
      (augmentation = false → k = 0) ∧ st'.selected = (R k).sel ∧
      (∃ cost, Selects inp.edges w (fun e => (R k).output (tspProblem inp w cc C numIter reset thr) e + w e) thr (R k).sel cost ∧
        st'.cost = fin cost) ∧
      st'.ext.Is inp.numEdges ((R k).output (tspProblem inp w cc C numIter reset thr)) ∧
      st'.intr.Is inp.numEdges (fun e => (R k).output (tspProblem inp w cc C numIter reset thr) e + w e) ∧
      (st'.an.tourFlag = true → IsTour (Joined (R k).sel) inp.numNodes st'.an.tour) ∧
      (st'.noImprovFlag = true ↔ 2 + maxCount ≤ k ∧ ∀ j ≤ maxCount, (R (k - j)).sel = (R (k - j - 1)).sel) ∧
      (st'.solOscFlag = true ↔ 3 + maxCount ≤ k ∧ ∀ j ≤ maxCount, (R (k - j)).sel = (R (k - j - 2)).sel ∧
        (R (k - j)).sel ≠ (R (k - j - 1)).sel) ∧
      (st'.an.noConsFlag = true ↔ maxCount ≤ k ∧ ∀ j ≤ maxCount, Acyclic (R (k - j)).sel) := by
  have hnew : NewState (tspStart inp e2d) := ⟨_, _, _, rfl⟩
  obtain ⟨k, f, st1, h1, f0, fk, hf, hr, hstop, hnum, hle, hsat, g1, g2, g3⟩ :=
    C20_rounds (c := tspSetup inp numIter reset augmentation thr maxCount maxAugm order) ho hnew hm hs
  obtain ⟨R, hR, hout⟩ := Proofs.run_rounds h hC hn hcomp ho he h1 f0 hf hr
  have hk := hout k le_rfl
  rw [fk] at hk
  have hsel : ∀ i ≤ k, (f i).selected = (R i).sel := fun i hi => (hout i hi).selected
  have htour := (C20_tour (c := tspSetup inp numIter reset augmentation thr maxCount maxAugm order) ho h.edges hnew hm hs).1
  refine ⟨k, R, hR, hnum, hle, fun haug => ?_, hk.selected, hk.cost, hk.ext, hk.intr, fun ht => hk.selected ▸ htour ht,
    g1.trans ⟨fun hh => ⟨hh.1, fun j hj => ?_⟩, fun hh => ⟨hh.1, fun j hj => ?_⟩⟩,
    g2.trans ⟨fun hh => ⟨hh.1, fun j hj => ?_⟩, fun hh => ⟨hh.1, fun j hj => ?_⟩⟩,
    g3.trans ⟨fun hh => ⟨hh.1, fun j hj => ?_⟩, fun hh => ⟨hh.1, fun j hj => ?_⟩⟩⟩
  · unfold tspSolve at hs
    rw [h1] at hs
    simp only [tspSetup, haug, Bool.and_false, Bool.false_eq_true, if_false, Option.some.injEq] at hs
    obtain ⟨m1, ext, intr, sel, total, an, -, -, -, rfl⟩ := Proofs.iterateRelaxed_facts h1
    rw [← hs] at hnum
    exact hnum.symm
  · rw [← hsel _ (by omega), ← hsel _ (by omega)]; exact hh.2 j hj
  · rw [hsel _ (by omega), hsel _ (by omega)]; exact hh.2 j hj
  · rw [← hsel _ (by omega), ← hsel _ (by omega), ← hsel _ (by omega)]; exact hh.2 j hj
  · rw [hsel _ (by omega), hsel _ (by omega), hsel _ (by omega)]; exact hh.2 j hj
  · rw [← hsel _ (by omega)]; exact hh.2 j hj
  · rw [hsel _ (by omega)]; exact hh.2 j hj

/-- C46, the other outcome: if the solver does not return, it has performed rounds `0, ..., k` of the mathematical algorithm
and the edges selected in round `k` cost exactly zero. -/
theorem C46_exit (h : TspOk inp w cc) (hC : inp.costMatrix.Is inp.numNodes inp.numNodes C)
    (hn : 3 ≤ inp.numNodes) (hcomp : Complete inp.numNodes inp.edges) (ho : ∀ k sel, StartOrder sel (order k sel))
    (he : e2d.Is inp.numEdges inp.numNodes x0)
    (hs : tspSolve (tspSetup inp numIter reset augmentation thr maxCount maxAugm order) fuel (tspStart inp e2d) = some none) :
    ∃ k R, TspRounds (tspProblem inp w cc C numIter reset thr) x0 R k ∧ augmentation = true ∧
      Selects inp.edges w (fun e => (R k).output (tspProblem inp w cc C numIter reset thr) e + w e) thr (R k).sel 0 := by
  obtain ⟨st1, k, f, h1, f0, hf, hr, haug, hz⟩ := Proofs.exit_run h hC hn hcomp ho he hs
  obtain ⟨R, hR, hout⟩ := Proofs.run_rounds h hC hn hcomp ho he h1 f0 (fun _ => hf) hr
  obtain ⟨q, hq, hc⟩ := (hout k le_rfl).cost
  rw [hz, zero_def, Num.fin.injEq] at hc
  exact ⟨k, R, hR, haug, hc ▸ hq⟩

/-- C46, the algorithm of the specification is deterministic: the cuts determine all selections. -/
theorem C46_determined {P : TspProblem} (hok : EdgesOk P.n P.edges) {R R' : ℕ → TspRound} {k : ℕ} (hR : TspRounds P x0 R k)
    (hR' : TspRounds P x0 R' k) (hc : ∀ i ≤ k, (R i).cuts = (R' i).cuts) :
    ∀ i ≤ k, (R i).sel = (R' i).sel ∧ ∀ e < P.edges.length, (R i).output P e = (R' i).output P e :=
  fun i hi => Proofs.rounds_unique hok hR hR' hc i hi
end

/-- Two pairs of near nodes: the relaxed problem selects two subtours. -/
def c46Cost (u v : ℕ) : ℚ := (([[0, 1, 4, 6], [2, 0, 7, 5], [3, 5, 0, 1], [5, 8, 2, 0]] : List (List ℚ)).getD u []).getD v 0
/-- The instance with these costs. -/
def c46Inputs : TspInputs where
  numNodes := 4
  numEdges := 12
  edges := k4
  cost := ⟨12, fun e => fin (c46Cost (src k4 e) (dst k4 e))⟩
  costMatrix := ⟨4, 4, fun u v => fin (c46Cost u v)⟩
  degCost := ⟨12, 4, fun e v => fin (if v = src k4 e ∨ v = dst k4 e then c46Cost (src k4 e) (dst k4 e) else 0)⟩
  flag := true
  alpha := 1 / 2

example : TspOk c46Inputs (fun e => c46Cost (src k4 e) (dst k4 e))
    (fun e v => if v = src k4 e ∨ v = dst k4 e then c46Cost (src k4 e) (dst k4 e) else 0) ∧
    c46Inputs.costMatrix.Is 4 4 c46Cost ∧ Complete 4 k4 := by
  refine ⟨⟨by unfold EdgesOk; decide, rfl, by unfold TwoWays; decide, ⟨rfl, fun _ _ => rfl⟩, ⟨rfl, rfl, fun _ _ _ _ => rfl⟩⟩,
    ⟨rfl, rfl, fun _ _ _ _ => rfl⟩, ?_⟩
  unfold Complete
  intro u hu v hv
  interval_cases u <;> interval_cases v <;> decide

/-- Two iterations per round, messages kept between rounds: two augmentation rounds are needed, then a tour is found. -/
example : (tspSolve (tspSetup c46Inputs 2 false true (fin (-1 / 10000)) 2 6 someOrder) 8 (tspStart c46Inputs c46Inputs.degCost)).map
    (Option.map fun s => (s.numAugm, s.an.tour, s.an.deltas)) =
    some (some (2, [1, 3, 2, 0, 1], [[1, 2, 4, 5], [6, 7, 9, 10]])) := by decide +kernel
/-- Without iterations nothing is selected and the process ends. -/
example : tspSolve (tspSetup c46Inputs 0 false true (fin (-1 / 10000)) 2 6 someOrder) 8 (tspStart c46Inputs c46Inputs.degCost) =
    some none := by
  have : (tspSolve (tspSetup c46Inputs 0 false true (fin (-1 / 10000)) 2 6 someOrder) 8 (tspStart c46Inputs c46Inputs.degCost)).map
      Option.isSome = some false := by decide +kernel
  revert this
  cases tspSolve (tspSetup c46Inputs 0 false true (fin (-1 / 10000)) 2 6 someOrder) 8 (tspStart c46Inputs c46Inputs.degCost) with
  | none => simp
  | some o => cases o <;> simp

end Verif.Properties
