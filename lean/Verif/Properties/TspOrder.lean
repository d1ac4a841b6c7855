import Verif.Proofs.TspOrderRun
import Verif.Properties.PyTspSolve

/-! # C61: does the order in which a hash map is visited matter to the TSP solver? -/

namespace Verif.Properties
open Verif Num Spec Model

/-- C61 as claimed: two calls with equal arguments whose hash maps are visited in different orders have the same outcome. -/
def C61_claim : Prop :=
  ∀ (inp : TspInputs) (w : ℕ → ℚ) (cc C x0 : ℕ → ℕ → ℚ) (e2d : Mat Num) (numIter maxCount fuel fuel' : ℕ) (reset augmentation : Bool)
    (thr : Num) (maxAugm : ℤ) (order order' : ℕ → List (ℕ × ℕ) → List ℕ) (o o' : Option TspState),
    TspOk inp w cc → inp.costMatrix.Is inp.numNodes inp.numNodes C → 3 ≤ inp.numNodes → Complete inp.numNodes inp.edges →
    (∀ k sel, StartOrder sel (order k sel)) → (∀ k sel, StartOrder sel (order' k sel)) → e2d.Is inp.numEdges inp.numNodes x0 → 1 ≤ maxAugm →
    tspSolve (tspSetup inp numIter reset augmentation thr maxCount maxAugm order) fuel (tspStart inp e2d) = some o →
    tspSolve (tspSetup inp numIter reset augmentation thr maxCount maxAugm order') fuel' (tspStart inp e2d) = some o' →
    SameOutcome inp.numEdges o o'

section
variable {inp : TspInputs} {w : ℕ → ℚ} {cc C x0 : ℕ → ℕ → ℚ} {e2d : Mat Num} {numIter maxCount : ℕ} {reset augmentation : Bool} {thr : Num}
  {maxAugm : ℤ} {order order' : ℕ → List (ℕ × ℕ) → List ℕ}

/-- C61.  Let `f 0, ..., f k` be the rounds of a call.  If in each of them selected cycles with a common node are the same cycle,
then every call with equal arguments has the same outcome, in whatever order its hash maps are visited: either both end the
process, or both return after `k` augmentations with the same selection, cost, outputs and flags, the same loops and constraints
(in some order) and the same tour (with some first node).  Missing for the full claim: selections in which different cycles
share a node, for which it is false (`C61_claim_false`). -/
theorem C61_same_outcome_partial (h : TspOk inp w cc) (hC : inp.costMatrix.Is inp.numNodes inp.numNodes C) (hn : 3 ≤ inp.numNodes)
    (hcomp : Complete inp.numNodes inp.edges) (ho : ∀ k sel, StartOrder sel (order k sel)) (ho' : ∀ k sel, StartOrder sel (order' k sel))
    (he : e2d.Is inp.numEdges inp.numNodes x0) (hm : 1 ≤ maxAugm) {fuel fuel' : ℕ} {o : Option TspState}
    (hs : tspSolve (tspSetup inp numIter reset augmentation thr maxCount maxAugm order) fuel (tspStart inp e2d) = some o) (hf : maxAugm < fuel') :
    ∃ (k : ℕ) (f : ℕ → TspState) (st1 : TspState),
      iterateRelaxed (tspSetup inp numIter reset augmentation thr maxCount maxAugm order) (tspStart inp e2d) = some st1 ∧
      (∃ m, f 0 = { st1 with msgs := m }) ∧ (0 < k → f 0 = addFirstRows st1) ∧
      AugRun (tspSetup inp numIter reset augmentation thr maxCount maxAugm order) f k ∧ (f k).numAugm = k ∧ (∀ st', o = some st' → st' = f k) ∧
      ((∀ i ≤ k, CyclesApart (f i).selected) →
        ∃ o', tspSolve (tspSetup inp numIter reset augmentation thr maxCount maxAugm order') fuel' (tspStart inp e2d) = some o' ∧
          SameOutcome inp.numEdges o o') := by
  obtain ⟨st1, f, k, hr⟩ := Proofs.solve_run h hC hn hcomp ho he hm hs
  refine ⟨k, f, st1, hr.relaxed, hr.f0, hr.rows, hr.run, hr.num k le_rfl, fun st' hst => ?_, fun ha => ?_⟩
  · rcases hr.fin with ⟨a, -⟩ | ⟨a, -⟩
    · rw [hst] at a; simpa using a
    · rw [hst] at a; simp at a
  · have hend := C20_terminates (c := tspSetup inp numIter reset augmentation thr maxCount maxAugm order') (fuel := fuel')
      (st := tspStart inp e2d) ⟨_, _, _, rfl⟩ hm hf
    cases hs' : tspSolve (tspSetup inp numIter reset augmentation thr maxCount maxAugm order') fuel' (tspStart inp e2d) with
    | none => exact absurd hs' hend
    | some o' =>
      obtain ⟨st1', f', k', hr'⟩ := Proofs.solve_run h hC hn hcomp ho' he hm hs'
      exact ⟨o', rfl, Proofs.outcome_twin h hC hn hcomp ho ho' he hr hr' hm ha⟩

/-- C60 without the hypothesis on the order of the hash maps.  If in each round of the native solver selected cycles with a common
node are the same cycle, a cycle is selected in the relaxed round and the native solver ends with a tour, then the Python program
returns after the same number of rounds with the same selection, cost and intrinsic outputs and the same tour (with some first
node), in whatever order the hash maps are visited.  Missing: selections in which different cycles share a node. -/
theorem C60_any_order_partial {K : ℕ} (h : TspOk inp w cc) (hfa : inp.flag = true → inp.alpha ≠ 0)
    (hC : inp.costMatrix.Is inp.numNodes inp.numNodes C) (hn : 3 ≤ inp.numNodes) (hcomp : Complete inp.numNodes inp.edges)
    (hthr : thr ≠ nan) (ho : ∀ k sel, StartOrder sel (order k sel)) (he : e2d.Is inp.numEdges inp.numNodes x0) (hm : 1 ≤ maxAugm) {fuel : ℕ}
    {st' : TspState} (hs : tspSolve (tspSetup inp (K + 1) reset augmentation thr maxCount maxAugm order) fuel (tspStart inp e2d) = some (some st'))
    (ht : st'.an.tourFlag = true) :
    ∃ (f : ℕ → TspState) (st1 : TspState),
      iterateRelaxed (tspSetup inp (K + 1) reset augmentation thr maxCount maxAugm order) (tspStart inp e2d) = some st1 ∧
      (∃ m, f 0 = { st1 with msgs := m }) ∧ (0 < st'.numAugm → f 0 = addFirstRows st1) ∧
      AugRun (tspSetup inp (K + 1) reset augmentation thr maxCount maxAugm order) f st'.numAugm ∧ f st'.numAugm = st' ∧
      ((∀ i ≤ st'.numAugm, CyclesApart (f i).selected) → ¬ Acyclic st1.selected →
        ∃ ps t, ∀ fuel' > st'.numAugm, pyTspSolve ⟨inp, K + 1, reset, augmentation, thr⟩ fuel' (pyTspStart inp e2d) = some (some ps) ∧
          st'.selected = ps.selected ∧ st'.cost = ps.cost ∧ SameArr inp.numEdges st'.intr ps.intr ∧ ps.tour = some t ∧
          asCycle st'.an.tour.tail = asCycle t.tail) := by
  obtain ⟨k, f, st1, g1, g2, g3, g4, g5, g6, g7⟩ := C61_same_outcome_partial (order' := fun _ sel => (buildGraph sel).map Prod.fst)
    (fuel' := maxAugm.toNat + 1) h hC hn hcomp ho (fun j sel => Proofs.insertionOrder_ok j sel) he hm hs (by omega)
  have hk := g6 st' rfl
  have hk1 : st'.numAugm = k := by rw [hk, g5]
  rw [hk1]
  refine ⟨f, st1, g1, g2, g3, g4, hk.symm, fun ha hac => ?_⟩
  obtain ⟨o', p1, p2⟩ := g7 ha
  cases o' with
  | none => exact absurd p2 (by simp [SameOutcome])
  | some st2 =>
    have p2 : SameResult inp.numEdges st' st2 := p2
    obtain ⟨f', g, q1, q2, q3, q4, q5, -⟩ := C60_same_run_partial h hfa hC hn hcomp hthr he hm p1 (fun _ st3 hst3 => by
      obtain ⟨m, ext, intr, sel, total, an, a1, a2, -, rfl⟩ := Proofs.iterateRelaxed_facts g1
      obtain ⟨m', ext', intr', sel', total', an', b1, b2, -, rfl⟩ := Proofs.iterateRelaxed_facts hst3
      simp only [tspSetup] at a1 a2 b1 b2
      rw [a1] at b1
      simp only [Option.some.injEq, Prod.mk.injEq] at b1
      rw [← b1.2.2, a2] at b2
      simp only [Option.some.injEq, Prod.mk.injEq] at b2
      simp only at hac ⊢
      rw [← b2.1]; exact hac)
    have ht2 : st2.an.tourFlag = true := p2.flags.1 ▸ ht
    have hlast := q4 _ le_rfl
    rw [q2] at hlast
    obtain ⟨l, x, y, t1, -, t3, t4⟩ := hlast.tour ht2
    have hnum : st2.numAugm = k := by rw [← p2.rounds]; exact hk1
    refine ⟨g st2.numAugm, y :: l, fun fuel' hf => ⟨q5 (Or.inl ht2) fuel' (by omega), p2.selected.trans hlast.selected.symm,
      p2.cost.trans hlast.cost.symm, ⟨p2.intrinsic.1, hlast.intrinsic.1, fun e he => ?_⟩, t4, (p2.tour ht).trans ?_⟩⟩
    · rw [p2.intrinsic.2.2 e he, hlast.intrinsic.2.2 e he]
    · rw [t3]
      cases l with
      | nil => simp at t1
      | cons a q =>
        obtain rfl : a = x := by simpa using t1
        exact Proofs.asCycle_eq.mpr (List.isRotated_append (l := [a]) (l' := q)).symm

/-- C61, when cycles are apart: it suffices that no node has two selected outgoing edges. -/
theorem C61_one_out {sel : List (ℕ × ℕ)} (hE : ∀ u v v', Joined sel u v → Joined sel u v' → v = v') : CyclesApart sel :=
  Proofs.cyclesApart_of_out hE

/-- C61, the algorithm of the specification: if selected cycles with a common node are the same cycle in every round before the
last, then the order of constraints does not matter. -/
theorem C61_determined {P : TspProblem} (hok : EdgesOk P.n P.edges) {R R' : ℕ → TspRound} {k : ℕ} (hR : TspRounds P x0 R k)
    (hR' : TspRounds P x0 R' k) (ha : ∀ i < k, CyclesApart (R i).sel) :
    ∀ i ≤ k, ((R i).sel = (R' i).sel ∧ ∀ e < P.edges.length, (R i).output P e = (R' i).output P e) ∧ ∀ d, d ∈ (R i).cuts ↔ d ∈ (R' i).cuts :=
  Proofs.rounds_determined hok hR hR' ha

end

/-- The nodes in the order of insertion, and in the opposite order. -/
def c61Order (rev : Bool) (_ : ℕ) (sel : List (ℕ × ℕ)) : List ℕ :=
  if rev then ((buildGraph sel).map Prod.fst).reverse else (buildGraph sel).map Prod.fst

theorem c61Order_ok (rev : Bool) (k : ℕ) (sel : List (ℕ × ℕ)) : StartOrder sel (c61Order rev k sel) := by
  obtain ⟨h1, h2⟩ := Proofs.insertionOrder_ok k sel
  cases rev
  · exact ⟨h1, h2⟩
  · exact ⟨List.nodup_reverse.mpr h1, fun u => by
      simp only [c61Order, if_true, List.mem_reverse]; exact h2 u⟩

/-- Three nodes; several selected edges leave a node in the first rounds. -/
def c61Bad : TspInputs := k3Inputs 3 3 4 1 4 2 false

theorem c61Bad_runs (rev : Bool) : (tspSolve (tspSetup c61Bad 1 false true (fin (-1 / 10000)) 5 10 (c61Order rev)) 20
    (tspStart c61Bad c61Bad.degCost)).map (Option.map fun s => (s.an.tourFlag, s.numAugm, s.an.tour)) =
    some (if rev then none else some (true, 2, [1, 2, 0, 1])) := by
  cases rev <;> decide +kernel

/-- C61 is false as claimed: in the order of insertion three loops of two nodes are found and a tour after two augmentations; in
the opposite order a loop through all nodes hides them, there is no constraint, nothing is selected and the process ends. -/
theorem C61_claim_false : ¬ C61_claim := by
  intro hc
  have h1 := c61Bad_runs false
  have h2 := c61Bad_runs true
  simp only [Option.map_eq_some_iff] at h1 h2
  obtain ⟨o, ho, h1⟩ := h1
  obtain ⟨o', ho', h2⟩ := h2
  obtain ⟨C, hC⟩ := k3Inputs_matrix 3 3 4 1 4 2 false
  have := hc c61Bad _ _ C _ c61Bad.degCost 1 5 20 20 false true (fin (-1 / 10000)) 10 _ _ _ _ (k3Inputs_ok 3 3 4 1 4 2 false) hC le_rfl k3_complete
    (c61Order_ok false) (c61Order_ok true) (k3Inputs_ok 3 3 4 1 4 2 false).deg (by norm_num) ho ho'
  cases o <;> cases o' <;> simp_all [SameOutcome]

set_option synthInstance.maxSize 1000 in
/-- Two loops in every round, in different order and with different first nodes, hence constraints in different order. -/
theorem c61Good_runs (rev : Bool) : (tspSolve (tspSetup c20Inputs 3 true true (fin (-1 / 10000)) 1 1 (c61Order rev)) 6
    (tspStart c20Inputs c20Inputs.degCost)).map (Option.map fun s => (s.selected, s.numAugm, s.an.subtourPaths, s.an.deltas)) =
    some (some ([(0, 1), (1, 0), (2, 3), (3, 2)], 1, if rev then [[2, 3], [0, 1]] else [[1, 0], [3, 2]],
      if rev then [[6, 7, 9, 10], [1, 2, 4, 5]] else [[1, 2, 4, 5], [6, 7, 9, 10]])) := by
  cases rev <;> decide +kernel

/-- The instance satisfies the hypotheses. -/
theorem c20Inputs_ok : TspOk c20Inputs (fun e => c20Cost (src k4 e) (dst k4 e)) (fun e _ => c20Cost (src k4 e) (dst k4 e)) where
  edges := by
    show EdgesOk 4 k4
    unfold EdgesOk; decide
  len := rfl
  two := by
    show TwoWays 4 k4
    unfold TwoWays; decide
  cost := ⟨rfl, fun e he => by
    have he : e < 12 := he
    interval_cases e <;> rfl⟩
  deg := ⟨rfl, rfl, fun _ _ _ _ => rfl⟩

/-- Two selected cycles apart from each other. -/
theorem c61_apart : CyclesApart [(0, 1), (1, 0), (2, 3), (3, 2)] := C61_one_out fun u v v' h h' => by
  simp only [Joined, List.mem_cons, Prod.mk.injEq, List.not_mem_nil, or_false] at h h'
  omega

/-- All hypotheses of `C61_same_outcome_partial` hold for this instance. -/
example : ∃ st st', tspSolve (tspSetup c20Inputs 3 true true (fin (-1 / 10000)) 1 1 (c61Order false)) 6 (tspStart c20Inputs c20Inputs.degCost) =
      some (some st) ∧
    tspSolve (tspSetup c20Inputs 3 true true (fin (-1 / 10000)) 1 1 (c61Order true)) 6 (tspStart c20Inputs c20Inputs.degCost) =
      some (some st') ∧ SameResult 12 st st' := by
  have h1 := c61Good_runs false
  simp only [Option.map_eq_some_iff] at h1
  obtain ⟨-, ho, st, rfl, hr⟩ := h1
  simp only [Prod.mk.injEq] at hr
  have h0 : (iterateRelaxed (tspSetup c20Inputs 3 true true (fin (-1 / 10000)) 1 1 (c61Order false)) (tspStart c20Inputs c20Inputs.degCost)).map
      TspState.selected = some [(0, 1), (1, 0), (2, 3), (3, 2)] := by decide +kernel
  obtain ⟨k, f, st1, g1, ⟨m, g2⟩, -, -, g5, g6, g7⟩ := C61_same_outcome_partial (fuel' := 6) c20Inputs_ok
    (C := c20Cost) ⟨rfl, rfl, fun _ _ _ _ => rfl⟩ (by decide)
    (by
      show Complete 4 k4
      unfold Complete
      intro u hu v hv
      interval_cases u <;> interval_cases v <;> decide)
    (c61Order_ok false) (c61Order_ok true) c20Inputs_ok.deg (by norm_num) ho (by norm_num)
  rw [g1] at h0
  simp only [Option.map_some, Option.some.injEq] at h0
  have hk := g6 st rfl
  have hk1 : k = 1 := by rw [← g5, ← hk]; exact hr.2.1
  subst hk1
  obtain ⟨o', p1, p2⟩ := g7 fun i hi => by
    have : i = 0 ∨ i = 1 := by omega
    rcases this with rfl | rfl
    · rw [g2]; simp only; rw [h0]; exact c61_apart
    · rw [← hk, hr.1]; exact c61_apart
  cases o' with
  | none => exact absurd p2 (by simp [SameOutcome])
  | some st' => exact ⟨st, st', ho, p1, p2⟩

/-- The native solver reports the tour from another node than the Python program. -/
def c61Tour : TspInputs := k3Inputs 1 4 4 1 1 4 true

set_option synthInstance.maxSize 1000 in
/-- All hypotheses of `C60_any_order_partial` hold for this instance, with the opposite order. -/
example : ∃ ps, pyTspSolve ⟨c61Tour, 2, false, true, fin (-1 / 10000)⟩ 1 (pyTspStart c61Tour c61Tour.degCost) = some (some ps) ∧
    ps.selected = [(0, 1), (1, 2), (2, 0)] := by
  have h1 : (tspSolve (tspSetup c61Tour 2 false true (fin (-1 / 10000)) 5 10 (c61Order true)) 20 (tspStart c61Tour c61Tour.degCost)).map
      (Option.map fun s => (s.an.tourFlag, s.numAugm, s.an.tour, s.selected)) =
      some (some (true, 0, [0, 1, 2, 0], [(0, 1), (1, 2), (2, 0)])) := by decide +kernel
  simp only [Option.map_eq_some_iff] at h1
  obtain ⟨-, ho, st, rfl, hr⟩ := h1
  simp only [Prod.mk.injEq] at hr
  obtain ⟨C, hC⟩ := k3Inputs_matrix 1 4 4 1 1 4 true
  obtain ⟨f, st1, g1, ⟨m, g2⟩, -, -, g5, g6⟩ := C60_any_order_partial (K := 1) (k3Inputs_ok 1 4 4 1 1 4 true) (fun _ => by norm_num [k3Inputs]) hC
    le_rfl k3_complete (by simp) (c61Order_ok true) (k3Inputs_ok 1 4 4 1 1 4 true).deg (by norm_num) ho hr.1
  have hsel : st1.selected = [(0, 1), (1, 2), (2, 0)] := by
    rw [hr.2.1, g2] at g5
    rw [← hr.2.2.2, ← g5]
  obtain ⟨ps, t, hp⟩ := g6 (fun i hi => by
    obtain rfl : i = 0 := by rw [hr.2.1] at hi; omega
    rw [g2]; simp only; rw [hsel]
    refine C61_one_out fun u v v' h h' => ?_
    simp only [Joined, List.mem_cons, Prod.mk.injEq, List.not_mem_nil, or_false] at h h'
    omega) (by
    rw [hsel]
    refine fun hac => hac 0 ?_
    exact .tail (.tail (.single (show Joined _ 0 1 by simp [Joined])) (show Joined _ 1 2 by simp [Joined])) (by simp [Joined]))
  obtain ⟨p1, p2, -⟩ := hp 1 (by rw [hr.2.1]; norm_num)
  exact ⟨ps, p1, p2.symm.trans hr.2.2.2⟩

end Verif.Properties
