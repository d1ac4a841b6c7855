import Mathlib.Data.Set.Basic
import Mathlib.Data.Sym.Sym2
import Verif.Proofs.PyTspLoop
import Verif.Properties.PyAgree
import Verif.Properties.TspSolve

/-! # C60: the pure Python TSP program and the native one make the same decisions -/

namespace Verif.Properties
open Verif Num Spec Model

/-- C60 as claimed: whenever the native solver ends with a tour, the Python program started with the same arguments ends with
the same selection, cost and number of rounds. -/
def C60_claim : Prop :=
  ∀ (inp : TspInputs) (w : ℕ → ℚ) (cc C : ℕ → ℕ → ℚ) (e2d : Mat Num) (x0 : ℕ → ℕ → ℚ) (K : ℕ) (reset : Bool) (thr : ℚ) (maxCount : ℕ)
    (maxAugm : ℤ) (order : ℕ → List (ℕ × ℕ) → List ℕ) (fuel : ℕ) (st' : TspState),
    TspOk inp w cc → inp.costMatrix.Is inp.numNodes inp.numNodes C → 3 ≤ inp.numNodes → Complete inp.numNodes inp.edges →
    (inp.flag = true → inp.alpha ≠ 0) → e2d.Is inp.numEdges inp.numNodes x0 → (∀ k sel, StartOrder sel (order k sel)) → 1 ≤ maxAugm →
    tspSolve (tspSetup inp (K + 1) reset true (fin thr) maxCount maxAugm order) fuel (tspStart inp e2d) = some (some st') →
    st'.an.tourFlag = true →
    ∃ ps, pyTspSolve ⟨inp, K + 1, reset, true, fin thr⟩ (st'.numAugm + 1) (pyTspStart inp e2d) = some (some ps) ∧
      ps.selected = st'.selected ∧ ps.cost = st'.cost ∧ ps.tour.isSome

section
variable {inp : TspInputs} {w : ℕ → ℚ} {cc C : ℕ → ℕ → ℚ} {K : ℕ} {reset augmentation : Bool} {thr : Num} {maxCount : ℕ} {maxAugm : ℤ}

/-- C60, the first difference.  If no cycle is selected in the relaxed round, the native solver goes on without constraints;
the Python program raises an exception in the next round, whatever the instance. -/
theorem C60_no_loop_crash (h : TspOk inp w cc) (hfa : inp.flag = true → inp.alpha ≠ 0) (hn : 3 ≤ inp.numNodes)
    (hcomp : Complete inp.numNodes inp.edges) (hthr : thr ≠ nan) {e2d : Mat Num} {x0 : ℕ → ℕ → ℚ} (he : e2d.Is inp.numEdges inp.numNodes x0)
    {st : TspState} (hst : iterateRelaxed (tspSetup inp (K + 1) reset true thr maxCount maxAugm Proofs.insertionOrder) (tspStart inp e2d) = some st)
    (hac : Acyclic st.selected) (fuel : ℕ) :
    pyTspSolve ⟨inp, K + 1, reset, true, thr⟩ (fuel + 1) (pyTspStart inp e2d) = some none := by
  obtain ⟨ps, p1, p2, -, -, -, p6⟩ := Proofs.first_same h hfa hn hcomp hthr he hst
  obtain ⟨m, ext, intr, sel, total, an, -, -, f3, rfl⟩ := Proofs.iterateRelaxed_facts hst
  have hpaths := (Proofs.analyse_paths_ne (Proofs.insertionOrder_ok 0 sel) f3).2.mpr hac
  have hfl : an.tourFlag = false := by
    rcases Proofs.analyse_flags (Proofs.insertionOrder_ok 0 sel) f3 with ⟨-, -, -, a, -⟩ | ⟨a, -⟩
    · exact a
    · exact absurd hac a
  have hps := p2.flags
  simp only at hps hpaths p6
  rw [hfl] at hps
  unfold pyTspSolve
  rw [show pyTspFirst ⟨inp, K + 1, reset, true, thr⟩ (pyTspStart inp e2d) = some ps from p1]
  simp only [pyTspLoop, hps.1, hps.2.1, Bool.not_false, Bool.and_self, if_true]
  rw [Proofs.pyTspRound_empty (Nat.succ_pos K) (p6 hpaths)]

/-- C60.  Let the native solver visit its hash maps in the order of insertion, as Python does, and let a cycle be selected in
the relaxed round (or let augmentation be switched off).  Then the Python program does exactly the rounds of the native solver:
in every round both select the same edges at the same cost from the same intrinsic outputs, find the same loops, add the same
constraints and set the same flags; a tour is the same closed tour.  If the native solver ends with a tour, or without augmentation, the
Python program returns at that point with that round; otherwise (stop flag or limit) the Python program is still running.
Missing for the full claim: relaxed rounds without a cycle, for which it is false (`C60_no_loop_crash`, `C60_claim_false`), and
other orders of the hash maps. -/
theorem C60_same_run_partial (h : TspOk inp w cc) (hfa : inp.flag = true → inp.alpha ≠ 0)
    (hC : inp.costMatrix.Is inp.numNodes inp.numNodes C) (hn : 3 ≤ inp.numNodes) (hcomp : Complete inp.numNodes inp.edges)
    (hthr : thr ≠ nan) {e2d : Mat Num} {x0 : ℕ → ℕ → ℚ} (he : e2d.Is inp.numEdges inp.numNodes x0) {fuel : ℕ} {st' : TspState}
    (hm : 1 ≤ maxAugm)
    (hst : tspSolve (tspSetup inp (K + 1) reset augmentation thr maxCount maxAugm (fun _ sel => (buildGraph sel).map Prod.fst)) fuel
      (tspStart inp e2d) = some (some st'))
    (hcyc : augmentation = true → ∀ st1, iterateRelaxed (tspSetup inp (K + 1) reset augmentation thr maxCount maxAugm
      (fun _ sel => (buildGraph sel).map Prod.fst)) (tspStart inp e2d) = some st1 → ¬ Acyclic st1.selected) :
    ∃ (f : ℕ → TspState) (g : ℕ → PyTspSolver),
      AugRun (tspSetup inp (K + 1) reset augmentation thr maxCount maxAugm (fun _ sel => (buildGraph sel).map Prod.fst)) f st'.numAugm ∧
      f st'.numAugm = st' ∧ PyTspRun ⟨inp, K + 1, reset, augmentation, thr⟩ (pyTspStart inp e2d) g st'.numAugm ∧
      (∀ i ≤ st'.numAugm, SameTspRound inp.numEdges (f i) (g i)) ∧
      (st'.an.tourFlag = true ∨ augmentation = false → ∀ fuel' > st'.numAugm,
        pyTspSolve ⟨inp, K + 1, reset, augmentation, thr⟩ fuel' (pyTspStart inp e2d) = some (some (g st'.numAugm))) ∧
      (st'.an.tourFlag = false → augmentation = true → ∀ fuel' ≤ st'.numAugm,
        pyTspSolve ⟨inp, K + 1, reset, augmentation, thr⟩ fuel' (pyTspStart inp e2d) = none) := by
  obtain ⟨k, f, st1, r1, r2, r3, r4, r5, -, r7, -, r9, -⟩ := C20_rounds (c := tspSetup inp (K + 1) reset augmentation thr maxCount maxAugm
    (fun _ sel => (buildGraph sel).map Prod.fst)) (fun j sel => Proofs.insertionOrder_ok j sel) ⟨_, _, _, rfl⟩ hm hst
  subst r7
  obtain ⟨ps, p1, p2, p3, p4, p5, -⟩ := Proofs.first_same h hfa hn hcomp hthr he r1
  obtain ⟨m, ext, intr, sel, total, an, -, -, f3, rfl⟩ := Proofs.iterateRelaxed_facts r1
  have hpa := Proofs.analyse_paths_ne (Proofs.insertionOrder_ok 0 sel) f3
  have hs0 : Proofs.SameRound inp.numEdges (f 0) ps := by
    obtain ⟨m', hm'⟩ := r2
    rw [hm']
    exact ⟨p2.selected, p2.cost, p2.intr, p2.loops, p2.cuts, p2.flags, p2.tour⟩
  have hl0 : ∀ l ∈ (f 0).an.subtourPaths, l ≠ [] := by
    obtain ⟨m', hm'⟩ := r2
    rw [hm']; exact hpa.1
  obtain ⟨g, g0, g1, g2⟩ : ∃ g : ℕ → PyTspSolver, g 0 = ps ∧
      (∀ i < st'.numAugm, augmentation = true ∧ pyTspRound ⟨inp, K + 1, reset, augmentation, thr⟩ (g i) = some (g (i + 1))) ∧
      ∀ i ≤ st'.numAugm, Proofs.SameRound inp.numEdges (f i) (g i) ∧ ∀ l ∈ (f i).an.subtourPaths, l ≠ [] := by
    by_cases hk : 0 < st'.numAugm
    · have haug : augmentation = true := by
        cases augmentation with
        | true => rfl
        | false =>
          exfalso
          unfold tspSolve at hst
          rw [show tspStart inp e2d = { msgs := tspInit inp e2d, ext := Arr.fill inp.numEdges 0, intr := Arr.fill inp.numEdges 0 } from rfl, r1] at hst
          have hz : (tspSetup inp (K + 1) reset false thr maxCount maxAugm (fun _ sel => (buildGraph sel).map Prod.fst)).augmentation = false := rfl
          simp only [hz, Bool.and_false, Bool.false_eq_true, if_false, Option.some.injEq] at hst
          rw [← hst] at hk
          exact absurd hk (lt_irrefl 0)
      subst haug
      have hsat : (f 0).an.tourFlag = false := (r5.going 0 hk).1
      rw [r4 hk] at hsat
      have hfr : ∀ s : TspState, (addFirstRows s).an = s.an := fun s => by unfold addFirstRows; split <;> rfl
      rw [hfr] at hsat
      obtain ⟨g, g0, g1, g2⟩ := Proofs.rounds_same h hfa hC hn hcomp hthr r5 (by rw [r4 hk]; exact p3) hs0 hl0
        (fun _ => by rw [r4 hk, hfr]; exact p4 hsat rfl)
        (fun _ => p5 (fun hh => hcyc rfl _ r1 (hpa.2.mp hh)) hsat)
      exact ⟨g, g0, fun i hi => ⟨rfl, g1 i hi⟩, g2⟩
    · refine ⟨fun _ => ps, rfl, fun i hi => absurd (show 0 < st'.numAugm by omega) hk, fun i hi => ?_⟩
      obtain rfl : i = 0 := by omega
      exact ⟨hs0, hl0⟩
  have hrun : PyTspRun ⟨inp, K + 1, reset, augmentation, thr⟩ (pyTspStart inp e2d) g st'.numAugm := by
    refine ⟨by rw [g0]; exact p1, fun i hi => ⟨(g1 i hi).1, ?_⟩, fun i hi => (g1 i hi).2⟩
    obtain ⟨a1, a2, -⟩ := (g2 i hi.le).1.flags
    rw [a1, a2]
    exact ⟨(r5.going i hi).1, (r5.going i hi).1⟩
  have hlast := (g2 _ le_rfl).1
  rw [r3] at hlast
  refine ⟨f, g, r5, r3, hrun, fun i hi => (g2 i hi).1.same (g2 i hi).2, fun hor fuel' hf => ?_, fun _ _ fuel' hf => ?_⟩
  · obtain ⟨d, rfl⟩ : ∃ d, fuel' = st'.numAugm + (d + 1) := ⟨fuel' - st'.numAugm - 1, by omega⟩
    rw [Proofs.pyTspLoop_run hrun, pyTspLoop]
    obtain ⟨b1, b2, -⟩ := hlast.flags
    rcases hor with ht | haug
    · have : (g st'.numAugm).tour.isNone = false := by
        rcases hlast.tour with ⟨h', -⟩ | ⟨-, l, x, y, -, -, -, h'⟩
        · rw [ht] at h'; simp at h'
        · rw [h']; rfl
      simp [b2, ht, this]
    · simp [haug]
  · have hrun' : PyTspRun ⟨inp, K + 1, reset, augmentation, thr⟩ (pyTspStart inp e2d) g fuel' :=
      ⟨hrun.first, fun i hi => hrun.going i (by omega), fun i hi => hrun.round i (by omega)⟩
    have := Proofs.pyTspLoop_run hrun' 0
    exact this

end

/-- An instance on three nodes with the given costs of the edges of `k3`. -/
def k3Inputs (a b c d e f : ℚ) (flag : Bool) : TspInputs where
  numNodes := 3
  numEdges := 6
  edges := k3
  cost := Arr.ofList [fin a, fin b, fin c, fin d, fin e, fin f]
  costMatrix := ⟨3, 3, fun u v => if u = v then 0 else if u = 0 then (if v = 1 then fin a else fin b) else
    if u = 1 then (if v = 0 then fin c else fin d) else if v = 0 then fin e else fin f⟩
  degCost := ⟨6, 3, fun i _ => fin ([a, b, c, d, e, f].getD i 0)⟩
  flag := flag
  alpha := 1 / 2

theorem k3Inputs_ok (a b c d e f : ℚ) (flag : Bool) :
    TspOk (k3Inputs a b c d e f flag) (fun i => [a, b, c, d, e, f].getD i 0) (fun i _ => [a, b, c, d, e, f].getD i 0) where
  edges := by
    show EdgesOk 3 k3
    unfold EdgesOk; decide
  len := rfl
  two := by
    show TwoWays 3 k3
    unfold TwoWays; decide
  cost := ⟨rfl, fun i hi => by
    have hi : i < 6 := hi
    interval_cases i <;> rfl⟩
  deg := ⟨rfl, rfl, fun _ _ _ _ => rfl⟩

/-- No cycle is selected at first, the tour `1 → 2 → 0 → 1` in the next round. -/
def c60Inputs : TspInputs := k3Inputs 4 3 4 1 2 3 true

theorem k3_complete : Complete 3 k3 := by
  unfold Complete
  intro u hu v hv
  interval_cases u <;> interval_cases v <;> decide

theorem k3Inputs_matrix (a b c d e f : ℚ) (flag : Bool) : ∃ C, (k3Inputs a b c d e f flag).costMatrix.Is 3 3 C :=
  ⟨fun u v => if u = v then 0 else if u = 0 then (if v = 1 then a else b) else
    if u = 1 then (if v = 0 then c else d) else if v = 0 then e else f, rfl, rfl, fun u hu v hv => by
    interval_cases u <;> interval_cases v <;> rfl⟩

/-- C60 is false as claimed: the native solver finds the tour of `c60Inputs` in its second round, the Python program fails. -/
theorem C60_claim_false : ¬ C60_claim := by
  intro hc
  have h1 : (tspSolve (tspSetup c60Inputs 2 false true (fin (-1 / 10000)) 5 10 (fun _ sel => (buildGraph sel).map Prod.fst)) 20
      (tspStart c60Inputs c60Inputs.degCost)).map (Option.map fun s => (s.an.tourFlag, s.numAugm, s.an.tour)) =
      some (some (true, 1, [1, 2, 0, 1])) := by decide +kernel
  have h2 : (pyTspSolve ⟨c60Inputs, 2, false, true, fin (-1 / 10000)⟩ 2 (pyTspStart c60Inputs c60Inputs.degCost)).map
      (Option.map fun s => s.selected) = some none := by decide +kernel
  simp only [Option.map_eq_some_iff] at h1
  obtain ⟨-, ho, st', rfl, hr⟩ := h1
  simp only [Prod.mk.injEq] at hr
  obtain ⟨C, hC⟩ := k3Inputs_matrix 4 3 4 1 2 3 true
  obtain ⟨ps, p1, -⟩ := hc c60Inputs _ _ C c60Inputs.degCost _ 1 false (-1 / 10000) 5 10 _ 20 st' (k3Inputs_ok 4 3 4 1 2 3 true) hC le_rfl k3_complete
    (fun _ => by norm_num [c60Inputs, k3Inputs]) (k3Inputs_ok 4 3 4 1 2 3 true).deg (fun j sel => Proofs.insertionOrder_ok j sel) (by norm_num) ho hr.1
  rw [hr.2.1] at p1
  rw [p1] at h2
  simp at h2

/-- Two relaxed loops, a round without a loop, then the tour. -/
def c60Good : TspInputs := k3Inputs 2 4 1 1 4 4 false

set_option synthInstance.maxSize 1000 in
/-- The native solver on this instance. -/
theorem c60Good_native : (tspSolve (tspSetup c60Good 1 false true (fin (-1 / 10000)) 5 10 (fun _ sel => (buildGraph sel).map Prod.fst)) 20
    (tspStart c60Good c60Good.degCost)).map (Option.map fun s => (s.an.tourFlag, s.numAugm, s.an.tour, s.selected)) =
    some (some (true, 2, [1, 2, 0, 1], [(0, 1), (1, 2), (2, 0)])) := by decide +kernel

set_option synthInstance.maxSize 1000 in
/-- The Python program on this instance: the constraint of the loop through all nodes is empty. -/
example : (pyTspSolve ⟨c60Good, 1, false, true, fin (-1 / 10000)⟩ 3 (pyTspStart c60Good c60Good.degCost)).map
    (Option.map fun s => (s.tour, s.selected, s.deltas)) =
    some (some (some [0, 1, 2, 0], [(0, 1), (1, 2), (2, 0)], [[1, 3], []])) := by decide +kernel

/-- All hypotheses of `C60_same_run_partial` hold for this instance. -/
example : ∃ (st' : TspState) (g : ℕ → PyTspSolver), st'.numAugm = 2 ∧
    PyTspRun ⟨c60Good, 1, false, true, fin (-1 / 10000)⟩ (pyTspStart c60Good c60Good.degCost) g 2 ∧ SameTspRound 6 st' (g 2) := by
  have h1 := c60Good_native
  simp only [Option.map_eq_some_iff] at h1
  obtain ⟨-, ho, st', rfl, hr⟩ := h1
  simp only [Prod.mk.injEq] at hr
  obtain ⟨C, hC⟩ := k3Inputs_matrix 2 4 1 1 4 4 false
  have h3 : (iterateRelaxed (tspSetup c60Good 1 false true (fin (-1 / 10000)) 5 10 (fun _ sel => (buildGraph sel).map Prod.fst))
      (tspStart c60Good c60Good.degCost)).map (fun s => decide (s.an.subtourPaths ≠ [])) = some true := by decide +kernel
  obtain ⟨f, g, -, g2, g3, g4, -⟩ := C60_same_run_partial (K := 0) (k3Inputs_ok 2 4 1 1 4 4 false) (fun hh => by simp [k3Inputs] at hh) hC
    le_rfl k3_complete (by simp) (k3Inputs_ok 2 4 1 1 4 4 false).deg (by norm_num) ho (fun _ st1 hst1 => by
      rw [show iterateRelaxed (tspSetup c60Good 1 false true (fin (-1 / 10000)) 5 10 (fun _ sel => (buildGraph sel).map Prod.fst))
        (tspStart c60Good c60Good.degCost) = some st1 from hst1] at h3
      simp only [Option.map_some, Option.some.injEq, decide_eq_true_eq] at h3
      obtain ⟨m, ext, intr, sel, total, an, -, -, f3, rfl⟩ := Proofs.iterateRelaxed_facts hst1
      exact fun hac => h3 ((Proofs.analyse_paths_ne (Proofs.insertionOrder_ok 0 sel) f3).2.mpr hac))
  have h4 := g4 _ le_rfl
  rw [g2] at h4
  rw [hr.2.1] at g3 h4
  exact ⟨st', g, hr.2.1, g3, h4⟩

/-- C60, the comparison between rounds (graphical_model.py:206): two selections count as the same if they have equally many edges
and the same sets of end nodes, whichever way the edges point. -/
theorem C60_comparison (a b : List (ℕ × ℕ)) :
    pySameEdges a b = true ↔ a.length = b.length ∧ {e | ∃ p ∈ a, e = s(p.1, p.2)} = {e | ∃ p ∈ b, e = s(p.1, p.2)} := by
  have hsub : ∀ a b : List (ℕ × ℕ), a.all (fun p => b.any (fun q => p == q || p == (q.2, q.1))) = true ↔
      {e | ∃ p ∈ a, e = s(p.1, p.2)} ⊆ {e | ∃ p ∈ b, e = s(p.1, p.2)} := by
    intro a b
    simp only [List.all_eq_true, List.any_eq_true, Bool.or_eq_true, beq_iff_eq, Set.subset_def, Set.mem_ofPred_eq]
    constructor
    · rintro h e ⟨p, hp, rfl⟩
      obtain ⟨q, hq, h1 | h1⟩ := h p hp
      · exact ⟨q, hq, by rw [h1]⟩
      · exact ⟨q, hq, by rw [h1]; exact Sym2.eq_swap⟩
    · intro h p hp
      obtain ⟨q, hq, h1⟩ := h _ ⟨p, hp, rfl⟩
      rw [Sym2.eq_iff] at h1
      exact ⟨q, hq, h1.imp (fun g => Prod.ext g.1 g.2) (fun g => Prod.ext g.1 g.2)⟩
  simp only [pySameEdges, Bool.and_eq_true, decide_eq_true_eq, hsub, and_assoc, Set.Subset.antisymm_iff]

/-- The direction of edges is ignored, their number is not. -/
example : pySameEdges [(0, 1), (2, 1)] [(1, 2), (0, 1)] = true ∧ pySameEdges [(0, 1), (1, 0)] [(0, 1)] = false ∧
    pySameEdges [(0, 1), (2, 1)] [(1, 2), (0, 2)] = false := by decide

/-- C60, when the comparison matters (graphical_model.py:203-215): a round in which the decision repeats the last selection ends the
process if one of the messages to degree constraints is NaN; in all other rounds the outcome of the comparison is ignored and the
analysis of the new selection follows. -/
theorem C60_no_improvement {c : PyTspSettings} {st : PyTspSolver} {msgs : PyTspState} {intr : Arr Num} {sel : List (ℕ × ℕ)} {cost : Num}
    (hm : pyTspAugmented c.inp c.reset st.deltas c.numIter st.msgs = some (msgs, intr))
    (hd : pyHardDecision c.thr intr c.inp.edges c.inp.cost = some (sel, cost)) :
    (sel.length = st.selected.length → {e | ∃ p ∈ sel, e = s(p.1, p.2)} = {e | ∃ p ∈ st.selected, e = s(p.1, p.2)} →
      (∃ i j, i < msgs.e2d.rows ∧ j < msgs.e2d.cols ∧ msgs.e2d.data i j = nan) → pyTspRound c st = none) ∧
    ((sel.length ≠ st.selected.length ∨ {e | ∃ p ∈ sel, e = s(p.1, p.2)} ≠ {e | ∃ p ∈ st.selected, e = s(p.1, p.2)} ∨
      (∀ i j, i < msgs.e2d.rows → j < msgs.e2d.cols → msgs.e2d.data i j ≠ nan)) →
      (pyTspRound c st).map (fun r => (r.selected, r.cost, r.intr, r.satisfied, r.tour, r.deltas)) =
        (pyAnalyse c.inp.numNodes c.inp.edges { st with msgs := msgs, intr := intr, selected := sel, cost := cost }).map
          (fun r => (r.selected, r.cost, r.intr, r.satisfied, r.tour, r.deltas))) := by
  have hn : anyNan msgs.e2d = true ↔ ∃ i j, i < msgs.e2d.rows ∧ j < msgs.e2d.cols ∧ msgs.e2d.data i j = nan := by
    simp only [anyNan, List.any_eq_true, List.mem_range, beq_iff_eq]
    exact ⟨fun ⟨i, hi, j, hj, e⟩ => ⟨i, j, hi, hj, e⟩, fun ⟨i, j, hi, hj, e⟩ => ⟨i, hi, j, hj, e⟩⟩
  constructor
  · intro h1 h2 h3
    have hc : (pySameEdges sel st.selected && anyNan msgs.e2d) = true := by
      rw [Bool.and_eq_true]; exact ⟨(C60_comparison _ _).mpr ⟨h1, h2⟩, hn.mpr h3⟩
    simp only [pyTspRound, hm, hd, hc, Option.bind_eq_bind, Option.bind_some, if_true]
  · intro h
    have hc : (pySameEdges sel st.selected && anyNan msgs.e2d) = false := by
      rw [Bool.eq_false_iff, ne_eq, Bool.and_eq_true]
      rintro ⟨g1, g2⟩
      obtain ⟨k1, k2⟩ := (C60_comparison _ _).mp g1
      rcases h with h | h | h
      · exact h k1
      · exact h k2
      · obtain ⟨i, j, hi, hj, e⟩ := hn.mp g2
        exact h i j hi hj e
    simp only [pyTspRound, hm, hd, hc, Option.bind_eq_bind, Option.bind_some, Bool.false_eq_true, if_false]
    cases pyAnalyse c.inp.numNodes c.inp.edges { st with msgs := msgs, intr := intr, selected := sel, cost := cost } <;> rfl

/-- A state in which the decision selects the edges 0→1 and 1→0, with the given messages to degree constraints. -/
def c60State (x : Num) (selected : List (ℕ × ℕ)) : PyTspSolver :=
  { msgs := ⟨⟨6, 3, fun i _ => if i = 5 then x else 0⟩, some ⟨6, 3, fun i j => if (i = 0 ∨ i = 2) ∧ j = 0 then fin (-9) else 0⟩, none,
      ⟨1, 6, fun _ _ => 0⟩, none⟩, intr := ⟨0, fun _ => 0⟩, selected := selected, cost := 0, deltas := [[1, 3]], satisfied := false }

/-- A repeated selection ends the process only if there is a NaN. -/
example : (pyTspRound ⟨c60Good, 0, false, true, fin (-1 / 10000)⟩ (c60State nan [(1, 0), (0, 1)])).isNone = true ∧
    (pyTspRound ⟨c60Good, 0, false, true, fin (-1 / 10000)⟩ (c60State nan [(1, 0), (2, 1)])).map (fun r => r.selected) =
      some [(0, 1), (1, 0)] ∧
    (pyTspRound ⟨c60Good, 0, false, true, fin (-1 / 10000)⟩ (c60State (fin 3) [(1, 0), (0, 1)])).map (fun r => r.selected) =
      some [(0, 1), (1, 0)] := by decide +kernel

end Verif.Properties
