import Verif.Proofs.TspSafe
import Verif.Properties.TspSolve
import Verif.Properties.TspIO
import Verif.Properties.Forbidden

/-!
C92: the TSP solver stays inside its arrays exactly if every node can be left and entered, whatever the costs are (infinite and NaN included).
-/

namespace Verif.Properties
open Verif Num Model Spec

section
variable {inp : TspInputs} {e2d : Mat Num} {thr : Num} {order : ℕ → List (ℕ × ℕ) → List ℕ}

/-- C92, the relaxed round.  With at least one iteration it returns exactly if the edges join nodes that exist and every node can be left, and entered from
another node. -/
theorem C92_relaxed (h : TspShapes inp e2d) (K : ℕ) (reset augmentation : Bool) (maxCount : ℕ) (maxAugm : ℤ) (ho : ∀ k sel, StartOrder sel (order k sel)) :
    (∃ st, iterateRelaxed (tspSetup inp (K + 1) reset augmentation thr maxCount maxAugm order) (tspStart inp e2d) = some st) ↔
      EndsExist inp.numNodes inp.edges ∧ LeftAndEntered inp.numNodes inp.edges := by
  constructor
  · rintro ⟨st, hst⟩
    obtain ⟨m, ext, intr, -, -, -, h1, -⟩ := Proofs.iterateRelaxed_facts hst
    have h1 : tspRelaxed inp (K + 1) (tspInit inp e2d) (Arr.fill inp.numEdges 0, Arr.fill inp.numEdges 0) = some (m, ext, intr) := h1
    simp only [tspRelaxed, Option.bind_eq_bind, Option.bind_eq_some_iff] at h1
    obtain ⟨m', h2, -⟩ := h1
    obtain ⟨t, t', h3, h4⟩ := Proofs.loopUp_step h2 (Nat.succ_pos K)
    obtain rfl := Option.some.inj h3
    exact Proofs.relaxedIter_needs ⟨rfl, rfl⟩ ⟨rfl, rfl⟩ ⟨rfl, rfl⟩ h4
  · rintro ⟨h1, h2⟩
    obtain ⟨st, s1, -⟩ := Proofs.first_safe (numIter := K + 1) (reset := reset) (augmentation := augmentation) (thr := thr) (maxCount := maxCount)
      (maxAugm := maxAugm) h h1 h2 ho
    exact ⟨st, s1⟩

/-- C92, all rounds.  Then no round of the solver leaves its arrays either: the solver returns, or the program ends because the selection of some round costs
nothing or because a message is not a number. -/
theorem C92_rounds (h : TspShapes inp e2d) (he : EndsExist inp.numNodes inp.edges) (hl : LeftAndEntered inp.numNodes inp.edges) (K : ℕ)
    (reset augmentation : Bool) (maxCount : ℕ) {maxAugm : ℤ} (hma : 1 ≤ maxAugm) {fuel : ℕ} (hfuel : maxAugm < fuel) (ho : ∀ k sel, StartOrder sel (order k sel)) :
    (∃ st, tspSolve (tspSetup inp K reset augmentation thr maxCount maxAugm order) fuel (tspStart inp e2d) = some (some st) ∧ st.intr.size = inp.numEdges) ∨
      tspSolve (tspSetup inp K reset augmentation thr maxCount maxAugm order) fuel (tspStart inp e2d) = some none ∧
        ∃ (st : TspState) (k : ℕ) (f : ℕ → TspState),
          iterateRelaxed (tspSetup inp K reset augmentation thr maxCount maxAugm order) (tspStart inp e2d) = some st ∧ f 0 = addFirstRows st ∧
          AugRun (tspSetup inp K reset augmentation thr maxCount maxAugm order) f k ∧ ((f k).cost = 0 ∨ NanSeen inp reset K (f k)) := by
  obtain ⟨st1, s1, s2, s3⟩ := Proofs.first_safe (numIter := K) (reset := reset) (augmentation := augmentation) (thr := thr) (maxCount := maxCount)
    (maxAugm := maxAugm) h he hl ho
  obtain ⟨l1, l2⟩ := Proofs.loop_safe (numIter := K) (reset := reset) (augmentation := augmentation) (thr := thr) (maxCount := maxCount)
    (maxAugm := maxAugm) h he hl ho fuel s2
  have hend := C20_terminates (c := tspSetup inp K reset augmentation thr maxCount maxAugm order) (fuel := fuel) (st := tspStart inp e2d) ⟨_, _, _, rfl⟩ hma hfuel
  have hsolve : tspSolve (tspSetup inp K reset augmentation thr maxCount maxAugm order) fuel (tspStart inp e2d) =
      if !st1.an.satisfied && augmentation then augmentLoop (tspSetup inp K reset augmentation thr maxCount maxAugm order) fuel (addFirstRows st1) else some (some st1) := by
    unfold tspSolve
    rw [s1]; rfl
  cases hs : tspSolve (tspSetup inp K reset augmentation thr maxCount maxAugm order) fuel (tspStart inp e2d) with
  | none => exact absurd hs hend
  | some r =>
    rw [hsolve] at hs
    cases r with
    | none =>
      right
      split_ifs at hs with hc
      · obtain ⟨k, f, f0, f1, f2⟩ := l2 hs
        exact ⟨rfl, st1, k, f, s1, f0, f1, f2⟩
      · simp at hs
    | some st =>
      left
      refine ⟨st, rfl, ?_⟩
      split_ifs at hs with hc
      · exact l1 st hs
      · simp only [Option.some.injEq] at hs
        subst hs; exact s3

end

section
variable {n : ℕ} {m : Mat Num} {edges : List (ℕ × ℕ)} {flag : Bool} {alpha : ℚ} {thr : Num} {order : ℕ → List (ℕ × ℕ) → List ℕ}

/-- C92, the call from Python with a complete graph, any numbers in the cost matrix.  The relaxed round returns for every number of nodes but one. -/
theorem C92_complete (hr : m.rows = n) (hc : m.cols = n) (h : AllEdges n edges) (K : ℕ) (reset augmentation : Bool) (maxCount : ℕ) (maxAugm : ℤ)
    (ho : ∀ k sel, StartOrder sel (order k sel)) :
    ∃ inp a, tspInputs flag alpha n m edges = some (inp, a) ∧
      ((∃ st, iterateRelaxed (tspSetup inp (K + 1) reset augmentation thr maxCount maxAugm order) (tspStart inp a) = some st) ↔ n ≠ 1) := by
  obtain ⟨inp, a, d1, d2, d3, d4, -, -, d7, -, d9, d10, d11, d12, -⟩ := C48_decoded flag alpha hr hc h.2.1 (allEdges_length h)
  refine ⟨inp, a, d1, ?_⟩
  have hsh : TspShapes inp a := ⟨by rw [d4, d3]; exact allEdges_length h, by rw [d7, d3], ⟨by rw [d9.1, d2], by rw [d9.2.1, d2]⟩,
    ⟨by rw [d10.1, d3], by rw [d10.2.1, d2]⟩, ⟨by rw [d11, d3], by rw [d12, d2]⟩⟩
  rw [C92_relaxed hsh K reset augmentation maxCount maxAugm ho, d2, d4]
  constructor
  · rintro ⟨-, hl⟩ rfl
    obtain ⟨⟨c, hc, -⟩, -⟩ := hl 0 (by norm_num)
    have := h.2.1 c hc
    omega
  · intro hn
    refine ⟨fun c hc => ⟨(h.2.1 c hc).1, (h.2.1 c hc).2.1⟩, fun v hv => ?_⟩
    obtain ⟨w, hw, hvw⟩ : ∃ w < n, v ≠ w := by
      by_cases h0 : v = 0
      · exact ⟨1, by omega, by omega⟩
      · exact ⟨0, by omega, by omega⟩
    exact ⟨⟨(v, w), h.2.2 v hv w hw hvw, rfl⟩, (w, v), h.2.2 w hw v hv (Ne.symm hvw), Ne.symm hvw, rfl⟩

end

/-- Four nodes, a sparse graph: the cycle `0 → 1 → 2 → 3 → 0` and the edge `1 → 3`. -/
def sparseInputs (edges : List (ℕ × ℕ)) : TspInputs where
  numNodes := 4
  numEdges := edges.length
  edges := edges
  cost := Arr.fill edges.length (fin 3)
  costMatrix := Mat.fill 4 4 (fin 3)
  degCost := ⟨edges.length, 4, fun e v => if v = src edges e ∨ v = dst edges e then fin 3 else 0⟩
  flag := true
  alpha := 1 / 2

/-- Every node can be left and entered: the relaxed round returns.  The edges that a node cannot do without have belief `-∞` and are selected. -/
example : (iterateRelaxed (tspSetup (sparseInputs [(0, 1), (1, 2), (2, 3), (3, 0), (1, 3)]) 4 true true (fin (-1 / 10000)) 5 10 someOrder)
      (tspStart (sparseInputs [(0, 1), (1, 2), (2, 3), (3, 0), (1, 3)]) (Mat.fill 5 4 (fin 3)))).map
      (fun st => (st.selected, (List.range 5).map st.intr.data)) =
    some ([(0, 1), (1, 2), (2, 3), (3, 0)], [ninf, ninf, ninf, ninf, pinf]) := by decide +kernel

example : EndsExist 4 [(0, 1), (1, 2), (2, 3), (3, 0), (1, 3)] ∧ LeftAndEntered 4 [(0, 1), (1, 2), (2, 3), (3, 0), (1, 3)] := by
  refine ⟨?_, ?_⟩
  · unfold EndsExist; decide
  · unfold LeftAndEntered; decide

/-- Node 2 cannot be left: the round reads past the end of an empty list. -/
example : ¬ ∃ st, iterateRelaxed (tspSetup (sparseInputs [(0, 1), (1, 2), (3, 0), (1, 3)]) 4 true true (fin (-1 / 10000)) 5 10 someOrder)
    (tspStart (sparseInputs [(0, 1), (1, 2), (3, 0), (1, 3)]) (Mat.fill 4 4 (fin 3))) = some st := by
  rw [C92_relaxed (inp := sparseInputs [(0, 1), (1, 2), (3, 0), (1, 3)]) ⟨rfl, rfl, ⟨rfl, rfl⟩, ⟨rfl, rfl⟩, ⟨rfl, rfl⟩⟩ 3 true true 5 10 someOrder_ok]
  rintro ⟨-, h⟩
  obtain ⟨⟨c, hc, h2⟩, -⟩ := h 2 (by decide)
  simp only [sparseInputs, List.mem_cons, List.not_mem_nil, or_false] at hc
  rcases hc with rfl | rfl | rfl | rfl <;> simp at h2

/-- An edge from a node to itself does not let anyone in. -/
example : ¬ LeftAndEntered 2 [(0, 0), (0, 1), (1, 1)] := by unfold LeftAndEntered; decide

/-- Two nodes: both edges are taken. -/
example : (solveMatrix true (1 / 2) 2 1 true true (-1 / 10000) 5 10 someOrder 12 [(0, 1), (1, 0)] (fun i j => fin (2 + 3 * i + j))).map
    (Option.map fun (st : TspState) => (st.numAugm, st.an.tour, st.cost)) = some (some (0, [1, 0, 1], fin 8)) := by decide +kernel

/-- One node: there is no outcome. -/
example : (solveMatrix true (1 / 2) 1 1 true true (-1 / 10000) 5 10 someOrder 12 [] (fun _ _ => fin 1)).map Option.isSome = some false := by decide +kernel

/-- Costs that are not numbers: everything is selected, the augmented round computes its messages and then ends the program. -/
def nanInputs : TspInputs := { sparseInputs [(0, 1), (1, 0), (2, 3), (3, 2), (1, 2), (3, 0)] with cost := Arr.fill 6 nan, degCost := Mat.fill 6 4 nan }

example : (tspSolve (tspSetup nanInputs 1 true true (fin 100) 5 10 someOrder) 12 (tspStart nanInputs (Mat.fill 6 4 nan))).map Option.isSome = some false := by
  decide +kernel
example : (iterateRelaxed (tspSetup nanInputs 1 true true (fin 100) 5 10 someOrder) (tspStart nanInputs (Mat.fill 6 4 nan))).map
    (fun st => (decide (st.cost = 0), st.selected.length)) = some (false, 6) := by
  decide +kernel
example : TspShapes nanInputs (Mat.fill 6 4 nan) := ⟨rfl, rfl, ⟨rfl, rfl⟩, ⟨rfl, rfl⟩, ⟨rfl, rfl⟩⟩

end Verif.Properties
