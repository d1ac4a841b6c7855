import Verif.Proofs.TspCall

/-! # C49: a whole call of the TSP solver from Python -/

namespace Verif.Properties
open Verif Num Spec Model

section
variable {s : TspSettings} {order : ℕ → List (ℕ × ℕ) → List ℕ} {fuel limit n : ℕ} {m : Mat Num} {C : ℕ → ℕ → ℚ} {edges : List (ℕ × ℕ)}
  {r : TspResult} {done : Bool}

/-- C49, what a call returns.  The number of augmentations, the selected edges and the beliefs are those of the mathematical rounds
on the given cost matrix.  Without post-processing a tour is a tour of selected edges (then there are at least five nodes) and the
cost is that of the selected edges; after post-processing there is a tour through all nodes and the cost is its cost.  If
post-processing is switched on there is always a tour. -/
theorem C49_result (hm : m.Is n n C) (h : AllEdges n edges) (hn : 3 ≤ n) (ho : ∀ k sel, StartOrder sel (order k sel))
    (ha : 1 ≤ s.maxAugm) (hlim : n ≤ limit) (hr : runImpa s order fuel limit n m edges = some (some (r, done))) :
    ∃ k R, TspRounds (callProblem s n C edges) (endCosts C edges) R k ∧ r.numAugm = k ∧ (k : ℤ) ≤ s.maxAugm ∧
      (s.augmentation = false → k = 0) ∧ r.selected = (R k).sel ∧
      r.intrinsic = listOf (n * n - n) (fun e => fin (belief (callProblem s n C edges) (R k) e)) ∧
      (∀ ls, r.subtours = some ls → ls ≠ [] ∧ ∀ p ∈ ls, p.head? = p.getLast? ∧ p.IsChain (Joined r.selected) ∧ p.tail.Nodup ∧ 2 ≤ p.length) ∧
      (done = false → (∀ t, r.tour = some t → IsTour (Joined r.selected) n t ∧ 5 ≤ n) ∧
        ∃ cost, Selects edges (fun e => C (src edges e) (dst edges e)) (belief (callProblem s n C edges) (R k)) s.thr r.selected cost ∧
          r.cost = fin cost) ∧
      (done = true → s.postProcess = true ∧ ∃ t, r.tour = some t ∧ IsTour (fun u v => u ≠ v) n t ∧ r.cost = fin (walkCost C t)) ∧
      (s.postProcess = true → r.tour.isSome) := by
  obtain ⟨inp, a, d2, d3, d4, hP, hok, hC, hx, hcomp, hrun⟩ := Proofs.call_run s order fuel limit hm h hn
  rw [hrun, Option.map_eq_some_iff] at hr
  obtain ⟨o, hs, hr⟩ := hr
  simp only [Option.bind_eq_some_iff] at hr
  obtain ⟨st', rfl, b, hb, q, hq, hfin⟩ := hr
  obtain ⟨k, R, g1, g2, g3, g4, g5, ⟨cost, g6, g7⟩, g8, g9, g10, -⟩ := C46_rounds hok hC (by omega) hcomp ho hx ha hs
  rw [hP] at g1 g6 g8
  rw [d4] at g6
  obtain ⟨q', hq', c⟩ := Proofs.call_read hm h hn ho ha hlim d2 d3 d4 hs g8 hb
  obtain rfl : q = q' := by rw [hq] at hq'; simpa using hq'
  unfold tspFinish at hfin
  split at hfin
  · next hif =>
    simp only [Bool.and_eq_true, Option.isNone_iff_eq_none] at hif
    simp only [Option.bind_eq_bind, Option.bind_eq_some_iff, Option.some.injEq, Prod.mk.injEq] at hfin
    obtain ⟨⟨t, x⟩, hpp, rfl, rfl⟩ := hfin
    obtain ⟨y1, y2⟩ := C25_tour c.post hpp
    exact ⟨k, R, g1, by rw [← g2]; exact c.numAugm, g3, g4, by rw [← g5]; exact c.selected, c.beliefs, c.subtours, fun hh => (by cases hh),
      fun _ => ⟨hif.2, t, rfl, y1, y2⟩, fun _ => rfl⟩
  · next hif =>
    obtain ⟨rfl, rfl⟩ : q = r ∧ false = done := by simpa using hfin
    refine ⟨k, R, g1, by rw [← g2]; exact c.numAugm, g3, g4, by rw [← g5]; exact c.selected, c.beliefs, c.subtours,
      fun _ => ⟨c.tour, cost, by rw [c.selected, g5]; exact g6, by rw [c.cost]; exact g7⟩, fun hh => (by cases hh), fun hp => ?_⟩
    cases hh : q.tour with
    | none => rw [hh, hp] at hif; simp at hif
    | some t => rfl

/-- C49, how a call can fail.  The call ends (the loop of augmentations needs at most `maxAugm` rounds).  If it does not return
a result, it has performed rounds `0, ..., k` of the mathematical algorithm and then one of four things happened: the selection costs
zero and the process ended; the selected edges do not fit their buffer; the nodes of the selected cycles do not fit their buffer;
or post-processing raised an exception, because among the edges it kept none leads to an end of a path, or because k-opt was
requested for less than five nodes. -/
theorem C49_ends (hm : m.Is n n C) (h : AllEdges n edges) (hn : 3 ≤ n) (ho : ∀ k sel, StartOrder sel (order k sel))
    (ha : 1 ≤ s.maxAugm) (hlim : n ≤ limit) (hf : s.maxAugm < fuel) :
    (∃ r done, runImpa s order fuel limit n m edges = some (some (r, done))) ∨
    runImpa s order fuel limit n m edges = some none ∧ ∃ k R, TspRounds (callProblem s n C edges) (endCosts C edges) R k ∧
      (s.augmentation = true ∧
          Selects edges (fun e => C (src edges e) (dst edges e)) (belief (callProblem s n C edges) (R k)) s.thr (R k).sel 0 ∨
        Nat.choose n 2 < 2 * (R k).sel.length ∨
        (∃ loops : List (List ℕ), (∀ l ∈ loops, IsCycle (Joined (R k).sel) l) ∧ n ^ 2 < loops.flatten.length) ∨
        s.postProcess = true ∧ ((s.kOpt = true ∧ n < 5) ∨
          ∃ E : List (ℕ × ℕ), E.Nodup ∧ (∀ e ∈ E, e ∈ (R k).sel) ∧ OneOut E ∧ OneIn E ∧ ¬ HasEnd E)) := by
  obtain ⟨inp, a, d2, d3, d4, hP, hok, hC, hx, hcomp, hrun⟩ := Proofs.call_run s order fuel limit hm h hn
  have hl := allEdges_length h
  have hend := C20_terminates (c := Proofs.callSetup s order inp) (fuel := fuel) (st := tspStart inp a) ⟨_, _, _, rfl⟩ ha hf
  rw [hrun]
  cases hs : tspSolve (Proofs.callSetup s order inp) fuel (tspStart inp a) with
  | none => exact absurd hs hend
  | some o =>
    cases o with
    | none =>
      obtain ⟨k, R, g1, g2, g3⟩ := C46_exit hok hC (by omega) hcomp ho hx hs
      rw [hP] at g1 g3
      rw [d4] at g3
      exact Or.inr ⟨rfl, k, R, g1, Or.inl ⟨g2, g3⟩⟩
    | some st' =>
      obtain ⟨k, R, g1, g2, g3, g4, g5, ⟨cost, g6, g7⟩, g8, g9, g10, -⟩ := C46_rounds hok hC (by omega) hcomp ho hx ha hs
      rw [hP] at g1 g6 g8
      have c1 : (Proofs.callSetup s order inp).numNodes = n := d2
      have c2 : (Proofs.callSetup s order inp).numEdges = n * n - n := d3
      have c3 : (Proofs.callSetup s order inp).edges = edges := d4
      have hnew : NewState (tspStart inp a) := ⟨_, _, _, rfl⟩
      have hfit := (C21_fits_iff_partial ho (by rw [c1, c2]) (by rw [c2, c3, hl]) hnew ha hs g8.1).2.2
      rw [c1, c2] at hfit
      cases hb : processOutputs (n * n - n) st' (newBuffers n) with
      | none =>
        rw [hb] at hfit
        refine Or.inr ⟨by simp [hb], k, R, g1, ?_⟩
        rw [← g5]
        by_cases h1 : 2 * st'.selected.length ≤ Nat.choose n 2
        · have h2 : ¬ st'.an.subtourPaths.flatten.length ≤ n ^ 2 := fun hh => by simpa using hfit.mpr ⟨h1, hh⟩
          obtain ⟨intr, s0, ord, o1, o2, o3, o4, o5⟩ := Proofs.solve_last ho hnew ha hs
          obtain ⟨loops, l1, l2, l3, -⟩ := Proofs.analyse_last o1 o2 o3 o5
          exact Or.inr (Or.inr (Or.inl ⟨loops, l3, by rw [← l2]; omega⟩))
        · exact Or.inr (Or.inl (by omega))
      | some b =>
        obtain ⟨q, hq, c⟩ := Proofs.call_read hm h hn ho ha hlim d2 d3 d4 hs g8 hb
        simp only [Option.map_some, Option.bind_some, hb, hq]
        unfold tspFinish
        split
        · next hif =>
          simp only [Bool.and_eq_true, Option.isNone_iff_eq_none] at hif
          obtain ⟨E, e1, e2⟩ := C25_returns c.post s.kOpt
          obtain ⟨E', e3, e4, e5, e6, e7⟩ := C25_kept c.post
          obtain rfl : E = E' := by rw [e1] at e3; simpa using e3
          cases hpp : runPostProcessing { edges := edges, costs := edges.map (fun e => fin (C e.1 e.2)), intr := q.intrinsic, matrix := m, n := n }
              limit s.kOpt q.selected q.subtours with
          | none =>
            rw [hpp] at e2
            refine Or.inr ⟨rfl, k, R, g1, Or.inr (Or.inr (Or.inr ⟨hif.2, ?_⟩))⟩
            by_cases hk : s.kOpt = true ∧ n < 5
            · exact Or.inl hk
            · refine Or.inr ⟨E, e4, fun e he => by rw [← g5, ← c.selected]; exact e5 e he, e6, e7, fun hE => ?_⟩
              have := e2.mpr ⟨hE, fun hk1 => by by_contra hlt; exact hk ⟨hk1, Nat.not_le.mp hlt⟩⟩
              simp at this
          | some p => exact Or.inl ⟨_, _, rfl⟩
        · exact Or.inl ⟨_, _, rfl⟩

/-- C49, other numbers of edges.  If the list of edges does not have `n * n - n` entries, the call never returns a result: Python
raises `IndexError` or the native side reads past the end.  In particular this happens for each cost matrix with a zero between
two nodes (`C48_zero_cost`). -/
theorem C49_other_edges (s : TspSettings) (order : ℕ → List (ℕ × ℕ) → List ℕ) (fuel limit : ℕ) (hr : m.rows = n) (hc : m.cols = n)
    (h : EdgesOk n edges) (hl : edges.length ≠ n * n - n) : runImpa s order fuel limit n m edges = some none := by
  have h1 := (C48_defined s.flag s.alpha hr hc h).2
  have h2 : tspInputs s.flag s.alpha n m edges = none := by
    cases h3 : tspInputs s.flag s.alpha n m edges with
    | none => rfl
    | some p => exact absurd (h1.mp (by simp [h3])) hl
  unfold tspInputs at h2
  unfold runImpa
  cases ht : tspTables n m edges with
  | none => rfl
  | some t =>
    rw [ht, Option.bind_some] at h2
    simp [tspWrapper, h2]

end

/-- Five nodes, the tour `0 → 1 → 2 → 3 → 4 → 0` is cheap. -/
def tourCosts (u v : ℕ) : ℚ := (([[0, 1, 9, 8, 7], [9, 0, 2, 9, 8], [7, 8, 0, 1, 9], [8, 9, 9, 0, 2], [3, 7, 9, 8, 0]] : List (List ℚ)).getD u []).getD v 0
/-- Five nodes, two cheap cycles. -/
def cycleCosts (u v : ℕ) : ℚ := (([[0, 1, 9, 8, 7], [1, 0, 7, 9, 8], [7, 8, 0, 1, 9], [8, 9, 9, 0, 2], [9, 7, 1, 8, 0]] : List (List ℚ)).getD u []).getD v 0
/-- Two iterations per round, damping 1/2. -/
def callSettings (post : Bool) : TspSettings := ⟨2, true, true, true, 1 / 2, fin (-1 / 10000), 2, 6, post, true⟩

/-- The hypotheses hold, the tour is found by message passing alone. -/
example : AllEdges 5 (nonzeroEdges (Mat.ofRat 5 5 tourCosts)) := by
  refine ⟨by decide +kernel, by unfold EdgesOk; decide +kernel, ?_⟩
  unfold Complete
  intro u hu v hv
  interval_cases u <;> interval_cases v <;> decide +kernel
example : (runImpa (callSettings true) someOrder 8 10 5 (Mat.ofRat 5 5 tourCosts) (nonzeroEdges (Mat.ofRat 5 5 tourCosts))).map
    (Option.map fun p => (p.1.tour, p.1.cost, p.2)) = some (some (some [1, 2, 3, 4, 0, 1], fin 9, false)) := by decide +kernel
/-- Four rounds without improvement; post-processing makes a tour of the two cycles. -/
example : (runImpa (callSettings true) someOrder 8 10 5 (Mat.ofRat 5 5 cycleCosts) (nonzeroEdges (Mat.ofRat 5 5 cycleCosts))).map
    (Option.map fun p => (p.1.tour, p.1.subtours)) =
    some (some (some [1, 0, 4, 2, 3, 1], some [[1, 0, 1], [3, 4, 2, 3]])) := by decide +kernel
example : (runImpa (callSettings true) someOrder 8 10 5 (Mat.ofRat 5 5 cycleCosts) (nonzeroEdges (Mat.ofRat 5 5 cycleCosts))).map
    (Option.map fun p => (p.1.numAugm, p.1.cost, p.2)) = some (some (4, fin 19, true)) := by decide +kernel
/-- Without post-processing there is no tour. -/
example : (runImpa (callSettings false) someOrder 8 10 5 (Mat.ofRat 5 5 cycleCosts) (nonzeroEdges (Mat.ofRat 5 5 cycleCosts))).map
    (Option.map fun p => (p.1.tour, p.1.cost, p.2)) = some (some (none, fin 6, false)) := by decide +kernel
/-- On four nodes the tour of C46 does not fit the buffer. -/
example : (runImpa (callSettings true) someOrder 8 10 4 (Mat.ofRat 4 4 c46Cost) k4).map Option.isSome = some false := by decide +kernel
/-- A zero cost between two nodes. -/
example : (runImpa (callSettings true) someOrder 8 10 3 (Mat.ofRat 3 3 zeroCost) (nonzeroEdges (Mat.ofRat 3 3 zeroCost))).map
    Option.isSome = some false := by decide +kernel

end Verif.Properties
