import Verif.Proofs.TspTotal
import Verif.Properties.TspRun

/-! # C20: the augmentation rounds of the TSP solver -/

namespace Verif.Properties
open Verif Num Spec Model

section
variable {c : TspSetup} {st st' : TspState} {fuel : ℕ}

/-- C20, termination.  With a limit of at least one the loop ends by itself after at most that many rounds, whatever the
message passing does and whatever edges are selected. -/
theorem C20_terminates (hs : NewState st) (hm : 1 ≤ c.maxAugm) (hf : c.maxAugm < fuel) : tspSolve c fuel st ≠ none := by
  unfold tspSolve
  cases h : iterateRelaxed c st with
  | none => simp
  | some st1 =>
    obtain ⟨m0, e0, i0, rfl⟩ := hs
    obtain ⟨m1, ext, intr, sel, total, an, -, -, -, rfl⟩ := Proofs.iterateRelaxed_facts h
    simp only
    split
    · unfold performAugmentation addFirstRows
      split <;> exact Proofs.augmentLoop_ends (show ((0 : ℕ) : ℤ) < _ by omega) (show _ - ((0 : ℕ) : ℤ) < _ by omega)
    · simp

/-- C20.  For every behaviour of the message passing and every order in which hash maps are visited, a run that returns
consists of the relaxed round and `k` augmentation rounds, where `k` is the reported number of augmentations and at most the
limit.  It stops for a reason: tour found, augmentation switched off, a stop flag or the limit reached.  Each
stop flag is reported exactly if the corresponding event happened in the last `maxCount + 1` rounds
(selection equal to the previous one; selection equal to the one before but not to the previous one; no cycle selected; the
first two compare augmentation rounds only).
No round starts after a tour was found (see `AugRun`). -/
theorem C20_rounds (ho : ∀ k sel, StartOrder sel (c.order k sel)) (hs : NewState st) (hm : 1 ≤ c.maxAugm)
    (h : tspSolve c fuel st = some (some st')) :
    ∃ (k : ℕ) (f : ℕ → TspState) (st1 : TspState), iterateRelaxed c st = some st1 ∧ (∃ m, f 0 = { st1 with msgs := m }) ∧ f k = st' ∧
      (0 < k → f 0 = addFirstRows st1) ∧ AugRun c f k ∧ StopReason c st' ∧ st'.numAugm = k ∧ (k : ℤ) ≤ c.maxAugm ∧ (st1.an.satisfied = true → k = 0) ∧
      (st'.noImprovFlag = true ↔ 2 + c.maxCount ≤ k ∧ ∀ j ≤ c.maxCount, (f (k - j)).selected = (f (k - j - 1)).selected) ∧
      (st'.solOscFlag = true ↔ 3 + c.maxCount ≤ k ∧ ∀ j ≤ c.maxCount, (f (k - j)).selected = (f (k - j - 2)).selected ∧
        (f (k - j)).selected ≠ (f (k - j - 1)).selected) ∧
      (st'.an.noConsFlag = true ↔ c.maxCount ≤ k ∧ ∀ j ≤ c.maxCount, Acyclic (f (k - j)).selected) := by
  unfold tspSolve at h
  cases h1 : iterateRelaxed c st with
  | none => rw [h1] at h; simp at h
  | some st1 =>
    rw [h1] at h
    simp only at h
    have hnum0 : st1.numAugm = 0 := by
      obtain ⟨m0, e0, i0, rfl⟩ := hs
      obtain ⟨m1, ext, intr, sel, total, an, -, -, -, rfl⟩ := Proofs.iterateRelaxed_facts h1
      rfl
    obtain ⟨k, f, f0, fk, hfr0, hr, hstop, hk⟩ : ∃ (k : ℕ) (f : ℕ → TspState), (∃ m, f 0 = { st1 with msgs := m }) ∧ f k = st' ∧
        (0 < k → f 0 = addFirstRows st1) ∧ AugRun c f k ∧ StopReason c st' ∧ (st1.an.satisfied = true → k = 0) := by
      by_cases hgo : (!st1.an.satisfied && c.augmentation) = true
      · rw [if_pos hgo] at h
        unfold performAugmentation at h
        obtain ⟨k, f, f0, fk, hr, hstop⟩ := Proofs.augmentLoop_run h
        refine ⟨k, f, ?_, fk, fun _ => f0, hr, hstop, ?_⟩
        · rw [f0, addFirstRows]; split
          · exact ⟨_, rfl⟩
          · exact ⟨st1.msgs, rfl⟩
        · intro hsat; rw [hsat] at hgo; simp at hgo
      · rw [if_neg hgo] at h
        simp only [Option.some.injEq] at h
        refine ⟨0, fun _ => st1, ⟨st1.msgs, rfl⟩, h, by simp, Proofs.augRun_zero st1, ?_, fun _ => rfl⟩
        rw [← h]
        unfold StopReason
        cases h2 : st1.an.satisfied <;> cases h3 : c.augmentation <;> simp_all
    obtain ⟨m, hf0⟩ := id f0
    by_cases hsat : st1.an.satisfied = false
    · have hfr := Proofs.fresh_of_relaxed ho hs h1 hsat m
      rw [← hf0] at hfr
      obtain ⟨g1, g2, g3, g4⟩ := Proofs.run_flags ho hr hfr
      rw [fk] at g2 g3 g4
      exact ⟨k, f, st1, rfl, f0, fk, hfr0, hr, hstop, fk ▸ g1 k le_rfl, Proofs.augRun_limit hr g1 hm, hk, g2, g3, g4⟩
    · rw [Bool.not_eq_false] at hsat
      have hk0 := hk hsat
      subst hk0
      obtain ⟨m0, e0, i0, rfl⟩ := hs
      obtain ⟨m1, ext, intr, sel, total, an, -, -, h3, rfl⟩ := Proofs.iterateRelaxed_facts h1
      have hcons : an.noConsFlag = false ∧ ¬ Acyclic sel := by
        rcases Proofs.analyse_flags (ho _ _) h3 with ⟨-, -, -, -, a, -⟩ | ⟨a, b, -⟩
        · rw [show an.satisfied = true from hsat] at a; simp at a
        · exact ⟨b, a⟩
      refine ⟨0, f, _, rfl, f0, fk, hfr0, hr, hstop, ?_, by push_cast; omega, hk, ?_, ?_, ?_⟩
      · rw [← fk, hf0]
      · rw [← fk, hf0]; exact ⟨fun h => by simp at h, fun h => by omega⟩
      · rw [← fk, hf0]; exact ⟨fun h => by simp at h, fun h => by omega⟩
      · rw [← fk, hf0]
        refine ⟨fun h => ?_, fun h => ?_⟩
        · rw [show an.noConsFlag = true from h] at hcons; simp at hcons
        · have := h.2 0 (by omega)
          rw [Nat.sub_zero, hf0] at this
          exact absurd this hcons.2

/-- C20, one message row per constraint at the start of every round, provided the relaxed round leaves none (which it does,
see C38). -/
theorem C20_rows {st1 : TspState} (h1 : iterateRelaxed c st = some st1) (hrow : st1.msgs.s2e.rows = 0)
    (hsat : st1.an.satisfied = false) (haug : c.augmentation = true) (h : tspSolve c fuel st = some (some st')) :
    ∃ (k : ℕ) (f : ℕ → TspState), f k = st' ∧ AugRun c f k ∧ ∀ i < k, (f i).msgs.s2e.rows = (f i).an.deltas.length := by
  unfold tspSolve at h
  rw [h1] at h
  simp only [hsat, haug, Bool.not_false, Bool.and_self, if_true, performAugmentation] at h
  obtain ⟨k, f, f0, fk, hr, -⟩ := Proofs.augmentLoop_run h
  refine ⟨k, f, fk, hr, fun i hi => ?_⟩
  by_cases hi0 : i = 0
  · subst hi0
    rw [f0, addFirstRows]; split
    · show st1.msgs.s2e.rows + _ = _
      rw [hrow, zero_add]
    · rename_i hz; rw [hrow]; omega
  · obtain ⟨st2, -, s2⟩ := hr.round (i - 1) (by omega)
    rw [show i - 1 + 1 = i by omega] at s2
    rcases s2 with ⟨a, -⟩ | ⟨-, b⟩
    · omega
    · obtain ⟨a, m, b⟩ := Proofs.addMissingRows_facts b
      rw [a, b]

/-- C20 and C16 for the whole solver.  If the returned state reports a tour, it is a Hamiltonian cycle made of the edges
reported as selected; otherwise the reported tour is empty. -/
theorem C20_tour (ho : ∀ k sel, StartOrder sel (c.order k sel)) (hedges : EdgesOk c.numNodes c.edges) (hs : NewState st)
    (hm : 1 ≤ c.maxAugm) (h : tspSolve c fuel st = some (some st')) :
    (st'.an.tourFlag = true → IsTour (Joined st'.selected) c.numNodes st'.an.tour) ∧ (st'.an.tourFlag = false → st'.an.tour = []) := by
  obtain ⟨k, f, st1, h1, ⟨m, f0⟩, fk, -, hr, -⟩ := C20_rounds ho hs hm h
  obtain ⟨m0, e0, i0, rfl⟩ := hs
  obtain ⟨m1, ext, intr, sel, total, an, -, hh, h3, rfl⟩ := Proofs.iterateRelaxed_facts h1
  have sub : ∀ {sel : List (ℕ × ℕ)} {intr : Arr Num} {total : Num}, hardDecision c.numEdges c.thr intr c.edges c.cost = some (sel, total) →
      ∀ p ∈ sel, p.1 < c.numNodes ∧ p.2 < c.numNodes := fun hd p hp =>
    ⟨(hedges p (Proofs.hardDecision_mem hd p hp)).1, (hedges p (Proofs.hardDecision_mem hd p hp)).2.1⟩
  have key : ∀ i ≤ k, ((f i).an.tourFlag = true → IsTour (Joined (f i).selected) c.numNodes (f i).an.tour) ∧
      ((f i).an.tourFlag = false → (f i).an.tour = []) := by
    intro i
    induction i with
    | zero =>
      intro _; rw [f0]
      refine ⟨fun ht => (C16_tour (sub hh) (ho _ _) rfl h3 ht).1, fun ht => ?_⟩
      rcases Proofs.analyse_flags (ho _ _) h3 with ⟨-, -, -, -, -, a⟩ | ⟨-, -, ⟨a, -⟩ | ⟨-, -, -, a, -⟩⟩
      · exact a
      · rw [show an.tourFlag = false from ht] at a; simp at a
      · exact a
    | succ i ih =>
      intro hi
      obtain ⟨st2, s1, s2⟩ := hr.round i (by omega)
      have hgo := hr.going i (by omega)
      have e : (f (i + 1)).an = st2.an ∧ (f (i + 1)).selected = st2.selected := by
        rcases s2 with ⟨a, -, b⟩ | ⟨-, b⟩
        · rw [a, b]; exact ⟨rfl, rfl⟩
        · obtain ⟨-, m, b⟩ := Proofs.addMissingRows_facts b
          rw [b]; exact ⟨rfl, rfl⟩
      obtain ⟨intr', -, -, hd, ha, -⟩ := Proofs.iterateAugmented_facts s1
      rw [e.1, e.2]
      refine ⟨fun ht => (C16_tour (sub hd) (ho _ _) hgo.1 ha ht).1, fun ht => ?_⟩
      rcases Proofs.analyse_flags (ho _ _) ha with ⟨-, -, -, -, -, a⟩ | ⟨-, -, ⟨a, -⟩ | ⟨-, -, -, a, -⟩⟩
      · rw [a]; exact (ih (by omega)).2 hgo.1
      · rw [ht] at a; simp at a
      · rw [a]; exact (ih (by omega)).2 hgo.1
  rw [← fk]; exact key k le_rfl
end

/-! ## C39: does the call return? -/

section
variable {inp : TspInputs} {w : ℕ → ℚ} {cc : ℕ → ℕ → ℚ} {C : ℕ → ℕ → ℚ}

/-- C39, the full claim: on complete graphs with three or more nodes, finite numbers and positive costs the solver returns to
its caller (it does not end the process), for every iteration count, threshold and limit of at least one. -/
def C39_claim : Prop :=
  ∀ (inp : TspInputs) (w : ℕ → ℚ) (cc C x0 : ℕ → ℕ → ℚ) (e2d : Mat Num) (numIter maxCount fuel : ℕ) (reset augmentation : Bool)
    (thr : Num) (maxAugm : ℤ) (order : ℕ → List (ℕ × ℕ) → List ℕ), TspOk inp w cc → inp.costMatrix.Is inp.numNodes inp.numNodes C →
    3 ≤ inp.numNodes → Complete inp.numNodes inp.edges → (∀ k sel, StartOrder sel (order k sel)) →
    e2d.Is inp.numEdges inp.numNodes x0 → (∀ e < inp.numEdges, 0 < w e) → 1 ≤ maxAugm → maxAugm < fuel →
    ∃ st', tspSolve (tspSetup inp numIter reset augmentation thr maxCount maxAugm order) fuel (tspStart inp e2d) = some (some st')

/-- C39, what holds.  On complete graphs with three or more nodes and finite numbers the solver returns, except if in some
round the selected edges cost exactly zero while augmentation is still going on: then it ends the whole process
(`exit(0)`).  No other abnormal end is possible, in particular no access out of bounds, no NaN exit, no endless search. -/
theorem C39_returns_partial {x0 : ℕ → ℕ → ℚ} {e2d : Mat Num} {numIter maxCount fuel : ℕ} {reset augmentation : Bool} {thr : Num}
    {maxAugm : ℤ} {order : ℕ → List (ℕ × ℕ) → List ℕ} (h : TspOk inp w cc) (hC : inp.costMatrix.Is inp.numNodes inp.numNodes C)
    (hn : 3 ≤ inp.numNodes) (hcomp : Complete inp.numNodes inp.edges) (ho : ∀ k sel, StartOrder sel (order k sel))
    (he : e2d.Is inp.numEdges inp.numNodes x0) (hm : 1 ≤ maxAugm) (hf : maxAugm < fuel) :
    (∃ st', tspSolve (tspSetup inp numIter reset augmentation thr maxCount maxAugm order) fuel (tspStart inp e2d) = some (some st')) ∨
    tspSolve (tspSetup inp numIter reset augmentation thr maxCount maxAugm order) fuel (tspStart inp e2d) = some none ∧
      ∃ (k : ℕ) (f : ℕ → TspState) (st1 : TspState) (m : TspMsgs),
        iterateRelaxed (tspSetup inp numIter reset augmentation thr maxCount maxAugm order) (tspStart inp e2d) = some st1 ∧
        f 0 = { st1 with msgs := m } ∧
        AugRun (tspSetup inp numIter reset augmentation thr maxCount maxAugm order) f k ∧ (f k).cost = 0 ∧
        (f k).an.tourFlag = false ∧ ((∀ e < inp.numEdges, 0 < w e) → (f k).selected = []) := by
  have hend := C20_terminates (c := tspSetup inp numIter reset augmentation thr maxCount maxAugm order) (fuel := fuel)
    (st := tspStart inp e2d) ⟨_, _, _, rfl⟩ hm hf
  cases hs : tspSolve (tspSetup inp numIter reset augmentation thr maxCount maxAugm order) fuel (tspStart inp e2d) with
  | none => exact absurd hs hend
  | some r =>
    cases r with
    | some st' => exact Or.inl ⟨st', rfl⟩
    | none =>
      refine Or.inr ⟨rfl, ?_⟩
      obtain ⟨st1, r1, r2, r3, r4, r5⟩ := Proofs.relaxed_total (numIter := numIter) (reset := reset) (augmentation := augmentation)
        (thr := thr) (maxCount := maxCount) (maxAugm := maxAugm) h hn hcomp ho he
      unfold tspSolve at hs
      rw [r1] at hs
      simp only at hs
      by_cases hgo : (!st1.an.satisfied && (tspSetup inp numIter reset augmentation thr maxCount maxAugm order).augmentation) = true
      · rw [if_pos hgo] at hs
        unfold performAugmentation addFirstRows at hs
        obtain ⟨m, hm1, hm2⟩ : ∃ m, TspMsgsOk inp st1.an.deltas m ∧
            augmentLoop (tspSetup inp numIter reset augmentation thr maxCount maxAugm order) fuel { st1 with msgs := m } = some none := by
          by_cases hd : st1.an.deltas.length > 0
          · simp only [if_pos hd] at hs
            exact ⟨_, by simpa using Proofs.tspAddCuts_ok r2 st1.an.deltas, hs⟩
          · simp only [if_neg hd] at hs
            have : st1.an.deltas = [] := List.eq_nil_of_length_eq_zero (by omega)
            exact ⟨st1.msgs, by rw [this]; exact r2, hs⟩
        obtain ⟨k, f, f0, hr, hz, ht, -⟩ := Proofs.augmentLoop_total h hC hn hcomp ho fuel (st := { st1 with msgs := m }) ⟨hm1, r3, r4, r5⟩ hm2
        refine ⟨k, f, st1, m, r1, f0, hr, hz, ht, fun hw => ?_⟩
        by_cases hk : k = 0
        · subst hk
          obtain ⟨m1, ext, intr, sel, total, an, -, hh, -, rfl⟩ := Proofs.iterateRelaxed_facts r1
          rw [f0] at hz ⊢
          exact Proofs.hardDecision_zero h.cost hw hh hz
        · obtain ⟨st2, s1, s2⟩ := hr.round (k - 1) (by omega)
          rw [show k - 1 + 1 = k by omega] at s2
          have e : (f k).cost = st2.cost ∧ (f k).selected = st2.selected := by
            rcases s2 with ⟨-, -, b⟩ | ⟨-, b⟩
            · rw [b]; exact ⟨rfl, rfl⟩
            · obtain ⟨-, m, b⟩ := Proofs.addMissingRows_facts b
              rw [b]; exact ⟨rfl, rfl⟩
          obtain ⟨_, -, -, hh, -⟩ := Proofs.iterateAugmented_facts s1
          rw [e.1] at hz; rw [e.2]
          exact Proofs.hardDecision_zero h.cost hw hh hz
      · rw [if_neg hgo] at hs; simp at hs
end

/-- A possible order of visiting the nodes. -/
def someOrder (_ : ℕ) (sel : List (ℕ × ℕ)) : List ℕ := (sel.map Prod.fst).dedup

theorem someOrder_ok (k : ℕ) (sel : List (ℕ × ℕ)) : StartOrder sel (someOrder k sel) := by
  refine ⟨List.nodup_dedup _, fun u => ?_⟩
  rw [someOrder, List.mem_dedup, List.mem_map]
  exact ⟨fun ⟨p, h, e⟩ => ⟨p.2, by subst e; exact h⟩, fun ⟨v, h⟩ => ⟨(u, v), h, rfl⟩⟩

/-- Three nodes, all costs equal to 1, no damping. -/
def c39Inputs : TspInputs where
  numNodes := 3
  numEdges := 6
  edges := k3
  cost := Arr.fill 6 (fin 1)
  costMatrix := Mat.fill 3 3 (fin 1)
  degCost := Mat.fill 6 3 (fin 1)
  flag := false
  alpha := 0
theorem c39_exits : (tspSolve (tspSetup c39Inputs 2 true true (fin (-1 / 10000)) 1 5 someOrder) 6
    (tspStart c39Inputs c39Inputs.degCost)).map Option.isSome = some false := by decide +kernel

/-- C39 as claimed is false: with equal costs the beliefs swing between "all edges" and "no edge"; after an even number of
iterations nothing is selected, the cost is zero and the process ends. -/
theorem C39_claim_false : ¬ C39_claim := by
  intro h
  obtain ⟨st', hs⟩ := h c39Inputs (fun _ => 1) (fun _ _ => 1) (fun _ _ => 1) (fun _ _ => 1) c39Inputs.degCost 2 1 6 true true
    (fin (-1 / 10000)) 5 someOrder
    ⟨by unfold EdgesOk; decide, rfl, by unfold TwoWays; decide, ⟨rfl, fun _ _ => rfl⟩, ⟨rfl, rfl, fun _ _ _ _ => rfl⟩⟩
    ⟨rfl, rfl, fun _ _ _ _ => rfl⟩ (by decide)
    (by
      unfold Complete
      intro u hu v hv
      simp only [c39Inputs] at hu hv
      interval_cases u <;> interval_cases v <;> decide)
    someOrder_ok ⟨rfl, rfl, fun _ _ _ _ => rfl⟩ (fun _ _ => by norm_num) (by norm_num) (by norm_num)
  have := c39_exits
  rw [hs] at this
  simp at this

/-- An instance on four nodes where going `0 → 1 → 0` and `2 → 3 → 2` is cheap. -/
def c20Cost (u v : ℕ) : ℚ := if u = v then 0 else if u + v = 1 then 1 else if u + v = 5 then 2 else 5 + u
def c20Inputs : TspInputs where
  numNodes := 4
  numEdges := 12
  edges := k4
  cost := Arr.ofList (k4.map fun p => fin (c20Cost p.1 p.2))
  costMatrix := ⟨4, 4, fun u v => fin (c20Cost u v)⟩
  degCost := ⟨12, 4, fun e _ => fin (c20Cost (src k4 e) (dst k4 e))⟩
  flag := true
  alpha := 1 / 2

/-- What is reported. -/
def c20Report (st : TspState) : List (List ℕ) × List (ℕ × ℕ) × ℕ × List Bool :=
  (st.an.tour :: st.an.deltas, st.selected, st.numAugm, [st.noImprovFlag, st.solOscFlag, st.an.noConsFlag])

/-- Failure count 1: the selection is the same in three rounds, so the run stops after round 3. -/
example : ((tspSolve (tspSetup c20Inputs 3 true true (fin (-1 / 10000)) 1 5 someOrder) 6 (tspStart c20Inputs c20Inputs.degCost)).bind id).map
    c20Report = some ([[], [1, 2, 4, 5], [6, 7, 9, 10]], [(0, 1), (1, 0), (2, 3), (3, 2)], 3, [true, false, false]) := by
  decide +kernel
/-- Limit 1: one round. -/
example : ((tspSolve (tspSetup c20Inputs 3 true true (fin (-1 / 10000)) 1 1 someOrder) 6 (tspStart c20Inputs c20Inputs.degCost)).bind id).map
    c20Report = some ([[], [1, 2, 4, 5], [6, 7, 9, 10]], [(0, 1), (1, 0), (2, 3), (3, 2)], 1, [false, false, false]) := by
  decide +kernel
/-- Limit 0 does not mean "no rounds": it is never met, so three rounds are run. -/
example : (tspSolve (tspSetup c20Inputs 3 true true (fin (-1 / 10000)) 1 0 someOrder) 6 (tspStart c20Inputs c20Inputs.degCost)).map
    (Option.map TspState.numAugm) = some (some 3) := by
  decide +kernel
/-- A tour found at once: no augmentation. -/
example : ((tspSolve (tspSetup c12Inputs 2 true true (fin (-1 / 10000)) 1 5 someOrder) 6 (tspStart c12Inputs c12Inputs.degCost)).bind id).map
    c20Report = some ([[1, 2, 0, 1]], [(0, 1), (1, 2), (2, 0)], 0, [false, false, false]) := by
  decide +kernel
example : NewState (tspStart c20Inputs c20Inputs.degCost) := ⟨_, _, _, rfl⟩

end Verif.Properties
