import Verif.Proofs.PyTspSim
import Verif.Spec.PyTspSolve
import Verif.Proofs.TspTotal

/-! Helper lemmas for C60: the loop over the augmentation rounds of the pure Python TSP program. -/

namespace Verif.Proofs
open Verif Num Spec Model

theorem SameRound.same {E : ℕ} {st : TspState} {ps : PyTspSolver} (h : SameRound E st ps) (hl : ∀ l ∈ st.an.subtourPaths, l ≠ []) :
    SameTspRound E st ps where
  selected := h.selected
  cost := h.cost
  intrinsic := h.intr
  loops := by
    rw [h.loops, List.forall₂_map_right_iff, List.forall₂_same]
    intro l hm
    refine ⟨l.dropLast, l.getLast (hl l hm), (List.dropLast_append_getLast _).symm, ?_⟩
    unfold rotateBack
    rw [List.getLastD_eq_getLast?, List.getLast?_eq_getLast_of_ne_nil (hl l hm)]; rfl
  cuts := h.cuts
  flags := ⟨h.flags.1.trans h.flags.2.2.symm, h.flags.2.1⟩
  no_tour := fun ht => by
    rcases h.tour with ⟨-, h'⟩ | ⟨h', -⟩
    · exact h'
    · rw [ht] at h'; simp at h'
  tour := fun ht => by
    rcases h.tour with ⟨h', -⟩ | ⟨-, h'⟩
    · rw [ht] at h'; simp at h'
    · exact h'

theorem analyse_paths_ne {n mc : ℕ} {edges sel : List (ℕ × ℕ)} {order : List ℕ} (ho : StartOrder sel order) {s s' : TspAnalysis}
    (h : analyse n mc edges sel order s = some s') : (∀ l ∈ s'.subtourPaths, l ≠ []) ∧ (s'.subtourPaths = [] ↔ Acyclic sel) := by
  obtain ⟨loops, k1, k2, -, -, k5⟩ := getClosedLoops_spec ho
  simp only [analyse, k1, Option.bind_eq_bind, Option.bind_some, Option.some.injEq] at h
  have hp : s'.subtourPaths = loops := by
    subst h
    match loops with
    | [] => simp only [analyseLoops]; split <;> rfl
    | l :: rest =>
      simp only [analyseLoops, analyseLoops_foldl]
      split <;> rfl
  rw [hp]
  exact ⟨fun l hl => isCycle_ne (k2 l hl), k5⟩

section
variable {inp : TspInputs} {w : ℕ → ℚ} {cc C : ℕ → ℕ → ℚ} {K : ℕ} {reset : Bool} {thr : Num} {maxCount : ℕ} {maxAugm : ℤ}

/-- All augmentation rounds. -/
theorem rounds_same (h : TspOk inp w cc) (hfa : inp.flag = true → inp.alpha ≠ 0) (hC : inp.costMatrix.Is inp.numNodes inp.numNodes C)
    (hn : 3 ≤ inp.numNodes) (hcomp : Complete inp.numNodes inp.edges) (hthr : thr ≠ nan) {f : ℕ → TspState} {k : ℕ}
    (hr : AugRun (tspSetup inp (K + 1) reset true thr maxCount maxAugm insertionOrder) f k) {ps0 : PyTspSolver}
    (hi : SolverInv inp (f 0)) (hs : SameRound inp.numEdges (f 0) ps0) (hl : ∀ l ∈ (f 0).an.subtourPaths, l ≠ [])
    (hthin : 0 < k → ∃ σ, SameCuts (f 0).an.deltas ps0.deltas σ ∧ TspThin inp (f 0).an.deltas ps0.deltas σ (f 0).msgs ps0.msgs)
    (hne : 0 < k → ps0.deltas ≠ []) :
    ∃ g : ℕ → PyTspSolver, g 0 = ps0 ∧ (∀ i < k, pyTspRound ⟨inp, K + 1, reset, true, thr⟩ (g i) = some (g (i + 1))) ∧
      ∀ i ≤ k, SameRound inp.numEdges (f i) (g i) ∧ ∀ l ∈ (f i).an.subtourPaths, l ≠ [] := by
  have key : ∀ j ≤ k, ∃ g : ℕ → PyTspSolver, g 0 = ps0 ∧ (∀ i < j, pyTspRound ⟨inp, K + 1, reset, true, thr⟩ (g i) = some (g (i + 1))) ∧
      (∀ i ≤ j, SameRound inp.numEdges (f i) (g i) ∧ ∀ l ∈ (f i).an.subtourPaths, l ≠ []) ∧ (j < k → SolverInv inp (f j) ∧ (g j).deltas ≠ [] ∧
        ∃ σ, SameCuts (f j).an.deltas (g j).deltas σ ∧ TspThin inp (f j).an.deltas (g j).deltas σ (f j).msgs (g j).msgs) := by
    intro j
    induction j with
    | zero =>
      intro _
      refine ⟨fun _ => ps0, rfl, by simp, fun i hi' => ?_, fun hk => ⟨hi, hne hk, hthin hk⟩⟩
      obtain rfl : i = 0 := by omega
      exact ⟨hs, hl⟩
    | succ j ih =>
      intro hj
      obtain ⟨g, g0, g1, g2, g3⟩ := ih (by omega)
      obtain ⟨i1, i2, i3⟩ := g3 (by omega)
      obtain ⟨st1, r1, r2⟩ := hr.round j (by omega)
      obtain ⟨ps1, p1, p2, p3, p4⟩ := round_same h hfa hC hn hcomp hthr i1 (g2 j le_rfl).1 (hr.going j (by omega)).1 i3 i2 r1
      have hl1 : ∀ l ∈ st1.an.subtourPaths, l ≠ [] := by
        obtain ⟨_, -, -, -, a4, -⟩ := iterateAugmented_facts r1
        exact (analyse_paths_ne (insertionOrder_ok 0 _) a4).1
      have hnext : SameRound inp.numEdges (f (j + 1)) ps1 ∧ (∀ l ∈ (f (j + 1)).an.subtourPaths, l ≠ []) ∧ (j + 1 < k → SolverInv inp (f (j + 1)) ∧
          ∃ σ, SameCuts (f (j + 1)).an.deltas ps1.deltas σ ∧ TspThin inp (f (j + 1)).an.deltas ps1.deltas σ (f (j + 1)).msgs ps1.msgs) := by
        rcases r2 with ⟨e1, -, e3⟩ | ⟨-, e2⟩
        · rw [e1, e3]; exact ⟨p2, hl1, fun hlt => absurd hlt (lt_irrefl _)⟩
        · obtain ⟨q1, q2, q3⟩ := p4 _ e2
          refine ⟨q1, ?_, fun _ => ⟨q2, q3⟩⟩
          obtain ⟨-, m, hm⟩ := addMissingRows_facts e2
          rw [hm]; exact hl1
      refine ⟨fun i => if i ≤ j then g i else ps1, by simp [g0], fun i hi' => ?_, fun i hi' => ?_, fun hk => ?_⟩
      · by_cases hij : i = j
        · subst hij; simpa using p1
        · beta_reduce
          rw [if_pos (by omega), if_pos (by omega)]; exact g1 i (by omega)
      · beta_reduce
        by_cases hij : i ≤ j
        · rw [if_pos hij]; exact g2 i hij
        · obtain rfl : i = j + 1 := by omega
          rw [if_neg hij]; exact ⟨hnext.1, hnext.2.1⟩
      · beta_reduce
        rw [if_neg (by omega)]
        exact ⟨(hnext.2.2 hk).1, p3, (hnext.2.2 hk).2⟩
  obtain ⟨g, g0, g1, g2, -⟩ := key k le_rfl
  exact ⟨g, g0, g1, g2⟩

/-- A run and what the whole program returns. -/
theorem pyTspLoop_run {c : PyTspSettings} {start : PyTspState} {g : ℕ → PyTspSolver} {k : ℕ} (h : PyTspRun c start g k) (fuel : ℕ) :
    pyTspSolve c (k + fuel) start = pyTspLoop c fuel (g k) := by
  have key : ∀ j ≤ k, ∀ fuel, pyTspLoop c (j + fuel) (g (k - j)) = pyTspLoop c fuel (g k) := by
    intro j
    induction j with
    | zero => intro _ fuel; simp
    | succ j ih =>
      intro hj fuel
      obtain ⟨a1, a2, a3⟩ := h.going (k - (j + 1)) (by omega)
      have hr := h.round (k - (j + 1)) (by omega)
      rw [show k - (j + 1) + 1 = k - j by omega] at hr
      rw [show j + 1 + fuel = (j + fuel) + 1 by omega, pyTspLoop, a1, a2, a3]
      simp only [Bool.not_false, Bool.and_self, if_true, hr]
      exact ih (by omega) fuel
  unfold pyTspSolve
  rw [h.first]
  have := key k le_rfl fuel
  rw [Nat.sub_self] at this
  exact this

/-- Without subtour constraints the augmented message passing of the Python program raises an exception. -/
theorem pyTspRound_empty {c : PyTspSettings} {st : PyTspSolver} (hK : 0 < c.numIter) (hd : st.deltas = []) : pyTspRound c st = none := by
  have hiter : ∀ p, pyTspAugmentedIter c.inp [] 0 p = none := by
    intro p
    unfold pyTspAugmentedIter
    simp only [Option.bind_eq_bind, Option.bind_eq_none_iff]
    intro dummy _ ⟨deg, degOld⟩ _ e2s _ sub hsub ⟨s2e, subOld⟩ hf
    have hrows : sub.rows = 0 := by
      simp only [pySubtourUpdate, List.length_nil, loopUp] at hsub
      simp at hsub
      rw [← hsub]; rfl
    have : s2e.rows = 0 := by
      unfold pyFilter at hf
      split at hf
      · simp only [Option.some.injEq, Prod.mk.injEq] at hf
        rw [← hf.1]; exact hrows
      · simp at hf
        rw [← hf.2.1]; exact hrows
    intro e2d he
    simp [pyEdgeToDegreeAugmented, this] at he
  unfold pyTspRound pyTspAugmented
  obtain ⟨k, hk⟩ : ∃ k, c.numIter = k + 1 := ⟨c.numIter - 1, by omega⟩
  rw [hd, hk]
  have hloop : ∀ k p, loopUp (k + 1) (pyTspAugmentedIter c.inp []) p = none := by
    intro k
    induction k with
    | zero => intro p; simp [loopUp, hiter]
    | succ k ih => intro p; rw [loopUp, ih p]; rfl
  simp [hloop]

end

end Verif.Proofs
