import Verif.Proofs.TspKOpt
import Verif.Properties.TspCost
import Verif.Spec.Loops

/-! C26: the k-opt improvement of a tour. -/

namespace Verif.Properties
open Verif Model Spec Proofs Num

/-- The attributes of the solver object for a complete graph with costs `C`. -/
structure PyOk (py : TspPy) (C : ℕ → ℕ → ℚ) : Prop where
  edges : AllEdges py.n py.edges
  costs : py.costs = py.edges.map (fun e => fin (C e.1 e.2))
  matrix : py.matrix.Is py.n py.n C

/-- Closing a tour: the cost of the closed walk is the length of the tour. -/
theorem walkCost_closed (C : ℕ → ℕ → ℚ) (a : ℕ) (t : List ℕ) : walkCost C (a :: t ++ [a]) = tourLength C (a :: t) := by
  have h : (a :: t).zip (t ++ [a]) = (a :: t ++ [a]).zip (t ++ [a]) := by
    conv_rhs => rw [show (a :: t ++ [a]) = (a :: t) ++ [a] from rfl]
    have := List.zip_append (l₁ := a :: t) (r₁ := [a]) (l₂ := t ++ [a]) (r₂ := ([] : List ℕ)) (by simp)
    simpa using this.symm
  unfold walkCost tourLength
  rw [List.rotate_cons_succ, List.rotate_zero, h]
  rfl

/-- C26: on a complete graph with at least five nodes k-opt succeeds.  First it moves to a tour that is at least as cheap as every tour
obtained by rotating three positions, then to one at least as cheap as every tour obtained from that by swapping two.  The result visits
every node once, is not more expensive than the given tour, and the returned cost is its cost. -/
theorem C26_kopt {py : TspPy} {C : ℕ → ℕ → ℚ} (hp : PyOk py C) (hn : 5 ≤ py.n) {t : List ℕ} (ht : Visits py.n t) :
    ∃ t1 t2, performKOpt py t (fin (tourLength C t)) = some (t2, fin (tourLength C t2)) ∧ Visits py.n t2 ∧
      tourLength C t2 ≤ tourLength C t ∧ BestOf C Rotated3 t t1 ∧ BestOf C Swapped t1 t2 := by
  obtain ⟨t1, t2, h1, h2, h3⟩ := performKOpt_spec hp.edges hp.costs ht hn
  have v1 : Visits py.n t1 := by
    rcases h2.1 with rfl | h
    · exact ht
    · exact (rotated_perm h).trans ht
  have v2 : Visits py.n t2 := by
    rcases h3.1 with rfl | h
    · exact v1
    · exact (swapped_perm h).trans v1
  exact ⟨t1, t2, h1, v2, h3.2.1.trans h2.2.1, h2, h3⟩

/-- C26: the candidates for two positions are exactly the tours with two nodes swapped, from four nodes on; shorter tours raise an
exception. -/
theorem C26_two (t : List ℕ) : ((kOptPaths t false).isSome ↔ 4 ≤ t.length) ∧
    ∀ l, kOptPaths t false = some l → ∀ c, c ∈ l ↔ Swapped t c := by
  by_cases h : 4 ≤ t.length
  · obtain ⟨l, h1, -, h3⟩ := kOpt_two h
    refine ⟨by simp [h1, h], fun l' hl => ?_⟩
    obtain rfl : l = l' := by rw [h1] at hl; simpa using hl
    exact h3
  · have h0 : kOptPaths t false = none := by
      simp only [kOptPaths, Bool.false_eq_true, if_false]
      rw [if_pos (by omega)]
    exact ⟨by simp [h0, h], fun l' hl => by rw [h0] at hl; cases hl⟩

/-- C26: the candidates for three positions are exactly the tours with three nodes moved on, from five nodes on; shorter tours raise an
exception. -/
theorem C26_three (t : List ℕ) : ((kOptPaths t true).isSome ↔ 5 ≤ t.length) ∧
    ∀ l, kOptPaths t true = some l → ∀ c, c ∈ l ↔ Rotated3 t c := by
  by_cases h : 5 ≤ t.length
  · obtain ⟨l, h1, -, h3⟩ := kOpt_three h
    refine ⟨by simp [h1, h], fun l' hl => ?_⟩
    obtain rfl : l = l' := by rw [h1] at hl; simpa using hl
    exact h3
  · have h0 : kOptPaths t true = none := by
      simp only [kOptPaths, if_true]
      rw [if_pos (by omega)]
    exact ⟨by simp [h0, h], fun l' hl => by rw [h0] at hl; cases hl⟩

/-- C26: with at most four nodes the improvement raises an exception. -/
theorem C26_small {py : TspPy} {t : List ℕ} {c : Num} (h : t.length ≤ 4) : performKOpt py t c = none := performKOpt_small h

/-- Attributes for five nodes. -/
def py5 : TspPy :=
  let m := Mat.ofRat 5 5 (fun i j => if i = j then 0 else ((i * 7 + j * 3) % 11 + 1 : ℕ))
  { edges := nonzeroEdges m, costs := (edgeCosts m (nonzeroEdges m)).getD [], intr := List.replicate 20 (fin 1), matrix := m, n := 5 }

/-- k-opt improves a tour of cost 39 to a tour of cost 17. -/
example : (tourCost py5 [0, 2, 1, 4, 3], performKOpt py5 [0, 2, 1, 4, 3] (fin 39)) = (some (fin 39), some ([4, 0, 1, 2, 3], fin 17)) := by
  decide +kernel

/-- Random costs satisfy the hypotheses of the theorems. -/
theorem pyOk_random (symmetric : Bool) (n : ℕ) {q : ℕ → ℕ → ℚ} (hq : ∀ i j, q i j ≠ 0) :
    ∃ (py : TspPy) (C : ℕ → ℕ → ℚ), py.matrix = costMatrix symmetric n (fun i j => fin (q i j)) ∧ py.edges = nonzeroEdges py.matrix ∧
      edgeCosts py.matrix py.edges = some py.costs ∧ py.n = n ∧ PyOk py C := by
  obtain ⟨C, hC, -⟩ := C34_matrix symmetric n q
  obtain ⟨-, -, h3⟩ := C34_edges hC
  refine ⟨⟨_, _, [], _, n⟩, C, rfl, rfl, h3, rfl, (C34_complete symmetric n hq).1, rfl, hC⟩

end Verif.Properties
