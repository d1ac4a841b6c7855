import Verif.Proofs.TspPost

/-! C34: the random cost matrix and its list of edges.  C27: inserting missing nodes. -/

namespace Verif.Properties
open Verif Model Spec Proofs Num

/-- C34, matrix: for all random outcomes the diagonal is zero, entries above the diagonal are the random numbers, entries below it are the
random numbers in asymmetric mode and mirror the upper half in symmetric mode. -/
theorem C34_matrix (symmetric : Bool) (n : ℕ) (q : ℕ → ℕ → ℚ) :
    ∃ C : ℕ → ℕ → ℚ, (costMatrix symmetric n (fun i j => fin (q i j))).Is n n C ∧ (∀ i, C i i = 0) ∧
      (∀ i j, i < j → C i j = q i j) ∧ (symmetric = true → ∀ i j, C i j = C j i) ∧ (symmetric = false → ∀ i j, i ≠ j → C i j = q i j) := by
  cases symmetric
  · refine ⟨fun i j => if i = j then 0 else q i j, ⟨rfl, rfl, fun i _ j _ => ?_⟩, fun i => if_pos rfl,
      fun i j h => if_neg (by omega), fun h => absurd h (by decide), fun _ i j h => if_neg h⟩
    simp only [costMatrix, Bool.false_eq_true, if_false]
    split_ifs <;> rfl
  · refine ⟨fun i j => if i = j then 0 else if i < j then q i j else q j i, ⟨rfl, rfl, fun i _ j _ => ?_⟩, fun i => if_pos rfl,
      fun i j h => by simp [h, show i ≠ j by omega], fun _ i j => ?_, fun h => absurd h (by decide)⟩
    · simp only [costMatrix, if_true]
      by_cases h : i = j
      · simp [h, zero_def]
      · rcases lt_or_gt_of_ne h with h1 | h1
        · rw [if_neg h, if_pos h1.le, if_neg (by omega), if_neg h, if_pos h1, zero_def, fin_add, add_zero]
        · rw [if_neg h, if_neg (by omega), if_pos h1, if_neg h, if_neg (by omega), zero_def, fin_add, zero_add]
    · by_cases h : i = j
      · simp [h]
      · rcases lt_or_gt_of_ne h with h1 | h1
        · simp [h, h1, show ¬ j < i by omega, show j ≠ i by omega]
        · simp [h, h1, show ¬ i < j by omega, show j ≠ i by omega]

/-- C34, edges: the list of edges contains exactly the pairs with nonzero cost, each once, ordered by first and then second node. -/
theorem C34_edges {n : ℕ} {m : Mat Num} {C : ℕ → ℕ → ℚ} (hm : m.Is n n C) :
    (nonzeroEdges m).Pairwise (fun a b => a.1 < b.1 ∨ a.1 = b.1 ∧ a.2 < b.2) ∧
    (∀ i j, (i, j) ∈ nonzeroEdges m ↔ i < n ∧ j < n ∧ C i j ≠ 0) ∧
    edgeCosts m (nonzeroEdges m) = some ((nonzeroEdges m).map (fun e => fin (C e.1 e.2))) := by
  have hmem : ∀ i j, (i, j) ∈ nonzeroEdges m ↔ i < n ∧ j < n ∧ C i j ≠ 0 := by
    intro i j
    simp only [nonzeroEdges, hm.1, hm.2.1, List.mem_flatMap, List.mem_range, List.mem_map, List.mem_filter, decide_eq_true_eq, Prod.mk.injEq]
    constructor
    · rintro ⟨a, ha, b, ⟨hb, hne⟩, rfl, rfl⟩
      refine ⟨ha, hb, fun h0 => hne ?_⟩
      rw [hm.2.2 a ha b hb, h0, zero_def]
    · rintro ⟨hi, hj, hne⟩
      refine ⟨i, hi, j, ⟨hj, ?_⟩, rfl, rfl⟩
      rw [hm.2.2 i hi j hj, zero_def]
      simpa using hne
  refine ⟨?_, hmem, ?_⟩
  · unfold nonzeroEdges
    rw [List.pairwise_flatMap]
    refine ⟨fun i _ => ?_, ?_⟩
    · rw [List.pairwise_map]
      exact (List.pairwise_lt_range.filter _).imp fun h => .inr ⟨rfl, h⟩
    · refine List.pairwise_lt_range.imp fun {a b} hab x hx y hy => ?_
      obtain ⟨-, -, rfl⟩ := List.mem_map.mp hx
      obtain ⟨-, -, rfl⟩ := List.mem_map.mp hy
      exact .inl hab
  · exact mapM_some fun e he => by
      obtain ⟨h1, h2, -⟩ := (hmem e.1 e.2).mp he
      exact hm.rd h1 h2

/-- C34: when the random numbers are nonzero — they are drawn between 1 and 1000 — the list of edges contains every ordered pair of distinct
nodes exactly once, so it has as many entries as the arrays of edge variables. -/
theorem C34_complete (symmetric : Bool) (n : ℕ) {q : ℕ → ℕ → ℚ} (hq : ∀ i j, q i j ≠ 0) :
    AllEdges n (nonzeroEdges (costMatrix symmetric n (fun i j => fin (q i j)))) ∧
    (nonzeroEdges (costMatrix symmetric n (fun i j => fin (q i j)))).length = n ^ 2 - n := by
  obtain ⟨C, hC, h0, h1, h2, h3⟩ := C34_matrix symmetric n q
  obtain ⟨e1, e2, -⟩ := C34_edges hC
  have hne : ∀ i j, C i j ≠ 0 ↔ i ≠ j := by
    intro i j
    refine ⟨fun h hij => h (hij ▸ h0 i), fun h => ?_⟩
    cases symmetric
    · rw [h3 rfl i j h]; exact hq i j
    · rcases lt_or_gt_of_ne h with hl | hl
      · rw [h1 i j hl]; exact hq i j
      · rw [h2 rfl i j, h1 j i hl]; exact hq j i
  have hnd : (nonzeroEdges (costMatrix symmetric n (fun i j => fin (q i j)))).Nodup :=
    e1.imp (fun {a b} h hab => by subst hab; omega)
  refine ⟨⟨hnd, fun e he => ?_, fun i hi j hj hij => (e2 i j).mpr ⟨hi, hj, (hne i j).mpr hij⟩⟩, ?_⟩
  · obtain ⟨a, b, c⟩ := (e2 e.1 e.2).mp he
    exact ⟨a, b, (hne _ _).mp c⟩
  · have : (nonzeroEdges (costMatrix symmetric n (fun i j => fin (q i j)))).toFinset = (Finset.range n).offDiag := by
      ext ⟨i, j⟩
      simp only [List.mem_toFinset, e2, Finset.mem_offDiag, Finset.mem_range, hne]
    rw [← List.toFinset_card_of_nodup hnd, this, Finset.offDiag_card, Finset.card_range, sq]

/-- A symmetric and an asymmetric matrix on three nodes. -/
example : ((List.range 3).map (fun i => (List.range 3).map ((costMatrix true 3 (fun i j => fin (i * 3 + j + 1))).data i))) =
    [[0, fin 2, fin 3], [fin 2, 0, fin 6], [fin 3, fin 6, 0]] := by decide +kernel
example : nonzeroEdges (costMatrix false 3 (fun i j => fin (i * 3 + j + 1))) = [(0, 1), (0, 2), (1, 0), (1, 2), (2, 0), (2, 1)] := by
  decide +kernel

/-- C27: with finite costs the insertion succeeds; it adds the missing nodes one by one, each time the node and side with the smallest cost
of the new edge. -/
theorem C27_greedy {m : Mat Num} {n : ℕ} {C : ℕ → ℕ → ℚ} (hm : m.Is n n C) {tour missing : List ℕ} (hne : tour ≠ [])
    (htour : ∀ v ∈ tour, v < n) (hd : missing.Nodup) (hmiss : ∀ v ∈ missing, v < n) :
    ∃ r, addMissing m tour missing = some r ∧ Greedy C tour missing r :=
  addMissing_spec hm hd hmiss hne htour

/-- C27: the result consists of the old tour, in its order, between two lists that together contain every missing node once. -/
theorem C27_nothing_lost {m : Mat Num} {n : ℕ} {C : ℕ → ℕ → ℚ} (hm : m.Is n n C) {tour missing : List ℕ} (hne : tour ≠ [])
    (htour : ∀ v ∈ tour, v < n) (hd : missing.Nodup) (hmiss : ∀ v ∈ missing, v < n) :
    ∃ l r, addMissing m tour missing = some (l ++ tour ++ r) ∧ (l ++ r).Perm missing := by
  obtain ⟨r, h1, h2⟩ := addMissing_spec hm hd hmiss hne htour
  obtain ⟨l, l', rfl, hp⟩ := Greedy.parts h2
  exact ⟨l, l', h1, hp⟩

/-- C27: in particular the result visits every node once if the old tour and the missing nodes do. -/
theorem C27_once {m : Mat Num} {n : ℕ} {C : ℕ → ℕ → ℚ} (hm : m.Is n n C) {tour missing r : List ℕ} (hne : tour ≠ [])
    (htour : ∀ v ∈ tour, v < n) (hd : tour.Nodup) (hmiss : ∀ v, v ∈ missing ↔ v < n ∧ v ∉ tour) (hdm : missing.Nodup)
    (h : addMissing m tour missing = some r) : Visits n r := by
  obtain ⟨l, l', h1, hp⟩ := C27_nothing_lost hm hne htour hdm (fun v hv => ((hmiss v).mp hv).1)
  obtain rfl : l ++ tour ++ l' = r := by rw [h] at h1; simpa using h1.symm
  have hp2 : (l ++ tour ++ l').Perm (tour ++ missing) := by
    rw [List.append_assoc]
    refine (List.Perm.append_left l (List.perm_append_comm (l₁ := tour))).trans ?_
    rw [← List.append_assoc]
    exact (List.perm_append_comm (l₂ := tour)).trans (hp.append_left tour)
  refine hp2.trans ((List.perm_ext_iff_of_nodup ?_ List.nodup_range).mpr fun v => ?_)
  · exact List.nodup_append.mpr ⟨hd, hdm, fun a ha b hb hab => ((hmiss b).mp hb).2 (hab ▸ ha)⟩
  · rw [List.mem_append, hmiss, List.mem_range]
    exact ⟨fun h => h.elim (htour v) (fun h => h.1), fun h => by by_cases hv : v ∈ tour <;> simp [hv, h]⟩

/-- Two missing nodes, one added on each side. -/
example : addMissing (Mat.ofRat 4 4 (fun i j => if (i, j) = (3, 2) then 1 else ((i + j + 2 : ℕ) : ℚ))) [2, 1] [0, 3] = some [3, 2, 1, 0] := by decide +kernel

/-- The insertion is greedy, not optimal for the closed tour: here it closes with the most expensive edge. -/
example : addMissing (Mat.ofRat 3 3 (fun i j => if (i, j) = (1, 2) then 100 else if i < j then 1 else 5)) [0] [1, 2] =
    some [2, 0, 1] := by decide +kernel

end Verif.Properties
