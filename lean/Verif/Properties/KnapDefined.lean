import Verif.Proofs.KnapDefined
import Verif.Properties.Knapsack
import Verif.Properties.KcIO

/-! # C90: the assignment solver stays inside its arrays exactly on well-formed problems -/

namespace Verif.Properties
open Verif Num Spec Model

/-- C90, one department.  `nz` lists in increasing order the teams with non-zero weight.  The three passes of the capacity constraint stay
inside their arrays iff the department has a team and each of its teams fits alone: for a team that is too large the code reads beyond a
table (first team) or dereferences the minimum of an empty range (other teams), without a team it reads the first entry of an empty list. -/
theorem C90_department {T cap sz : ℕ} {nz : List ℕ} {w : Arr ℕ} {wf : ℕ → ℕ} (sorted : nz.Pairwise (· < ·))
    (mem : ∀ t, t ∈ nz ↔ t < T ∧ wf t ≠ 0) (size : sz = nz.length) (w_size : w.size = T) (w_data : ∀ t < T, w.data t = wf t)
    {m : Arr Num} {mf : ℕ → ℚ} (hm : m.Is T mf) {old : Arr Num} (ho : old.size = T) :
    (∃ out, knapMessages T cap nz sz w m old = some out) ↔ (∃ t < T, wf t ≠ 0) ∧ ∀ t < T, wf t ≤ cap := by
  constructor
  · rintro ⟨out, h⟩
    obtain ⟨h1, h2⟩ := Proofs.knapMessages_needs h
    constructor
    · obtain ⟨t, ht⟩ := List.exists_mem_of_ne_nil nz h1
      exact ⟨t, (mem t).mp ht⟩
    · intro t ht
      by_cases e : wf t = 0
      · omega
      · have := h2 t (by omega) (by rw [w_data t ht]; exact e)
        rwa [w_data t ht] at this
  · rintro ⟨⟨t, ht⟩, h2⟩
    obtain ⟨out, h, -⟩ := C07_knapsack_messages_exact (cap := cap)
      ⟨sorted, mem, List.ne_nil_of_mem ((mem t).mpr ht), size, w_size, w_data, fun t ht => h2 t ((mem t).mp ht).1⟩ hm ho
    exact ⟨out, h⟩

section
variable {D T P : ℕ} {wf : ℕ → ℕ → ℕ} {cap : ℕ → ℕ}

/-- C90, whatever the costs are (also infinite or NaN): if a call with at least one iteration stays inside the arrays, there is a department,
every department is used, every team fits alone in each of its departments and no team uses three departments (`erase` is called with an
element that is no longer there otherwise). -/
theorem C90_needed {w : ℕ → Num} {R : ℕ → ℕ → Num} {flag : Bool} {alpha : ℚ} {K : ℕ} {r : List Num × Mat Num}
    (h : kcIteratePy (K + 1) flag alpha (pythonTables D T P wf cap w R) = some r) :
    0 < D ∧ (∀ d < D, ∃ t < T, wf d t ≠ 0) ∧ (∀ d < D, ∀ t < T, wf d t ≤ cap d) ∧ ∀ t < T, (depts D wf t).card ≤ 2 := by
  simp only [kcIteratePy, Option.bind_eq_bind, Option.bind_eq_some_iff] at h
  obtain ⟨f, hf, ⟨ext, intr⟩, hw, -⟩ := h
  have hD := C23_flattens.mp (by rw [hf]; rfl)
  obtain ⟨inp, A, g1, g2, g3, g4, g5, g6, g7, g8, g9, g10, g11, g12, g13, g14, g15, g16, g17, g18⟩ := C23_decoded flag alpha hf
  have e3 : (pythonTables D T P wf cap w R).maxState.length = D := Proofs.listOf_length
  have e4 : (pythonTables D T P wf cap w R).numTeams = T := rfl
  have e5 : (pythonTables D T P wf cap w R).numProjects = P := rfl
  rw [e3, e4, e5] at hw
  simp only [kcWrapper, g1, Option.bind_eq_bind, Option.bind_some, Option.bind_eq_some_iff] at hw
  obtain ⟨⟨x, y⟩, hk, -⟩ := hw
  simp only [kcSolve, kcIterate, Option.bind_eq_bind, Option.bind_eq_some_iff] at hk
  obtain ⟨s, ⟨s', hs, -⟩, -⟩ := hk
  obtain ⟨t, t', h0, h1⟩ := Proofs.loopUp_step hs (i := 0) (by omega)
  obtain rfl := Option.some.inj h0
  obtain ⟨k1, k2⟩ := Proofs.kcIter_needs (by rfl) h1
  rw [g2] at k1 k2
  have hnz : ∀ d < D, inp.nzs[d]? = some (Proofs.teamsOf T (wf d)) := fun d hd => by rw [g11]; simp [hd, Proofs.teamsOf]
  have hgd : ∀ d < D, inp.nzs.getD d [] = Proofs.teamsOf T (wf d) := fun d hd => by rw [List.getD_eq_getElem?_getD, hnz d hd]; rfl
  refine ⟨hD, fun d hd => ?_, fun d hd t ht => ?_, fun t ht => ?_⟩
  · obtain ⟨c, nz, -, a2, a3, -⟩ := k1 d hd
    rw [hnz d hd] at a2
    obtain rfl := Option.some.inj a2
    obtain ⟨t, ht⟩ := List.exists_mem_of_ne_nil _ a3
    exact ⟨t, Proofs.mem_teamsOf.mp ht⟩
  · obtain ⟨c, nz, a1, -, -, a4⟩ := k1 d hd
    rw [Arr.rd_of_lt (by omega), g10 d hd] at a1
    obtain rfl := Option.some.inj a1
    by_cases e : wf d t = 0
    · omega
    · have := a4 t (by omega) (by rw [g14.2.2 d hd t ht]; exact e)
      rwa [g14.2.2 d hd t ht] at this
  · by_contra hc
    obtain ⟨a, ha, b, hb, c, hc', hab, hac, hbc⟩ := Finset.two_lt_card.mp (show 2 < (depts D wf t).card by omega)
    simp only [depts, Finset.mem_filter, Finset.mem_range] at ha hb hc'
    obtain ⟨e, o, m, m', hm⟩ := k2 a ha.1
    refine Proofs.teamToKnapDept_needs (hnz a ha.1) (Proofs.teamsOf_sorted.imp fun h => Nat.ne_of_lt h) hm
      (Proofs.mem_teamsOf.mpr ⟨ht, ha.2⟩) hb.1 hc'.1 (Ne.symm hab) (Ne.symm hac) hbc ?_ ?_
    · rw [hgd b hb.1]; exact Proofs.mem_teamsOf.mpr ⟨ht, hb.2⟩
    · rw [hgd c hc'.1]; exact Proofs.mem_teamsOf.mpr ⟨ht, hc'.2⟩

/-- C90: a call with at least one project and one iteration stays inside its arrays iff there is a department, every department is used,
every team fits alone in each of its departments and no team uses more than two. -/
theorem C90_call (hP : 0 < P) {w : ℕ → ℚ} {R : ℕ → ℕ → ℚ} (flag : Bool) (alpha : ℚ) (K : ℕ) :
    (∃ r, kcIteratePy (K + 1) flag alpha (pythonTables D T P wf cap (fun t => fin (w t)) (fun p t => fin (R p t))) = some r) ↔
      0 < D ∧ (∀ d < D, ∃ t < T, wf d t ≠ 0) ∧ (∀ d < D, ∀ t < T, wf d t ≤ cap d) ∧ ∀ t < T, (depts D wf t).card ≤ 2 := by
  constructor
  · rintro ⟨r, h⟩
    exact C90_needed h
  · rintro ⟨h1, h2, h3, h4⟩
    have ok : KcProblemOk D T P wf cap := ⟨h1, hP, h2, h3, h4⟩
    obtain ⟨a, raw, o, y, e, c, ht⟩ := C23_trace (w := w) (R := R) ok flag alpha
    obtain ⟨m, hm, -⟩ := C23_call ok flag alpha ht K
    exact ⟨_, hm⟩

end

/-- Three departments that share one team, and the same team in two departments only. -/
example : (∃ r, kcIteratePy 1 false 0 (pythonTables 2 2 1 (fun _ _ => 1) (fun _ => 1) (fun t => fin (t : ℚ)) (fun _ _ => fin 0)) = some r) ∧
    ¬ ∃ r, kcIteratePy 1 false 0 (pythonTables 3 2 1 (fun _ _ => 1) (fun _ => 1) (fun t => fin (t : ℚ)) (fun _ _ => fin 0)) = some r := by
  constructor
  · refine (C90_call (w := fun t => (t : ℚ)) (R := fun _ _ => 0) (by decide) false 0 0).mpr ?_
    decide
  · intro h
    have := (C90_call (w := fun t => (t : ℚ)) (R := fun _ _ => 0) (by decide) false 0 0).mp h
    revert this
    decide

/-- A team of weight two in a department of capacity one. -/
example : ¬ ∃ r, kcIteratePy 1 false 0 (pythonTables 1 2 1 (fun _ t => t + 1) (fun _ => 1) (fun t => fin (t : ℚ)) (fun _ _ => fin 0)) = some r := by
  intro h
  have := (C90_call (w := fun t => (t : ℚ)) (R := fun _ _ => 0) (by decide) false 0 0).mp h
  revert this
  decide

end Verif.Properties
