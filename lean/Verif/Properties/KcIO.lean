import Verif.Proofs.KcIO
import Verif.Properties.KcRun

/-! # C23: flat input and output arrays of the assignment solver -/

namespace Verif.Properties
open Verif Num Spec Model

section
variable {D T P : ℕ} {wf : ℕ → ℕ → ℕ} {cap : ℕ → ℕ}

/-- The attributes of the Python object for the problem with weights `wf d t`, capacities `cap d`, team costs `w t` and pair
costs `R p t` (any numbers, also infinite or NaN). -/
def pythonTables (D T P : ℕ) (wf : ℕ → ℕ → ℕ) (cap : ℕ → ℕ) (w : ℕ → Num) (R : ℕ → ℕ → Num) : KcPy where
  numTeams := T
  numProjects := P
  maxState := listOf D cap
  weights := table D T wf
  reward := listOf T w
  rewardProject := table P T R

/-- C23, inputs.  Whatever the caller passes, the native side rebuilds every table: team costs, capacities, weights, pair
costs, the list of used teams of each department (in increasing order) with its size, and the initial messages. -/
theorem C23_decoded {w : ℕ → Num} {R : ℕ → ℕ → Num} (flag : Bool) (alpha : ℚ) {f : KcFlat}
    (hf : kcFlatten (pythonTables D T P wf cap w R) = some f) :
    ∃ inp a, kcDecode D T P flag alpha f = some (inp, a) ∧
      inp.numDepartments = D ∧ inp.numTeams = T ∧ inp.numProjects = P ∧ inp.flag = flag ∧ inp.alpha = alpha ∧
      inp.reward.size = T ∧ (∀ t < T, inp.reward.data t = w t) ∧
      inp.maxState.size = D ∧ (∀ d < D, inp.maxState.data d = cap d) ∧
      inp.nzs = (List.range D).map (fun d => (List.range T).filter (fun t => wf d t ≠ 0)) ∧
      inp.sizes.size = D ∧ (∀ d < D, inp.sizes.data d = (users (wf d) 0 T).card) ∧
      (inp.weights.rows = D ∧ inp.weights.cols = T ∧ ∀ d < D, ∀ t < T, inp.weights.data d t = wf d t) ∧
      (inp.rewardProject.rows = P ∧ inp.rewardProject.cols = T ∧ ∀ p < P, ∀ t < T, inp.rewardProject.data p t = R p t) ∧
      a.rows = D ∧ a.cols = T ∧ ∀ d < D, ∀ t < T, a.data d t = if wf d t ≠ 0 then w t else 0 := by
  by_cases hD : 0 < D
  · obtain ⟨f', h0, h1, h2, h3, h4, h5, h6, h7, h8⟩ := Proofs.kcFlatten_spec (T := T) (P := P) (wf := wf) (cap := cap) (w := w) (R := R) hD
    have e : f = f' := Option.some.inj (hf.symm.trans h0)
    subst e
    obtain ⟨inp, a, g1, g2, g3, g4, g5, g6, g7, g8, g9, g10, g11, g12, g13, g14⟩ :=
      Proofs.kcDecode_spec (flag := flag) (alpha := alpha) h1 h2 h3 h4 h5 h6 h7 h8
    refine ⟨inp, a, g1, g2, g3, g4, g5, g6, g7, g8, g9, g10, g11, g12, fun d hd => ?_, g14⟩
    rw [g13 d hd, users, Finset.card_filter, ← Finset.card_filter]
    have : (Finset.range T).filter (fun t => 0 ≤ t ∧ wf d t ≠ 0) = (Proofs.teamsOf T (wf d)).toFinset := by
      ext t; simp [Proofs.mem_teamsOf]
    rw [this, List.toFinset_card_of_nodup (Proofs.teamsOf_sorted.imp fun h => Nat.ne_of_lt h)]
  · have : D = 0 := by omega
    subst this
    rw [show pythonTables 0 T P wf cap w R = Proofs.kcPyOf 0 T P wf cap w R from rfl, Proofs.kcFlatten_none] at hf
    cases hf

/-- C23, the caller succeeds iff there is a department (`max([])` raises otherwise). -/
theorem C23_flattens {w : ℕ → Num} {R : ℕ → ℕ → Num} :
    (kcFlatten (pythonTables D T P wf cap w R)).isSome = true ↔ 0 < D := by
  constructor
  · intro h
    by_contra hD
    have : D = 0 := by omega
    subst this
    rw [show pythonTables 0 T P wf cap w R = Proofs.kcPyOf 0 T P wf cap w R from rfl, Proofs.kcFlatten_none] at h
    cases h
  · intro hD
    obtain ⟨f', h0, -⟩ := Proofs.kcFlatten_spec (T := T) (P := P) (wf := wf) (cap := cap) (w := w) (R := R) hD
    rw [show pythonTables D T P wf cap w R = Proofs.kcPyOf D T P wf cap w R from rfl, h0]; rfl

/-- C23, outputs.  The belief of a pair (any numbers) is the entry for the same pair of the matrix that the caller reads. -/
theorem C23_beliefs {o y r : Mat Num} (ho : o.rows = P ∧ o.cols = T) (hy : y.rows = P ∧ y.cols = T) (hr : r.rows = P ∧ r.cols = T)
    {out : Arr Num} (hs : out.size = P * T) :
    ∃ out' m, kcIntrinsic T o y r out = some out' ∧ reshape out'.toList P T = some m ∧ m.rows = P ∧ m.cols = T ∧
      ∀ p < P, ∀ t < T, m.data p t = o.data p t + y.data p t + r.data p t := by
  obtain ⟨out', a1, a2, a3⟩ := Proofs.kcIntrinsic_cells ho hy hr hs
  obtain ⟨m, b1, b2, b3, b4⟩ := Proofs.reshape_toList a2
  exact ⟨out', m, a1, b1, b2, b3, fun p hp t ht => by rw [b4 p hp t ht, a3 p hp t ht]⟩

/-- The problem is well formed: at least one department and one project, every department is used, every team fits alone in
each of its departments and uses at most two. -/
structure KcProblemOk (D T P : ℕ) (wf : ℕ → ℕ → ℕ) (cap : ℕ → ℕ) : Prop where
  departments : 0 < D
  projects : 0 < P
  used : ∀ d < D, ∃ t < T, wf d t ≠ 0
  fits : ∀ d < D, ∀ t < T, wf d t ≤ cap d
  two : ∀ t < T, (depts D wf t).card ≤ 2

/-- What the native side holds for a well-formed problem satisfies the assumptions of C11. -/
theorem kc_decoded {w : ℕ → ℚ} {R : ℕ → ℕ → ℚ} (h : KcProblemOk D T P wf cap) (flag : Bool) (alpha : ℚ) :
    ∃ f inp A, kcFlatten (pythonTables D T P wf cap (fun t => fin (w t)) (fun p t => fin (R p t))) = some f ∧
      kcDecode D T P flag alpha f = some (inp, A) ∧
      inp.numDepartments = D ∧ inp.numTeams = T ∧ inp.numProjects = P ∧ inp.flag = flag ∧ inp.alpha = alpha ∧
      KcOk inp wf cap w R ∧ A.Is inp.numDepartments inp.numTeams (fun d t => if wf d t ≠ 0 then w t else 0) := by
  have hs := (C23_flattens (T := T) (P := P) (wf := wf) (cap := cap) (w := fun t => fin (w t)) (R := fun p t => fin (R p t))).mpr h.departments
  obtain ⟨f, hf⟩ := Option.isSome_iff_exists.mp hs
  obtain ⟨inp, A, g1, g2, g3, g4, g5, g6, g7, g8, g9, g10, g11, g12, g13, g14, g15, g16, g17, g18⟩ := C23_decoded flag alpha hf
  have hok : KcOk inp wf cap w R := by
    have := h.projects
    refine ⟨by omega, by omega, fun d hd => g10 d (by omega), by simp [g11, g2], by omega, by omega, fun d hd => ?_, fun t ht => ?_, ?_, ?_⟩
    · rw [g2] at hd
      have hn : inp.nzs.getD d [] = Proofs.teamsOf T (wf d) := by rw [g11]; simp [hd, Proofs.teamsOf]
      refine ⟨by rw [hn]; exact Proofs.teamsOf_sorted, fun t => ?_, ?_, ?_, by show inp.weights.cols = _; omega,
        fun t ht => g14.2.2 d hd t (by omega), fun t ht => ?_⟩
      · rw [hn, Proofs.mem_teamsOf, g3]
      · obtain ⟨t, t1, t2⟩ := h.used d hd
        exact List.ne_nil_of_mem (a := t) (by rw [hn, Proofs.mem_teamsOf]; exact ⟨t1, t2⟩)
      · rw [g13 d hd, hn, users, ← List.toFinset_card_of_nodup (Proofs.teamsOf_sorted.imp fun h => Nat.ne_of_lt h)]
        congr 1
        ext t; simp [Proofs.mem_teamsOf]
      · rw [hn, Proofs.mem_teamsOf] at ht
        exact h.fits d hd t ht.1
    · rw [g2]; exact h.two t (by omega)
    · exact ⟨by omega, fun t ht => g8 t (by omega)⟩
    · exact ⟨by omega, by omega, fun p hp t ht => g15.2.2 p (by omega) t (by omega)⟩
  have hA : A.Is inp.numDepartments inp.numTeams (fun d t => if wf d t ≠ 0 then w t else 0) := by
    refine ⟨by omega, by omega, fun d hd t ht => ?_⟩
    rw [g18 d (by omega) t (by omega)]
    show _ = fin (if wf d t ≠ 0 then w t else 0)
    by_cases hw : wf d t ≠ 0
    · rw [if_pos hw, if_pos hw]
    · rw [if_neg hw, if_neg hw]; rfl
  exact ⟨f, inp, A, hf, g1, g2, g3, g4, g5, g6, hok, hA⟩

/-- The messages of the algorithm exist on every well-formed problem. -/
theorem C23_trace {w : ℕ → ℚ} {R : ℕ → ℕ → ℚ} (h : KcProblemOk D T P wf cap) (flag : Bool) (alpha : ℚ) :
    ∃ a raw o y e c,
      IsKcTrace D T P wf cap w R flag alpha (some 1000000) (fun d t => if wf d t ≠ 0 then w t else 0) a raw o y e c := by
  obtain ⟨f, inp, A, -, -, g2, g3, g4, g5, g6, hok, hA⟩ := kc_decoded (w := w) (R := R) h flag alpha
  obtain ⟨a, raw, o, y, e, c, ht⟩ := (C11_run hok hA).1
  rw [g2, g3, g4, g5, g6] at ht
  exact ⟨a, raw, o, y, e, c, ht⟩

/-- C23, whole call.  On a well-formed problem `iterate` returns, and what it stores are the results of the message passing
algorithm (as in C11) for the same teams and pairs: the intrinsic output of each team and the belief of each pair. -/
theorem C23_call {w : ℕ → ℚ} {R : ℕ → ℕ → ℚ} (h : KcProblemOk D T P wf cap) (flag : Bool) (alpha : ℚ)
    {a raw o y e : ℕ → ℕ → ℕ → ℚ} {c : ℕ → ℕ → ℚ}
    (ht : IsKcTrace D T P wf cap w R flag alpha (some 1000000) (fun d t => if wf d t ≠ 0 then w t else 0) a raw o y e c) (K : ℕ) :
    ∃ m, kcIteratePy (K + 1) flag alpha (pythonTables D T P wf cap (fun t => fin (w t)) (fun p t => fin (R p t))) =
        some (listOf T (fun t => fin (c K t + ∑ d ∈ depts D wf t, damped flag alpha (fun i => raw i d t) K + w t)), m) ∧
      m.Is P T (fun p t => o K p t + y K p t + R p t) := by
  obtain ⟨f, inp, A, hf, g1, g2, g3, g4, g5, g6, hok, hA⟩ := kc_decoded (w := w) (R := R) h flag alpha
  have ht' : IsKcTrace inp.numDepartments inp.numTeams inp.numProjects wf cap w R inp.flag inp.alpha (some 1000000)
      (fun d t => if wf d t ≠ 0 then w t else 0) a raw o y e c := by rw [g2, g3, g4, g5, g6]; exact ht
  obtain ⟨ext, intr, k1, k2, k3, k4⟩ := (C11_run hok hA).2 a raw o y e c ht' (K + 1)
  rw [g2, g3, g5, g6] at k2
  rw [g3, g4] at k3 k4
  obtain ⟨m, m1, m2, m3, m4⟩ := Proofs.reshape_toList (a := intr) k3
  have e1 : ext.toList = listOf T (fun t => fin (c K t + ∑ d ∈ depts D wf t, damped flag alpha (fun i => raw i d t) K)) := by
    rw [Arr.toList, k2.1]
    exact List.map_congr_left fun t ht => k2.2 t (List.mem_range.mp ht)
  have e2 : intr.toList.length = P * T := by simp [Arr.toList, k3]
  refine ⟨m, ?_, m2, m3, fun p hp t ht => by rw [m4 p hp t ht, k4 p hp t ht]⟩
  have e3 : (pythonTables D T P wf cap (fun t => fin (w t)) (fun p t => fin (R p t))).maxState.length = D := Proofs.listOf_length
  have e4 : (pythonTables D T P wf cap (fun t => fin (w t)) (fun p t => fin (R p t))).numTeams = T := rfl
  have e5 : (pythonTables D T P wf cap (fun t => fin (w t)) (fun p t => fin (R p t))).numProjects = P := rfl
  have e6 : (pythonTables D T P wf cap (fun t => fin (w t)) (fun p t => fin (R p t))).reward = listOf T (fun t => fin (w t)) := rfl
  have e7 : kcWrapper (K + 1) D T P flag alpha f (List.replicate T 0) (List.replicate (P * T) 0) = some (ext.toList, intr.toList) := by
    simp only [kcWrapper, g1, k1, Option.bind_eq_bind, Option.bind_some]
    rw [Proofs.slice_all (by rw [e1, Proofs.listOf_length]), Proofs.slice_all (by rw [e2, Nat.mul_comm])]
    simp only [Option.bind_some]
    rw [if_pos (by rw [e1, Proofs.listOf_length, List.length_replicate]), if_pos (by rw [e2, List.length_replicate])]
    simp only [Option.bind_some]
    rw [List.drop_eq_nil_of_le (by rw [e1, Proofs.listOf_length, List.length_replicate]),
      List.drop_eq_nil_of_le (by rw [e2, List.length_replicate]), List.append_nil, List.append_nil]
  simp only [kcIteratePy, hf, e3, e4, e5, e6, e7, Option.bind_eq_bind, Option.bind_some, m1]
  rw [npAdd, if_pos (by rw [e1, Proofs.listOf_length, Proofs.listOf_length]), e1, Option.bind_some]
  congr 2
  refine List.ext_getElem (by simp [listOf]) fun t h1 h2 => ?_
  simp only [listOf, List.getElem_zipWith, List.getElem_map, List.getElem_range]
  rfl

end

/-- Two departments, three teams, two projects. -/
def c23Py : KcPy where
  numTeams := 3
  numProjects := 2
  maxState := [2, 3]
  weights := [[1, 0, 2], [0, 3, 1]]
  reward := [fin (-1), fin (-2), fin (-3)]
  rewardProject := [[fin 4, fin (-1), fin (-6)], [fin 5, fin 3, fin 1]]

/-- The problem is well formed, and this is what is passed and rebuilt. -/
example : c23Py = pythonTables 2 3 2 (fun d t => ([[1, 0, 2], [0, 3, 1]].getD d []).getD t 0) (fun d => d + 2)
      (fun t => fin (-1 - t)) (fun p t => fin (4 + p + 3 * p * t - 5 * t)) ∧
    KcProblemOk 2 3 2 (fun d t => ([[1, 0, 2], [0, 3, 1]].getD d []).getD t 0) (fun d => d + 2) ∧
    (kcFlatten c23Py).map (fun f => (f.messages, f.nz, f.sizes, f.maxSize)) =
      some ([fin (-1), fin 0, fin (-3), fin 0, fin (-2), fin (-3)], [0, 2, 1, 2], [2, 2], 2) ∧
    ((kcFlatten c23Py).bind (kcDecode 2 3 2 false 0)).map (fun r => (r.1.nzs, flattenMat r.1.weights)) =
      some ([[0, 2], [1, 2]], [1, 0, 2, 0, 3, 1]) := by
  refine ⟨?_, ⟨by decide, by decide, by decide, by decide, by decide⟩, by decide +kernel, by decide +kernel⟩
  unfold c23Py pythonTables
  congr 1 <;> decide +kernel

/-- The whole call on this problem, two iterations. -/
example : (kcIteratePy 2 false 0 c23Py).map (fun r => (r.1, flattenMat r.2)) =
    some ([fin 11, fin 9, fin (-9)], [fin 17, fin 12, fin (-7), fin 11, fin 9, fin 7]) := by decide +kernel

end Verif.Properties
