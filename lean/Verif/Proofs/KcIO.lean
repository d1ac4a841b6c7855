import Verif.Model.KcIO
import Verif.Spec.Tables
import Verif.Spec.KcTables
import Mathlib.Tactic.Ring
import Mathlib.Tactic.Linarith
import Mathlib.Algebra.BigOperators.Group.List.Lemmas

namespace Verif.Proofs
open Verif Num Spec Model

section
variable {α : Type}

theorem table_length {m n : ℕ} {x : ℕ → ℕ → α} : (table m n x).length = m := by simp [table]
theorem table_getElem? {m n : ℕ} {x : ℕ → ℕ → α} {i : ℕ} (hi : i < m) : (table m n x)[i]? = some (listOf n (x i)) := by
  simp [table, listOf, hi]
theorem listOf_length {n : ℕ} {x : ℕ → α} : (listOf n x).length = n := by simp [listOf]
theorem listOf_getElem? {n : ℕ} {x : ℕ → α} {i : ℕ} (hi : i < n) : (listOf n x)[i]? = some (x i) := by simp [listOf, hi]
theorem listOf_getD {n : ℕ} {x : ℕ → α} {i : ℕ} {d : α} (hi : i < n) : (listOf n x).getD i d = x i := by simp [listOf, hi]
theorem table_lengths {m n : ℕ} {x : ℕ → ℕ → α} : (table m n x).map List.length = List.replicate m n := by
  refine List.ext_getElem (by simp [table]) fun i h1 h2 => by simp [table]
theorem flatten_table_length {m n : ℕ} {x : ℕ → ℕ → α} : (table m n x).flatten.length = m * n := by
  rw [List.length_flatten, table_lengths]; simp

theorem slice_all {l : List α} {n : ℕ} (h : l.length = n) : slice l 0 n = some l := by
  subst h; simp [slice]

/-- Consecutive pieces of a concatenation. -/
theorem slice_pieces (ls : List (List α)) {i : ℕ} (hi : i < ls.length) :
    slice ls.flatten ((ls.map List.length).take i).sum (((ls.map List.length).take i).sum + ls[i].length) = some ls[i] := by
  have e : ((ls.map List.length).take i).sum + ls[i].length = ((ls.map List.length).take (i + 1)).sum := by
    rw [List.take_succ_eq_append_getElem (by simpa using hi)]; simp
  have e2 : ((ls.map List.length).take (i + 1)).sum ≤ ls.flatten.length := by
    rw [List.length_flatten]
    conv_rhs => rw [← List.take_append_drop (i + 1) (ls.map List.length)]
    rw [List.sum_append]; omega
  rw [e, slice, if_pos ⟨by omega, e2⟩, List.drop_take_succ_flatten_eq_getElem]

theorem slice_table {m n : ℕ} {x : ℕ → ℕ → α} {i : ℕ} (hi : i < m) :
    slice (table m n x).flatten (n * i) (n * (i + 1)) = some (listOf n (x i)) := by
  have h := slice_pieces (table m n x) (i := i) (by rw [table_length]; exact hi)
  rw [table_lengths, List.take_replicate, List.sum_replicate_nat, min_eq_left hi.le] at h
  have e : (table m n x)[i]'(by rw [table_length]; exact hi) = listOf n (x i) := by simp [table, listOf]
  rw [e, listOf_length] at h
  rw [Nat.mul_comm n i, Nat.mul_comm n (i + 1), Nat.succ_mul]
  exact h

theorem flattenRows_table {m n : ℕ} {x : ℕ → ℕ → α} : flattenRows (table m n x) = some (table m n x).flatten := by
  rw [flattenRows, if_pos]
  intro r hr r' hr'
  simp only [table, List.mem_map] at hr hr'
  obtain ⟨_, _, rfl⟩ := hr; obtain ⟨_, _, rfl⟩ := hr'
  simp

theorem flattenMat_eq (m : Mat α) : flattenMat m = (table m.rows m.cols m.data).flatten := by
  simp [flattenMat, table, List.flatMap]

theorem flattenMat_congr {m : Mat α} {r c : ℕ} {x : ℕ → ℕ → α} (hr : m.rows = r) (hc : m.cols = c)
    (h : ∀ i < r, ∀ j < c, m.data i j = x i j) : flattenMat m = (table r c x).flatten := by
  rw [flattenMat_eq, hr, hc]
  congr 1
  refine List.map_congr_left fun i hi => List.map_congr_left fun j hj => h i (List.mem_range.mp hi) j (List.mem_range.mp hj)

theorem ofList_listOf [Inhabited α] {n : ℕ} {x : ℕ → α} {i : ℕ} (hi : i < n) : (Arr.ofList (listOf n x)).data i = x i := by
  simp [Arr.ofList, listOf, hi]
theorem ofList_size [Inhabited α] {n : ℕ} {x : ℕ → α} : (Arr.ofList (listOf n x)).size = n := by simp [Arr.ofList, listOf]

end

section
variable {D T P : ℕ} {wf : ℕ → ℕ → ℕ} {cap : ℕ → ℕ} {w : ℕ → Num} {R : ℕ → ℕ → Num}

/-- The attributes of the Python object for a problem given by its numbers. -/
def kcPyOf (D T P : ℕ) (wf : ℕ → ℕ → ℕ) (cap : ℕ → ℕ) (w : ℕ → Num) (R : ℕ → ℕ → Num) : KcPy where
  numTeams := T
  numProjects := P
  maxState := listOf D cap
  weights := table D T wf
  reward := listOf T w
  rewardProject := table P T R

theorem kcStart_spec : ∃ m, kcStart (kcPyOf D T P wf cap w R) = some m ∧ m.rows = D ∧ m.cols = T ∧
    ∀ d < D, ∀ t < T, m.data d t = if wf d t ≠ 0 then w t else 0 := by
  obtain ⟨m, h1, h2, h3, h4, -⟩ := loopUp_inv (n := D) (body := fun i (m : Mat Num) => loopUp T (fun j m => do
      let row ← (table D T wf)[i]?
      let x ← row[j]?
      if x ≠ 0 then do
        let r ← (listOf T w)[j]?
        m.wr i j r
      else some m) m) (s := Mat.fill D T 0)
    (fun k m => m.rows = D ∧ m.cols = T ∧ (∀ d < k, ∀ t < T, m.data d t = if wf d t ≠ 0 then w t else 0) ∧
      ∀ d, k ≤ d → ∀ t, m.data d t = 0)
    ⟨rfl, rfl, fun d hd => by omega, fun _ _ _ => rfl⟩
    (by
      rintro i hi m ⟨a1, a2, a3, a4⟩
      obtain ⟨m', b1, b2, b3, b4, b5, b6⟩ := loopUp_inv (n := T) (body := fun j (m : Mat Num) => do
          let row ← (table D T wf)[i]?
          let x ← row[j]?
          if x ≠ 0 then do
            let r ← (listOf T w)[j]?
            m.wr i j r
          else some m) (s := m)
        (fun k m => m.rows = D ∧ m.cols = T ∧ (∀ d < i, ∀ t < T, m.data d t = if wf d t ≠ 0 then w t else 0) ∧
          (∀ d, i < d → ∀ t, m.data d t = 0) ∧ (∀ t < k, m.data i t = if wf i t ≠ 0 then w t else 0) ∧ ∀ t, k ≤ t → m.data i t = 0)
        ⟨a1, a2, a3, fun d hd => a4 d (by omega), fun t ht => by omega, fun t _ => a4 i le_rfl t⟩
        (by
          rintro j hj m ⟨c1, c2, c3, c4, c5, c6⟩
          rw [table_getElem? hi]
          simp only [Option.bind_eq_bind, Option.bind_some, listOf_getElem? hj]
          by_cases hw : wf i j ≠ 0
          · rw [if_pos hw, Mat.wr_of_lt (by omega) (by omega)]
            refine ⟨_, rfl, c1, c2, fun d hd t ht => ?_, fun d hd t => ?_, fun t ht => ?_, fun t ht => ?_⟩
            · show (if d = i ∧ t = j then _ else _) = _
              rw [if_neg (by omega)]; exact c3 d hd t ht
            · show (if d = i ∧ t = j then _ else _) = _
              rw [if_neg (by omega)]; exact c4 d hd t
            · show (if i = i ∧ t = j then _ else _) = _
              by_cases e : t = j
              · subst e; rw [if_pos ⟨rfl, rfl⟩, if_pos hw]
              · rw [if_neg (by omega)]; exact c5 t (by omega)
            · show (if i = i ∧ t = j then _ else _) = _
              rw [if_neg (by omega)]; exact c6 t (by omega)
          · rw [if_neg hw]
            refine ⟨m, rfl, c1, c2, c3, c4, fun t ht => ?_, fun t ht => c6 t (by omega)⟩
            by_cases e : t = j
            · subst e; rw [if_neg hw]; exact c6 t le_rfl
            · exact c5 t (by omega))
      refine ⟨m', b1, b2, b3, fun d hd t ht => ?_, fun d hd t => b5 d (by omega) t⟩
      by_cases e : d = i
      · subst e; exact b6.1 t ht
      · exact b4 d (by omega) t ht)
  refine ⟨m, ?_, h2, h3, h4⟩
  simp only [kcStart, kcPyOf, listOf_length]
  exact h1

/-- The teams that use a department, in increasing order. -/
def teamsOf (T : ℕ) (wf : ℕ → ℕ) : List ℕ := (List.range T).filter (fun t => wf t ≠ 0)

theorem nonZeroIndices_listOf {f : ℕ → ℕ} : nonZeroIndices (listOf T f) = teamsOf T f := by
  rw [nonZeroIndices, listOf_length, teamsOf]
  refine List.filter_congr fun i hi => ?_
  rw [listOf_getD (List.mem_range.mp hi)]

theorem kcNonZero_spec : kcNonZero (kcPyOf D T P wf cap w R) = some ((List.range D).map (fun d => teamsOf T (wf d))) := by
  obtain ⟨l, h1, h2⟩ := loopUp_inv (n := D) (body := fun d (l : List (List ℕ)) => do
      let row ← (table D T wf)[d]?
      some (l ++ [nonZeroIndices row])) (s := []) (fun k l => l = (List.range k).map (fun d => teamsOf T (wf d))) rfl
    (by
      rintro i hi l rfl
      rw [table_getElem? hi]
      refine ⟨_, rfl, ?_⟩
      rw [nonZeroIndices_listOf, List.range_succ, List.map_append]; rfl)
  rw [← h2, ← h1, kcNonZero]
  simp only [kcPyOf, listOf_length]

theorem kcPadded_spec {rows cols : ℕ} {nz : List (List ℕ)} (hr : nz.length = rows) (hc : ∀ l ∈ nz, l.length ≤ cols) :
    ∃ m, kcPadded rows cols nz = some m ∧ m.rows = rows ∧ m.cols = cols ∧
      ∀ i < rows, ∀ j < cols, m.data i j = (nz.getD i []).getD j 0 := by
  obtain ⟨m, h1, h2, h3, h4, -⟩ := loopUp_inv (n := nz.length) (body := fun i (m : Mat ℕ) =>
      loopUp (nz.getD i []).length (fun j m => m.wr i j ((nz.getD i []).getD j 0)) m) (s := Mat.fill rows cols 0)
    (fun k m => m.rows = rows ∧ m.cols = cols ∧ (∀ i < k, ∀ j, m.data i j = (nz.getD i []).getD j 0) ∧
      ∀ i, k ≤ i → ∀ j, m.data i j = 0) ⟨rfl, rfl, fun i hi => by omega, fun _ _ _ => rfl⟩
    (by
      rintro i hi m ⟨a1, a2, a3, a4⟩
      have hlen : (nz.getD i []).length ≤ cols := by
        have : nz.getD i [] = nz[i] := by simp [hi]
        rw [this]; exact hc _ (List.getElem_mem hi)
      obtain ⟨m', b1, b2, b3, b4, b5, b6, b7⟩ := loopUp_inv (n := (nz.getD i []).length)
        (body := fun j (m : Mat ℕ) => m.wr i j ((nz.getD i []).getD j 0)) (s := m)
        (fun k m => m.rows = rows ∧ m.cols = cols ∧ (∀ i' < i, ∀ j, m.data i' j = (nz.getD i' []).getD j 0) ∧
          (∀ i', i < i' → ∀ j, m.data i' j = 0) ∧ (∀ j < k, m.data i j = (nz.getD i []).getD j 0) ∧ ∀ j, k ≤ j → m.data i j = 0)
        ⟨a1, a2, a3, fun d hd => a4 d (by omega), fun t ht => by omega, fun t _ => a4 i le_rfl t⟩
        (by
          rintro j hj m ⟨c1, c2, c3, c4, c5, c6⟩
          rw [Mat.wr_of_lt (by omega) (by omega)]
          refine ⟨_, rfl, c1, c2, fun d hd t => ?_, fun d hd t => ?_, fun t ht => ?_, fun t ht => ?_⟩
          · show (if d = i ∧ t = j then _ else _) = _
            rw [if_neg (by omega)]; exact c3 d hd t
          · show (if d = i ∧ t = j then _ else _) = _
            rw [if_neg (by omega)]; exact c4 d hd t
          · show (if i = i ∧ t = j then _ else _) = _
            by_cases e : t = j
            · subst e; rw [if_pos ⟨rfl, rfl⟩]
            · rw [if_neg (by omega)]; exact c5 t (by omega)
          · show (if i = i ∧ t = j then _ else _) = _
            rw [if_neg (by omega)]; exact c6 t (by omega))
      refine ⟨m', b1, b2, b3, fun d hd j => ?_, fun d hd t => b5 d (by omega) t⟩
      by_cases e : d = i
      · subst e
        by_cases hj : j < (nz.getD d []).length
        · exact b6 j hj
        · rw [b7 j (by omega), List.getD_eq_getElem?_getD, List.getElem?_eq_none (by omega)]; rfl
      · exact b4 d (by omega) j)
  exact ⟨m, h1, h2, h3, fun i hi j _ => h4 i (by omega) j⟩

/-- What the caller passes. -/
theorem kcFlatten_spec (hD : 0 < D) : ∃ f, kcFlatten (kcPyOf D T P wf cap w R) = some f ∧
    f.messages = (table D T (fun d t => if wf d t ≠ 0 then w t else 0)).flatten ∧ f.maxState = listOf D cap ∧
    f.reward = listOf T w ∧ f.rewardProject = (table P T R).flatten ∧ f.weights = (table D T wf).flatten ∧
    f.sizes = listOf D (fun d => (teamsOf T (wf d)).length) ∧ (∀ d < D, (teamsOf T (wf d)).length ≤ f.maxSize) ∧
    f.nz = (table D f.maxSize (fun d j => (teamsOf T (wf d)).getD j 0)).flatten := by
  obtain ⟨m, a1, a2, a3, a4⟩ := kcStart_spec (D := D) (T := T) (P := P) (wf := wf) (cap := cap) (w := w) (R := R)
  have hs : ((List.range D).map (fun d => teamsOf T (wf d))).map List.length = listOf D (fun d => (teamsOf T (wf d)).length) := by
    simp [listOf, Function.comp_def]
  obtain ⟨M, hM⟩ : ∃ M, (listOf D (fun d => (teamsOf T (wf d)).length)).max? = some M := by
    cases h : (listOf D (fun d => (teamsOf T (wf d)).length)).max? with
    | none => rw [List.max?_eq_none_iff] at h; have := congrArg List.length h; rw [listOf_length] at this; simp at this; omega
    | some M => exact ⟨M, rfl⟩
  have hle : ∀ d < D, (teamsOf T (wf d)).length ≤ M := by
    intro d hd
    exact (List.max?_eq_some_iff.mp hM).2 _ (List.mem_map.mpr ⟨d, List.mem_range.mpr hd, rfl⟩)
  obtain ⟨p, b1, b2, b3, b4⟩ := kcPadded_spec (rows := D) (cols := M) (nz := (List.range D).map (fun d => teamsOf T (wf d)))
    (by simp) (by
      intro l hl
      obtain ⟨d, hd, rfl⟩ := List.mem_map.mp hl
      exact hle d (List.mem_range.mp hd))
  refine ⟨{ messages := flattenMat m, maxState := listOf D cap, reward := listOf T w, rewardProject := (table P T R).flatten,
            weights := (table D T wf).flatten, nz := flattenMat p, sizes := listOf D (fun d => (teamsOf T (wf d)).length), maxSize := M },
    ?_, flattenMat_congr a2 a3 a4, rfl, rfl, rfl, rfl, rfl, hle, ?_⟩
  · have e1 : (kcPyOf D T P wf cap w R).rewardProject = table P T R := rfl
    have e2 : (kcPyOf D T P wf cap w R).weights = table D T wf := rfl
    have e3 : (kcPyOf D T P wf cap w R).maxState.length = D := listOf_length
    simp only [kcFlatten, a1, kcNonZero_spec, e1, e2, e3, flattenRows_table, hs, hM, b1, Option.bind_eq_bind, Option.bind_some]
    rfl
  · refine flattenMat_congr b2 b3 fun d hd j hj => ?_
    rw [b4 d hd j hj]
    simp [hd]

theorem kcFlatten_none : kcFlatten (kcPyOf 0 T P wf cap w R) = none := by
  have h : kcNonZero (kcPyOf 0 T P wf cap w R) = some [] := kcNonZero_spec
  obtain ⟨m, a1, -⟩ := kcStart_spec (D := 0) (T := T) (P := P) (wf := wf) (cap := cap) (w := w) (R := R)
  have e1 : (kcPyOf 0 T P wf cap w R).rewardProject = table P T R := rfl
  have e2 : (kcPyOf 0 T P wf cap w R).weights = table 0 T wf := rfl
  simp only [kcFlatten, a1, h, e1, e2, flattenRows_table, Option.bind_eq_bind, Option.bind_some]
  rfl

/-- A padded row, cut to its size. -/
theorem slice_padded {D M : ℕ} {F : ℕ → List ℕ} {d : ℕ} (hd : d < D) (hM : (F d).length ≤ M) :
    slice (table D M (fun d j => (F d).getD j 0)).flatten (M * d) ((F d).length + M * d) = some (F d) := by
  have h := slice_table (m := D) (n := M) (x := fun d j => (F d).getD j 0) hd
  rw [slice] at h
  by_cases hc : M * d ≤ M * (d + 1) ∧ M * (d + 1) ≤ (table D M (fun d j => (F d).getD j 0)).flatten.length
  · rw [if_pos hc] at h
    have h := Option.some.inj h
    have e : M * (d + 1) = M * d + M := by ring
    rw [slice, if_pos ⟨by omega, by omega⟩]
    congr 1
    have e2 : ((table D M (fun d j => (F d).getD j 0)).flatten.take ((F d).length + M * d)).drop (M * d) =
        (((table D M (fun d j => (F d).getD j 0)).flatten.take (M * (d + 1))).drop (M * d)).take (F d).length := by
      rw [List.drop_take, List.drop_take, List.take_take]
      congr 1
      omega
    rw [e2, h]
    refine List.ext_getElem (by rw [List.length_take, listOf_length]; omega) fun i h1 h2 => ?_
    simp [listOf, h2]
  · rw [if_neg hc] at h; cases h

/-- What the native side rebuilds. -/
theorem kcDecode_spec {flag : Bool} {alpha : ℚ} {f : KcFlat} {A : ℕ → ℕ → Num} (h1 : f.messages = (table D T A).flatten)
    (h2 : f.maxState = listOf D cap) (h3 : f.reward = listOf T w) (h4 : f.rewardProject = (table P T R).flatten)
    (h5 : f.weights = (table D T wf).flatten) (h6 : f.sizes = listOf D (fun d => (teamsOf T (wf d)).length))
    (h7 : ∀ d < D, (teamsOf T (wf d)).length ≤ f.maxSize)
    (h8 : f.nz = (table D f.maxSize (fun d j => (teamsOf T (wf d)).getD j 0)).flatten) :
    ∃ inp a, kcDecode D T P flag alpha f = some (inp, a) ∧
      inp.numDepartments = D ∧ inp.numTeams = T ∧ inp.numProjects = P ∧ inp.flag = flag ∧ inp.alpha = alpha ∧
      inp.reward.size = T ∧ (∀ t < T, inp.reward.data t = w t) ∧
      inp.maxState.size = D ∧ (∀ d < D, inp.maxState.data d = cap d) ∧
      inp.nzs = (List.range D).map (fun d => teamsOf T (wf d)) ∧
      inp.sizes.size = D ∧ (∀ d < D, inp.sizes.data d = (teamsOf T (wf d)).length) ∧
      (inp.weights.rows = D ∧ inp.weights.cols = T ∧ ∀ d < D, ∀ t < T, inp.weights.data d t = wf d t) ∧
      (inp.rewardProject.rows = P ∧ inp.rewardProject.cols = T ∧ ∀ p < P, ∀ t < T, inp.rewardProject.data p t = R p t) ∧
      a.rows = D ∧ a.cols = T ∧ ∀ d < D, ∀ t < T, a.data d t = A d t := by
  obtain ⟨s, b1, b2, b3, b4, b5, b6, b7, b8⟩ := loopUp_inv (n := D) (body := fun d (s : List (List ℕ) × Mat Num × Mat ℕ) => do
      let size ← f.sizes[d]?
      let a ← slice f.messages (T * d) (T * (d + 1))
      let a ← s.2.1.wrRow d (Arr.ofList a)
      let w ← slice f.weights (T * d) (T * (d + 1))
      let w ← s.2.2.wrRow d (Arr.ofList w)
      let nz ← slice f.nz (f.maxSize * d) (size + f.maxSize * d)
      some (s.1 ++ [nz], a, w))
    (s := (([] : List (List ℕ)), Mat.fill D T (0 : Num), Mat.fill D T (0 : ℕ)))
    (fun k s => s.1 = (List.range k).map (fun d => teamsOf T (wf d)) ∧ s.2.1.rows = D ∧ s.2.1.cols = T ∧
      (∀ d < k, ∀ t < T, s.2.1.data d t = A d t) ∧ s.2.2.rows = D ∧ s.2.2.cols = T ∧ ∀ d < k, ∀ t < T, s.2.2.data d t = wf d t)
    ⟨rfl, rfl, rfl, fun d hd => by omega, rfl, rfl, fun d hd => by omega⟩
    (by
      rintro d hd s ⟨c1, c2, c3, c4, c5, c6, c7⟩
      rw [h1, h5, h6, h8, listOf_getElem? hd, slice_table hd, slice_table hd]
      simp only [Option.bind_eq_bind, Option.bind_some, slice_padded (F := fun d => teamsOf T (wf d)) hd (h7 d hd)]
      rw [Mat.wrRow_of_lt (by omega) (by rw [ofList_size, c3]), Mat.wrRow_of_lt (by omega) (by rw [ofList_size, c6])]
      refine ⟨_, rfl, ?_, c2, c3, fun e he t ht => ?_, c5, c6, fun e he t ht => ?_⟩
      · simp only [c1]; rw [List.range_succ, List.map_append]; rfl
      · show (if e = d then _ else _) = _
        by_cases hh : e = d
        · subst hh; rw [if_pos rfl, ofList_listOf ht]
        · rw [if_neg hh]; exact c4 e (by omega) t ht
      · show (if e = d then _ else _) = _
        by_cases hh : e = d
        · subst hh; rw [if_pos rfl, ofList_listOf ht]
        · rw [if_neg hh]; exact c7 e (by omega) t ht)
  obtain ⟨m, d1, d2, d3, d4⟩ := loopUp_inv (n := P) (body := fun p (m : Mat Num) => do
      let r ← slice f.rewardProject (T * p) (T * (p + 1))
      m.wrRow p (Arr.ofList r)) (s := Mat.fill P T (0 : Num))
    (fun k m => m.rows = P ∧ m.cols = T ∧ ∀ p < k, ∀ t < T, m.data p t = R p t) ⟨rfl, rfl, fun d hd => by omega⟩
    (by
      rintro p hp m ⟨c1, c2, c3⟩
      rw [h4, slice_table hp]
      simp only [Option.bind_eq_bind, Option.bind_some]
      rw [Mat.wrRow_of_lt (by omega) (by rw [ofList_size, c2])]
      refine ⟨_, rfl, c1, c2, fun e he t ht => ?_⟩
      show (if e = p then _ else _) = _
      by_cases hh : e = p
      · subst hh; rw [if_pos rfl, ofList_listOf ht]
      · rw [if_neg hh]; exact c3 e (by omega) t ht)
  have es : f.sizes = listOf D (fun d => (teamsOf T (wf d)).length) := h6
  refine ⟨{ numDepartments := D, numTeams := T, numProjects := P, flag := flag, alpha := alpha,
            reward := Arr.ofList (listOf T w), maxState := Arr.ofList (listOf D cap), nzs := s.1, sizes := Arr.ofList f.sizes,
            weights := s.2.2, rewardProject := m }, s.2.1, ?_, rfl, rfl, rfl, rfl, rfl, ofList_size, fun t ht => ofList_listOf ht,
    ofList_size, fun d hd => ofList_listOf hd, b2, by show (Arr.ofList f.sizes).size = D; rw [es, ofList_size],
    fun d hd => by show (Arr.ofList f.sizes).data d = _; rw [es, ofList_listOf hd], ⟨b6, b7, b8⟩, ⟨d2, d3, d4⟩, b3, b4, b5⟩
  simp only [Option.bind_eq_bind] at b1 d1
  simp only [kcDecode, h2, h3, slice_all listOf_length, Option.bind_eq_bind, Option.bind_some]
  rw [b1]
  simp only [Option.bind_some]
  rw [d1]
  rfl

end

theorem mem_teamsOf {T : ℕ} {f : ℕ → ℕ} {t : ℕ} : t ∈ teamsOf T f ↔ t < T ∧ f t ≠ 0 := by simp [teamsOf]
theorem teamsOf_sorted {T : ℕ} {f : ℕ → ℕ} : (teamsOf T f).Pairwise (· < ·) :=
  (List.pairwise_lt_range).filter _

/-- The cell of a pair is its own. -/
theorem cell_inj {T p t p' t' : ℕ} (ht : t < T) (ht' : t' < T) (e : p * T + t = p' * T + t') : p = p' ∧ t = t' := by
  have h0 : 0 < T := by omega
  have e1 : (p * T + t) / T = p := by rw [Nat.add_comm, Nat.add_mul_div_right _ _ h0, Nat.div_eq_of_lt ht, Nat.zero_add]
  have e2 : (p' * T + t') / T = p' := by rw [Nat.add_comm, Nat.add_mul_div_right _ _ h0, Nat.div_eq_of_lt ht', Nat.zero_add]
  have : p = p' := by rw [← e1, ← e2, e]
  subst this
  exact ⟨rfl, by omega⟩

theorem cell_lt {P T p t : ℕ} (hp : p < P) (ht : t < T) : p * T + t < P * T := by
  calc p * T + t < p * T + T := by omega
    _ = (p + 1) * T := by ring
    _ ≤ P * T := Nat.mul_le_mul_right _ hp

theorem cell_eq {T p t : ℕ} (ht : t < T) : p + t + p * (T - 1) = p * T + t := by
  obtain ⟨k, rfl⟩ : ∃ k, T = k + 1 := ⟨T - 1, by omega⟩
  simp; ring

/-- The beliefs of all pairs, whatever their values. -/
theorem kcIntrinsic_cells {o y r : Mat Num} {P T : ℕ} (ho : o.rows = P ∧ o.cols = T) (hy : y.rows = P ∧ y.cols = T)
    (hr : r.rows = P ∧ r.cols = T) {out : Arr Num} (hs : out.size = P * T) :
    ∃ out', kcIntrinsic T o y r out = some out' ∧ out'.size = P * T ∧
      ∀ p < P, ∀ t < T, out'.data (p * T + t) = o.data p t + y.data p t + r.data p t := by
  obtain ⟨out', a1, a2, a3⟩ := loopUp_inv (n := r.rows) (body := fun p (out : Arr Num) => loopUp r.cols (fun t out => do
      let o ← o.rd p t
      let y ← y.rd p t
      let r ← r.rd p t
      out.wr (p + t + p * (T - 1)) (o + y + r)) out) (s := out)
    (fun k out => out.size = P * T ∧ ∀ p < k, ∀ t < T, out.data (p * T + t) = o.data p t + y.data p t + r.data p t)
    ⟨hs, fun p hp => by omega⟩
    (by
      rintro p hp out ⟨b1, b2⟩
      rw [hr.1] at hp
      obtain ⟨out', c1, c2, c3, c4⟩ := loopUp_inv (n := r.cols) (body := fun t (out : Arr Num) => do
          let o ← o.rd p t
          let y ← y.rd p t
          let r ← r.rd p t
          out.wr (p + t + p * (T - 1)) (o + y + r)) (s := out)
        (fun k out => out.size = P * T ∧ (∀ p' < p, ∀ t < T, out.data (p' * T + t) = o.data p' t + y.data p' t + r.data p' t) ∧
          ∀ t < k, out.data (p * T + t) = o.data p t + y.data p t + r.data p t)
        ⟨b1, b2, fun t ht => by omega⟩
        (by
          rintro t ht out ⟨d1, d2, d3⟩
          rw [hr.2] at ht
          rw [Mat.rd_of_lt (by omega) (by omega), Mat.rd_of_lt (by omega) (by omega), Mat.rd_of_lt (by omega) (by omega)]
          simp only [Option.bind_eq_bind, Option.bind_some]
          rw [cell_eq ht, Arr.wr_of_lt (by rw [d1]; exact cell_lt hp ht)]
          refine ⟨_, rfl, d1, fun p' hp' t' ht' => ?_, fun t' ht' => ?_⟩
          · show (if p' * T + t' = p * T + t then _ else _) = _
            rw [if_neg (fun e => by have := (cell_inj ht' ht e).1; omega)]
            exact d2 p' hp' t' ht'
          · show (if p * T + t' = p * T + t then _ else _) = _
            by_cases e : t' = t
            · subst e; rw [if_pos rfl]
            · rw [if_neg (by omega)]; exact d3 t' (by omega))
      refine ⟨out', c1, c2, fun p' hp' t ht => ?_⟩
      by_cases e : p' = p
      · subst e; exact c4 t (by rw [hr.2]; exact ht)
      · exact c3 p' (by omega) t ht)
  exact ⟨out', a1, a2, fun p hp t ht => a3 p (by rw [hr.1]; exact hp) t ht⟩

theorem reshape_toList {a : Arr Num} {P T : ℕ} (hs : a.size = P * T) :
    ∃ m, reshape a.toList P T = some m ∧ m.rows = P ∧ m.cols = T ∧ ∀ p < P, ∀ t < T, m.data p t = a.data (p * T + t) := by
  refine ⟨_, if_pos (by simp [Arr.toList, hs]), rfl, rfl, fun p hp t ht => ?_⟩
  have := cell_lt hp ht
  show a.toList.getD (T * p + t) default = _
  rw [Nat.mul_comm T p]
  simp [Arr.toList, hs, this]

end Verif.Proofs
