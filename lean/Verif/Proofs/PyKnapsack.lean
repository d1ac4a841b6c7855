import Verif.Model.PyKc
import Verif.Proofs.PyNp
import Verif.Proofs.KnapsackOut

/-! # The knapsack messages of the pure Python assignment solver -/

namespace Verif.Proofs
open Verif Num Model Spec

section
variable {T cap sz : ℕ} {nz : List ℕ} {w : Arr ℕ} {wf : ℕ → ℕ} {m : Arr Num} {mf : ℕ → ℚ}

theorem mem_pyNz {w : Arr ℕ} {t : ℕ} : t ∈ pyNz w ↔ t < w.size ∧ w.data t ≠ 0 := by simp [pyNz]

/-- The list that the Python program computes is a well-formed list of the teams of the department. -/
theorem pyNz_ok (ok : DeptOk T cap nz sz w wf) : DeptOk T cap (pyNz w) (pyNz w).length w wf := by
  have hmem : ∀ t, t ∈ pyNz w ↔ t < T ∧ wf t ≠ 0 := fun t => by
    rw [mem_pyNz, ok.w_size]
    constructor
    · rintro ⟨h1, h2⟩; exact ⟨h1, by rwa [← ok.w_data t h1]⟩
    · rintro ⟨h1, h2⟩; exact ⟨h1, by rwa [ok.w_data t h1]⟩
  refine ⟨List.Pairwise.filter _ List.pairwise_lt_range, hmem, ?_, rfl, ok.w_size, ok.w_data, fun t ht => ?_⟩
  · obtain ⟨t, ht⟩ := List.exists_mem_of_ne_nil _ ok.nonempty
    exact List.ne_nil_of_mem ((hmem t).mpr ((ok.mem t).mp ht))
  · exact ok.fits t ((ok.mem t).mpr ((hmem t).mp ht))

theorem pyFwdRow_spec (ok : DeptOk T cap nz sz w wf) (hm : m.Is T mf) {t : ℕ} (ht : t < T) (hne : wf t ≠ 0) {init : Arr Num}
    (hi : init.size = cap + 1) (hv : ∀ a ≤ cap, IsMin (Fset wf mf t a) (init.data a)) :
    ∃ row, pyFwdRow cap w m t init = some row ∧ row.size = cap + 1 ∧
      ∀ a ≤ cap, IsMin (Fset wf mf (t + 1) a) (row.data a) := by
  obtain ⟨row, h1, h2, h3⟩ := genM_eq (n := cap + 1) (f := fun a => do
      let wt ← w.rd t
      if wt ≤ a ∧ ¬ (t = 0 ∧ a ≠ wt) then do
        let y ← init.rd (a - wt)
        let mt ← m.rd t
        let x ← init.rd a
        some (cmin (y + mt) x)
      else init.rd a)
    (g := fun a => if wf t ≤ a ∧ ¬ (t = 0 ∧ a ≠ wf t) then cmin (init.data (a - wf t) + fin (mf t)) (init.data a)
      else init.data a)
    (fun a ha => by
      simp only [Arr.rd_of_lt (show t < w.size by rw [ok.w_size]; exact ht), ok.w_data t ht, Option.bind_eq_bind,
        Option.bind_some]
      by_cases h : wf t ≤ a ∧ ¬ (t = 0 ∧ a ≠ wf t)
      · simp only [if_pos h, Arr.rd_of_lt (show a < init.size by omega), Arr.rd_of_lt (show a - wf t < init.size by omega),
          hm.rd ht, Option.bind_some]
      · simp only [if_neg h, Arr.rd_of_lt (show a < init.size by omega)])
  refine ⟨row, h1, h2, fun a ha => ?_⟩
  rw [h3 a (by omega)]
  have := fwdVal_isMin hne hv ha
  by_cases h : wf t ≤ a ∧ ¬ (t = 0 ∧ a ≠ wf t)
  · rw [if_pos h, Fset_succ hne, if_pos h.1, Set.union_comm]
    exact (isMin_add_fin (hv _ (by omega)) _).union (hv a ha)
  · rw [if_neg h]
    simpa only [fwdVal, if_neg h] using this

theorem pyFwdGap_spec (ok : DeptOk T cap nz sz w wf) {l : ℕ} (hl : l < nz.length) :
    pyFwdGap T nz nz[l] = some (hiPos T nz (l + 1) - nz[l] - 1) := by
  have hT := ok.get_T hl
  by_cases hmem : nz[l] + 1 ∈ nz
  · rw [ok.next_mem hl hmem]
    simp [pyFwdGap, hmem]
  · by_cases hlast : l + 1 < nz.length
    · have hb := ok.get_lt (show l < l + 1 by omega) hlast
      have hne : nz[l + 1] ≠ nz[l] + 1 := fun e => hmem (e ▸ List.getElem_mem hlast)
      have hback : nz.getLast? = some (nz[nz.length - 1]) := by
        rw [List.getLast?_eq_getElem?, List.getElem?_eq_getElem (by omega)]
      have hlb : nz[l + 1] ≤ nz[nz.length - 1] := by
        rcases Nat.lt_or_eq_of_le (show l + 1 ≤ nz.length - 1 by omega) with h | h
        · exact (ok.get_lt h (by omega)).le
        · simp only [h]; exact le_refl _
      have hlen : nz.length ≠ T := fun e => hmem (ok.all e (by have := ok.get_T hlast; omega))
      have hub : upperBound nz nz[l] = l + 1 := upperBound_get hlast hb (fun j hj => by
        rcases Nat.lt_or_eq_of_le (show j ≤ l by omega) with h | h
        · exact (ok.get_lt h hl).le
        · subst h; exact le_refl _)
      simp only [pyFwdGap, if_pos hlen, if_pos hmem, hback, Option.bind_eq_bind, Option.bind_some]
      rw [if_neg (by omega), if_pos (by omega), hub, List.getElem?_eq_getElem hlast, hiPos_lt hlast]
      rfl
    · have hll : l = nz.length - 1 := by omega
      have hback : nz.getLast? = some nz[l] := by
        rw [List.getLast?_eq_getElem?, ← hll, List.getElem?_eq_getElem hl]
      rw [hiPos_ge (by omega)]
      by_cases hlen : nz.length ≠ T
      · simp only [pyFwdGap, if_pos hlen, if_pos hmem, hback, Option.bind_eq_bind, Option.bind_some]
        by_cases hend : nz[l] + 1 < T
        · rw [if_pos (by omega)]; congr 1
        · rw [if_neg (by omega), if_neg (by omega)]; congr 1; omega
      · have : ¬ nz[l] + 1 < T := fun h => hmem (ok.all (by omega) h)
        simp only [pyFwdGap, if_neg hlen]; congr 1; omega

/-- Row `j` of the forward messages holds the cheapest costs of the earlier teams, for each exact weight. -/
theorem pyForward_length (ok : DeptOk T cap (pyNz w) sz w wf) (hm : m.Is T mf) :
    ∃ F, pyForward T cap w m = some F ∧ F.length = T + 1 ∧ ∀ j ≤ T, ∃ row, F[j]? = some row ∧ row.size = cap + 1 ∧
      ∀ a ≤ cap, IsMin (Fset wf mf j a) (row.data a) := by
  set nz := pyNz w with hnz
  have hpos := ok.len_pos
  have hinit : ∀ a ≤ cap, IsMin (Fset wf mf 0 a) ((knapInitF cap).data a) := by
    intro a ha
    rw [Fset_zero]
    by_cases h : a = 0
    · rw [if_pos h, h]; exact isMin_singleton 0
    · rw [if_neg h]
      simp only [knapInitF, h, if_false]; exact isMin_empty
  have hst0 : (if nz[0] ≠ 0 then List.replicate nz[0] (knapInitF cap) else []) = List.replicate nz[0] (knapInitF cap) := by
    by_cases h : nz[0] ≠ 0
    · rw [if_pos h]
    · rw [if_neg h, not_not.mp h]; rfl
  obtain ⟨⟨st, init⟩, h1, h2, h3, -⟩ := loopList_inv_idx (l := nz) (body := fun t (s : List (Arr Num) × Arr Num) => do
      let row ← pyFwdRow cap w m t s.2
      let k ← pyFwdGap T nz t
      some (s.1 ++ [row] ++ List.replicate k row, row)) (s := (List.replicate nz[0] (knapInitF cap), knapInitF cap))
    (fun l s => s.1.length = hiPos T nz l ∧
      (∀ j < hiPos T nz l, ∃ row, s.1[j]? = some row ∧ row.size = cap + 1 ∧
        ∀ a ≤ cap, IsMin (Fset wf mf (j + 1) a) (row.data a)) ∧
      s.2.size = cap + 1 ∧ ∀ a ≤ cap, IsMin (Fset wf mf (hiPos T nz l) a) (s.2.data a))
    (by
      rw [hiPos_lt hpos]
      refine ⟨by simp, fun j hj => ⟨knapInitF cap, by simp [List.getElem?_replicate, hj], rfl, fun a ha => ?_⟩, rfl, fun a ha => ?_⟩
      · rw [Fset_gap (i := 0) (by omega) (fun t _ ht => ok.gap0 (by omega))]; exact hinit a ha
      · rw [Fset_gap (i := 0) (by omega) (fun t _ ht => ok.gap0 ht)]; exact hinit a ha)
    (by
      rintro l hl ⟨s, init⟩ ⟨s1, s2, s3, s4⟩
      simp only at s1 s2 s3 s4
      rw [hiPos_lt hl] at s1 s2 s4
      have hlT := ok.get_T hl
      obtain ⟨row, r1, r2, r3⟩ := pyFwdRow_spec ok hm hlT (ok.get_ne hl) s3 s4
      have hle : nz[l] + 1 ≤ hiPos T nz (l + 1) := by
        by_cases h : l + 1 < nz.length
        · rw [hiPos_lt h]; exact ok.get_lt (by omega) h
        · rw [hiPos_ge (by omega)]; omega
      have hgap : ∀ j, nz[l] + 1 ≤ j → j ≤ hiPos T nz (l + 1) → ∀ a, Fset wf mf j a = Fset wf mf (nz[l] + 1) a := by
        intro j h1 h2 a
        exact Fset_gap h1 (fun t ht ht' => ok.gap hl (by omega) (by omega)) a
      refine ⟨(s ++ [row] ++ List.replicate (hiPos T nz (l + 1) - nz[l] - 1) row, row), ?_, ?_, ?_, r2, ?_⟩
      · simp only [r1, pyFwdGap_spec ok hl, Option.bind_eq_bind, Option.bind_some]
      · simp only [List.length_append, List.length_singleton, List.length_replicate, s1]; omega
      · intro j hj
        by_cases e : j < nz[l]
        · obtain ⟨r, q1, q2, q3⟩ := s2 j e
          refine ⟨r, ?_, q2, q3⟩
          simp only [List.append_assoc]
          rw [List.getElem?_append_left (by omega)]; exact q1
        · refine ⟨row, ?_, r2, fun a ha => ?_⟩
          · simp only [List.append_assoc]
            rw [List.getElem?_append_right (by omega), ← List.replicate_one, List.replicate_append_replicate,
              List.getElem?_replicate, if_pos (by omega)]
          · rw [hgap (j + 1) (by omega) (by omega)]; exact r3 a ha
      · intro a ha
        rw [hgap _ hle (le_refl _)]; exact r3 a ha)
  rw [hiPos_ge (le_refl _)] at h2 h3
  refine ⟨knapInitF cap :: st, ?_, by simpa using h2, fun j hj => ?_⟩
  · simp only [pyForward, ← hnz, List.getElem?_eq_getElem hpos, Option.bind_eq_bind, Option.bind_some, hst0]
    simp only [Option.bind_eq_bind] at h1
    rw [h1, Option.bind_some]
  · cases j with
    | zero => exact ⟨knapInitF cap, rfl, rfl, hinit⟩
    | succ j =>
      obtain ⟨row, r1, r2, r3⟩ := h3 j (by omega)
      exact ⟨row, by simpa using r1, r2, r3⟩

theorem pyForward_spec (ok : DeptOk T cap (pyNz w) sz w wf) (hm : m.Is T mf) :
    ∃ F, pyForward T cap w m = some F ∧ ∀ j ≤ T, ∃ row, F[j]? = some row ∧ row.size = cap + 1 ∧
      ∀ a ≤ cap, IsMin (Fset wf mf j a) (row.data a) := by
  obtain ⟨F, h1, -, h2⟩ := pyForward_length ok hm
  exact ⟨F, h1, h2⟩

theorem pyBwdRow_spec (ok : DeptOk T cap nz sz w wf) (hm : m.Is T mf) {t : ℕ} (ht : t < T) (hfit : wf t ≤ cap)
    {init : Arr Num} (hi : init.size = cap + 1) :
    ∃ row, pyBwdRow cap w m t init = some row ∧ row.size = cap + 1 ∧
      ∀ a ≤ cap, row.data a = bwdVal cap wf mf t init a := by
  obtain ⟨row, h1, h2, h3⟩ := genM_eq (n := cap + 1) (f := fun a => do
      let wt ← w.rd t
      if (t > 0 ∧ a + wt ≤ cap) ∨ (a = 0 ∧ t = 0) then do
        let x ← init.rd a
        let y ← init.rd (a + wt)
        let mt ← m.rd t
        some (cmin x (y + mt))
      else init.rd a)
    (g := bwdVal cap wf mf t init)
    (fun a ha => by
      simp only [Arr.rd_of_lt (show t < w.size by rw [ok.w_size]; exact ht), ok.w_data t ht, Option.bind_eq_bind,
        Option.bind_some, bwdVal]
      by_cases h : (t > 0 ∧ a + wf t ≤ cap) ∨ (a = 0 ∧ t = 0)
      · simp only [if_pos h, Arr.rd_of_lt (show a < init.size by omega), Arr.rd_of_lt (show a + wf t < init.size by omega),
          hm.rd ht, Option.bind_some]
      · simp only [if_neg h, Arr.rd_of_lt (show a < init.size by omega)])
  exact ⟨row, h1, h2, fun a ha => h3 a (by omega)⟩

theorem pyBwdGap_spec (ok : DeptOk T cap nz sz w wf) {l : ℕ} (hl : l < nz.length) :
    pyBwdGap T nz nz[l] = some (nz[l] - loPos nz l) := by
  have hT := ok.get_T hl
  have hpos := ok.len_pos
  by_cases h0 : nz[l] = 0
  · simp [pyBwdGap, h0]
  by_cases hmem : nz[l] - 1 ∈ nz
  · have : loPos nz l = nz[l] := by
      have h1 := loPos_le ok hl
      by_contra hc
      exact ((ok.mem _).mp hmem).2 (bgap ok hl (by omega) (by omega))
    rw [this]
    simp [pyBwdGap, h0, hmem]
  · have hlen : nz.length ≠ T := fun e => hmem (ok.all e (by omega))
    cases l with
    | zero =>
      simp only [pyBwdGap, if_pos hlen, if_neg h0, if_pos hmem, List.getElem?_eq_getElem hpos, Option.bind_eq_bind,
        Option.bind_some]
      rw [if_pos (by omega)]; rfl
    | succ l =>
      have hl' : l < nz.length := by omega
      have hlt := ok.get_lt (show l < l + 1 by omega) hl
      have hne : nz[l] ≠ nz[l + 1] - 1 := fun e => hmem (e ▸ List.getElem_mem hl')
      have h0l : nz[0] ≤ nz[l] := by
        rcases Nat.eq_zero_or_pos l with h | h
        · simp only [h]; exact le_refl _
        · exact (ok.get_lt h hl').le
      have hub : upperBound nz (nz[l + 1] - 1) = l + 1 := upperBound_get hl (by omega) (fun j hj => by
        rcases Nat.lt_or_eq_of_le (show j ≤ l by omega) with h | h
        · have := ok.get_lt h hl'; omega
        · subst h; omega)
      simp only [pyBwdGap, if_pos hlen, if_neg h0, if_pos hmem, List.getElem?_eq_getElem hpos, Option.bind_eq_bind,
        Option.bind_some]
      rw [if_neg (by omega), hub, if_neg (by omega)]
      simp only [Nat.add_sub_cancel, List.getElem?_eq_getElem hl', Option.bind_some, loPos_succ hl']
      rfl

/-- Row `j ≥ 1` of the backward messages holds the cheapest costs of the teams `≥ j` that still fit. -/
theorem pyBackward_spec (ok : DeptOk T cap (pyNz w) sz w wf) (hm : m.Is T mf) :
    ∃ B, pyBackward T cap w m = some B ∧ ∀ j ≤ T, ∃ row, B[j]? = some row ∧ row.size = cap + 1 ∧
      (0 < j → ∀ a ≤ cap, IsMin (Bset wf mf T cap j a) (row.data a)) := by
  set nz := pyNz w with hnz
  have hpos := ok.len_pos
  have hlast : nz.length - 1 < nz.length := by omega
  have hLT := ok.get_T hlast
  have hback : nz.getLast? = some (nz[nz.length - 1]) := by
    rw [List.getLast?_eq_getElem?, List.getElem?_eq_getElem (by omega)]
  have htail : ∀ j, nz[nz.length - 1] < j → j ≤ T → ∀ a, Bset wf mf T cap j a = Bset wf mf T cap T a := by
    intro j h1 h2 a
    exact Bset_gap h2 (fun t ht ht' => ok.gap hlast (by omega) (by rw [hiPos_ge (by omega)]; exact ht')) a
  set row0 : Arr Num := Arr.fill (cap + 1) 0 with hrow
  have hrd : ∀ a, row0.data a = fin 0 := fun a => rfl
  have hst0 : (if nz[nz.length - 1] ≠ T - 1 then List.replicate (T - 1 - nz[nz.length - 1]) row0 else []) =
      List.replicate (T - 1 - nz[nz.length - 1]) row0 := by
    by_cases h : nz[nz.length - 1] ≠ T - 1
    · rw [if_pos h]
    · rw [if_neg h, not_not.mp h]; simp
  have hlp : loPos nz nz.length = nz[nz.length - 1] + 1 := by
    have := loPos_succ (nz := nz) hlast
    rwa [Nat.sub_add_cancel hpos] at this
  obtain ⟨⟨st, init⟩, h1, h2, h3, -⟩ := loopList_inv_idx (l := nz.reverse) (body := fun t (s : List (Arr Num) × Arr Num) => do
      let row ← pyBwdRow cap w m t s.2
      let k ← pyBwdGap T nz t
      some (s.1 ++ [row] ++ List.replicate k row, row)) (s := (List.replicate (T - 1 - nz[nz.length - 1]) row0, row0))
    (fun k s => s.1.length = T - loPos nz (nz.length - k) ∧
      (∀ j, loPos nz (nz.length - k) ≤ j → j < T → ∃ row, s.1[T - 1 - j]? = some row ∧ row.size = cap + 1 ∧
        (0 < j → ∀ a ≤ cap, IsMin (Bset wf mf T cap j a) (row.data a))) ∧
      s.2.size = cap + 1 ∧ (k < nz.length → ∀ a ≤ cap, IsMin (Bset wf mf T cap (loPos nz (nz.length - k)) a) (s.2.data a)))
    (by
      simp only [Nat.sub_zero, hlp, List.length_replicate]
      refine ⟨by omega, fun j hj hjT => ⟨row0, ?_, rfl, fun _ a ha => ?_⟩, rfl, fun _ a ha => ?_⟩
      · rw [List.getElem?_replicate, if_pos (by omega)]
      · rw [htail j (by omega) (by omega), Bset_top ha, hrd]; exact isMin_singleton 0
      · rw [htail _ (by omega) (by omega), Bset_top ha, hrd]; exact isMin_singleton 0)
    (by
      rintro k hk ⟨s, init⟩ ⟨s1, s2, s3, s4⟩
      rw [List.length_reverse] at hk
      simp only at s1 s2 s3 s4
      obtain ⟨l, hl, e1, e2⟩ : ∃ l, l < nz.length ∧ nz.length - k = l + 1 ∧ nz.length - (k + 1) = l :=
        ⟨nz.length - 1 - k, by omega, by omega, by omega⟩
      have hget : nz.reverse[k]'(by simpa using hk) = nz[l] := by
        rw [List.getElem_reverse]; congr 1; omega
      rw [hget]
      rw [e1, loPos_succ hl] at s1 s2 s4
      have s4 := s4 hk
      rw [e2]
      have hlT := ok.get_T hl
      obtain ⟨row, r1, r2, r3⟩ := pyBwdRow_spec ok hm hlT (ok.fits _ (List.getElem_mem hl)) s3
      have hlo := loPos_le ok hl
      have hrow : 0 < nz[l] → ∀ a ≤ cap, IsMin (Bset wf mf T cap nz[l] a) (row.data a) := by
        intro hp a ha
        rw [r3 a ha]
        exact bwdVal_isMin hp hlT (ok.get_ne hl) s4 ha
      have hgap : ∀ j, loPos nz l ≤ j → j ≤ nz[l] → ∀ a, Bset wf mf T cap j a = Bset wf mf T cap nz[l] a := by
        intro j h1 h2 a
        exact Bset_gap h2 (fun t ht ht' => bgap ok hl (by omega) ht') a
      refine ⟨(s ++ [row] ++ List.replicate (nz[l] - loPos nz l) row, row), ?_, ?_, ?_, r2, ?_⟩
      · simp only [r1, pyBwdGap_spec ok hl, Option.bind_eq_bind, Option.bind_some]
      · simp only [List.length_append, List.length_singleton, List.length_replicate, s1]; omega
      · intro j hj hjT
        simp only [List.append_assoc]
        by_cases e : nz[l] < j
        · obtain ⟨r, q1, q2, q3⟩ := s2 j (by omega) hjT
          refine ⟨r, ?_, q2, q3⟩
          rw [List.getElem?_append_left (by omega)]; exact q1
        · refine ⟨row, ?_, r2, fun h0 a ha => ?_⟩
          · rw [List.getElem?_append_right (by omega), ← List.replicate_one, List.replicate_append_replicate,
              List.getElem?_replicate, if_pos (by omega)]
          · rw [hgap j hj (by omega)]; exact hrow (by omega) a ha
      · intro hk' a ha
        rw [hgap _ (le_refl _) hlo]
        refine hrow ?_ a ha
        have := ok.get_lt (show 0 < l by omega) hl
        omega)
  rw [List.length_reverse, Nat.sub_self] at h2 h3
  have h20 : st.length = T := by simpa [loPos] using h2
  refine ⟨st.reverse ++ [row0], ?_, fun j hj => ?_⟩
  · simp only [pyBackward, ← hnz, ← hrow, hback, Option.bind_eq_bind, Option.bind_some, hst0]
    simp only [Option.bind_eq_bind] at h1
    rw [h1, Option.bind_some]
  · by_cases e : j = T
    · subst e
      refine ⟨row0, ?_, rfl, fun _ a ha => ?_⟩
      · rw [List.getElem?_append_right (by simp [h20])]; simp [h20]
      · rw [Bset_top ha, hrd]; exact isMin_singleton 0
    · obtain ⟨row, r1, r2, r3⟩ := h3 j (by simp [loPos]) (by omega)
      refine ⟨row, ?_, r2, r3⟩
      rw [List.getElem?_append_left (by rw [List.length_reverse]; omega), List.getElem?_reverse (by omega), h20]
      exact r1

/-- The table of a list of rows. -/
theorem rows_mat {rows : List (Arr Num)} {n c : ℕ} (h : ∀ j ≤ n, ∃ row, rows[j]? = some row ∧ row.size = c + 1) :
    ∃ M : Mat Num, M.rows = n + 1 ∧ M.cols = c + 1 ∧ (∀ j ≤ n, ∀ row, rows[j]? = some row → M.data j = row.data) ∧
      ∀ j ≤ n, ∀ a ≤ c, rowsRd rows j a = some (M.data j a) := by
  refine ⟨⟨n + 1, c + 1, fun j => ((rows[j]?).getD (Arr.fill 0 0)).data⟩, rfl, rfl, fun j hj row hr => by simp [hr], fun j hj a ha => ?_⟩
  obtain ⟨row, r1, r2⟩ := h j hj
  simp only [rowsRd, r1, Option.bind_eq_bind, Option.bind_some, Option.getD_some]
  exact Arr.rd_of_lt (by omega)

theorem loopUp_congr {σ : Type} {n : ℕ} {f g : ℕ → σ → Option σ} {s : σ} (h : ∀ i < n, ∀ s, f i s = g i s) :
    loopUp n f s = loopUp n g s := by
  induction n with
  | zero => rfl
  | succ n ih =>
    rw [loopUp, loopUp, ih (fun i hi => h i (by omega))]
    congr 1; funext s; exact h n (by omega) s

theorem pyOut_eq (ok : DeptOk T cap nz sz w wf) {t : ℕ} (ht : t < T) (hne : wf t ≠ 0) {F B : List (Arr Num)}
    {FM BM : Mat Num} (hFr : FM.rows = T + 1) (hFc : FM.cols = cap + 1) (hBr : BM.rows = T + 1) (hBc : BM.cols = cap + 1)
    (hF : ∀ j ≤ T, ∀ a ≤ cap, rowsRd F j a = some (FM.data j a)) (hB : ∀ j ≤ T, ∀ a ≤ cap, rowsRd B j a = some (BM.data j a))
    (out : Arr Num) : pyOut cap w m F B t out = knapOut cap w m FM BM t out := by
  have hfit : wf t ≤ cap := ok.fits t ((ok.mem t).mpr ⟨ht, hne⟩)
  have hF' : ∀ j ≤ T, ∀ a ≤ cap, rowsRd F j a = FM.rd j a := fun j hj a ha => by
    rw [hF j hj a ha, Mat.rd_of_lt (by omega) (by omega)]
  have hB' : ∀ j ≤ T, ∀ a ≤ cap, rowsRd B j a = BM.rd j a := fun j hj a ha => by
    rw [hB j hj a ha, Mat.rd_of_lt (by omega) (by omega)]
  have hl : ∀ mt, loopUp (cap + 1) (pyPaths cap (wf t) mt t F B) ([], []) = loopUp (cap + 1) (knapPaths cap (wf t) mt t FM BM) ([], []) := by
    intro mt
    refine loopUp_congr fun i hi s => ?_
    simp only [pyPaths, knapPaths, hF' t (by omega) i (by omega), hB' (t + 1) (by omega) i (by omega)]
    by_cases h : i + wf t ≤ cap
    · simp only [if_pos h, hB' (t + 1) (by omega) _ h]
    · simp only [if_neg h]
  simp only [pyOut, knapOut, Arr.rd_of_lt (show t < w.size by rw [ok.w_size]; exact ht), ok.w_data t ht,
    Option.bind_eq_bind, Option.bind_some, ne_eq, hne, not_false_eq_true, if_true, hl]
  by_cases h0 : t = 0
  · subst h0
    simp only [if_true, hF' 0 (by omega) 0 (by omega), hB' (0 + 1) (by omega) _ hfit, hB' (0 + 1) (by omega) 0 (by omega)]
  · simp only [if_neg h0]

/-- The Python knapsack messages are the messages of the capacity constraint, and zero for the other teams. -/
theorem pyKnapMessages_spec (ok : DeptOk T cap nz sz w wf) (hm : m.Is T mf) :
    ∃ r, pyKnapMessages T cap w m = some r ∧ r.size = T ∧
      ∀ t < T, (wf t ≠ 0 → IsMessage (users wf 0 T) (Fits wf cap) mf t (r.data t)) ∧ (wf t = 0 → r.data t = 0) := by
  have ok' := pyNz_ok ok
  obtain ⟨F, f1, f2⟩ := pyForward_spec ok' hm
  obtain ⟨B, b1, b2⟩ := pyBackward_spec ok' hm
  obtain ⟨FM, F1, F2, F3, F4⟩ := rows_mat (n := T) (c := cap) (rows := F) (fun j hj => by
    obtain ⟨row, r1, r2, -⟩ := f2 j hj; exact ⟨row, r1, r2⟩)
  obtain ⟨BM, B1, B2, B3, B4⟩ := rows_mat (n := T) (c := cap) (rows := B) (fun j hj => by
    obtain ⟨row, r1, r2, -⟩ := b2 j hj; exact ⟨row, r1, r2⟩)
  have hF : ∀ j ≤ T, ∀ a ≤ cap, IsMin (Fset wf mf j a) (FM.data j a) := fun j hj a ha => by
    obtain ⟨row, r1, r2, r3⟩ := f2 j hj
    rw [F3 j hj row r1]; exact r3 a ha
  have hB : ∀ j, 0 < j → j ≤ T → ∀ a ≤ cap, IsMin (Bset wf mf T cap j a) (BM.data j a) := fun j h0 hj a ha => by
    obtain ⟨row, r1, r2, r3⟩ := b2 j hj
    rw [B3 j hj row r1]; exact r3 h0 a ha
  obtain ⟨r, h1, h2, h3, h4⟩ := loopList_inv_idx (l := pyNz w) (body := pyOut cap w m F B) (s := Arr.fill T 0)
    (fun k r => r.size = T ∧ (∀ t ∈ (pyNz w).take k, IsMessage (users wf 0 T) (Fits wf cap) mf t (r.data t)) ∧
      ∀ t, wf t = 0 → r.data t = 0)
    ⟨rfl, by simp, fun _ _ => rfl⟩
    (by
      rintro k hk r ⟨r1, r2, r3⟩
      have hmem := (ok'.mem _).mp (List.getElem_mem hk)
      obtain ⟨v, v1, v2, -⟩ := knapOut_spec ok hm hmem.1 F1 F2 B1 B2 hF hB r1
      refine ⟨⟨r.size, fun i => if i = (pyNz w)[k] then v else r.data i⟩, ?_, r1, fun t ht => ?_, fun t ht => ?_⟩
      · rw [pyOut_eq ok' hmem.1 hmem.2 F1 F2 B1 B2 F4 B4, v1]
      · rw [List.take_succ_eq_append_getElem hk, List.mem_append] at ht
        by_cases e : t = (pyNz w)[k]
        · subst e; simpa using v2 hmem.2
        · simp only [e, if_false]
          refine r2 t (ht.resolve_right ?_)
          simpa using e
      · have : t ≠ (pyNz w)[k] := fun e => hmem.2 (e ▸ ht)
        simp only [this, if_false]; exact r3 t ht)
  refine ⟨r, ?_, h2, fun t ht => ⟨fun hne => h3 t ?_, h4 t⟩⟩
  · simp only [pyKnapMessages, f1, b1, Option.bind_eq_bind, Option.bind_some, h1]
  · rw [List.take_length]; exact (ok'.mem t).mpr ⟨ht, hne⟩

end

end Verif.Proofs
