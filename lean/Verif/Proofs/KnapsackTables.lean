import Verif.Proofs.PyKnapsack

/-! # The tables of the knapsack recursions, row by row

The rows of the backward table, including the first one, which no message is computed from. -/

namespace Verif.Proofs
open Verif Num Model Spec

section
variable {T cap sz : ℕ} {nz : List ℕ} {w : Arr ℕ} {wf : ℕ → ℕ} {m : Arr Num} {mf : ℕ → ℚ}

/-- Row `T - k` of the backward table: the row below it, with the team of the row added if it uses the department. -/
def bRow (cap T : ℕ) (wf : ℕ → ℕ) (mf : ℕ → ℚ) : ℕ → ℕ → Num
  | 0 => fun _ => fin 0
  | k + 1 => if wf (T - (k + 1)) = 0 then bRow cap T wf mf k
      else bwdVal cap wf mf (T - (k + 1)) ⟨cap + 1, bRow cap T wf mf k⟩

theorem bRow_gap {i j : ℕ} (hij : i ≤ j) (hj : j ≤ T) (h : ∀ t, i ≤ t → t < j → wf t = 0) :
    bRow cap T wf mf (T - i) = bRow cap T wf mf (T - j) := by
  induction hij using Nat.decreasingInduction with
  | self => rfl
  | of_succ k hk ih =>
    rw [← ih (fun t h1 h2 => h t (by omega) h2)]
    obtain ⟨l, hl⟩ : ∃ l, T - k = l + 1 := ⟨T - k - 1, by omega⟩
    rw [hl, show T - (k + 1) = l by omega]
    exact if_pos (h _ (by omega) (by omega))

theorem bRow_step {t : ℕ} (ht : t < T) (hw : wf t ≠ 0) (a : ℕ) :
    bRow cap T wf mf (T - t) a = bwdVal cap wf mf t ⟨cap + 1, bRow cap T wf mf (T - (t + 1))⟩ a := by
  obtain ⟨l, hl⟩ : ∃ l, T - t = l + 1 := ⟨T - t - 1, by omega⟩
  have e : T - (l + 1) = t := by omega
  rw [hl, show T - (t + 1) = l by omega, bRow, e, if_neg hw]

theorem bwdVal_congr {t : ℕ} (hfit : wf t ≤ cap) {init init' : Arr Num} (h : ∀ a ≤ cap, init.data a = init'.data a) {a : ℕ} (ha : a ≤ cap) :
    bwdVal cap wf mf t init a = bwdVal cap wf mf t init' a := by
  unfold bwdVal
  by_cases hc : (t > 0 ∧ a + wf t ≤ cap) ∨ (a = 0 ∧ t = 0)
  · rw [if_pos hc, if_pos hc, h a ha, h (a + wf t) (by omega)]
  · rw [if_neg hc, if_neg hc, h a ha]

/-- Every backward cell, the first row included. -/
theorem knapBackward_rows (ok : DeptOk T cap nz sz w wf) (hm : m.Is T mf) {st : Mat Num} (hr : st.rows = T + 1)
    (hc : st.cols = cap + 1) :
    ∃ B, knapBackward T cap nz sz w m st = some B ∧ B.rows = T + 1 ∧ B.cols = cap + 1 ∧
      ∀ j ≤ T, ∀ a ≤ cap, B.data j a = bRow cap T wf mf (T - j) a := by
  have hpos := ok.len_pos
  have hlast : nz.length - 1 < nz.length := by omega
  have hLT := ok.get_T hlast
  have hsz : sz ≠ 0 := by rw [ok.size]; omega
  have h0L : nz[0] ≤ nz[nz.length - 1] := by
    rcases Nat.eq_zero_or_pos (nz.length - 1) with h | h
    · simp only [h]; exact le_refl _
    · exact (ok.get_lt h hlast).le
  have htail : ∀ j, nz[nz.length - 1] < j → j ≤ T → ∀ a, bRow cap T wf mf (T - j) a = fin 0 := by
    intro j h1 h2 a
    have := bRow_gap (cap := cap) (wf := wf) (mf := mf) h2 le_rfl (fun t ht ht' => ok.gap hlast (by omega) (by rw [hiPos_ge (by omega)]; exact ht'))
    rw [this, Nat.sub_self]; rfl
  set row : Arr Num := Arr.fill (cap + 1) 0 with hrow
  have hrs : row.size = cap + 1 := rfl
  have hrd : ∀ a, row.data a = fin 0 := fun a => rfl
  obtain ⟨st1, p1, p2, p3, p4⟩ : ∃ st1, (if ((nz[nz.length - 1] : ℕ) : ℤ) ≠ (T : ℤ) - 1 then fillDown (T - 1) nz[0] row
      (⟨st.rows, st.cols, fun k l => if k = T then row.data l else st.data k l⟩ : Mat Num) else
      some (⟨st.rows, st.cols, fun k l => if k = T then row.data l else st.data k l⟩ : Mat Num)) = some st1 ∧
      st1.rows = T + 1 ∧ st1.cols = cap + 1 ∧ ∀ j, nz[nz.length - 1] < j → j ≤ T → ∀ a, st1.data j a = fin 0 := by
    by_cases h : ((nz[nz.length - 1] : ℕ) : ℤ) ≠ (T : ℤ) - 1
    · obtain ⟨st', h1, h2, h3, h4⟩ := fillDown_spec (lo := nz[0]) (hi := T - 1) (row := row)
        (st := ⟨st.rows, st.cols, fun k l => if k = T then row.data l else st.data k l⟩)
        (fun _ => by change _ < st.rows; omega) (by rw [hrs, ← hc])
      refine ⟨st', by rw [if_pos h]; exact h1, by rw [h2]; exact hr, by rw [h3]; exact hc, ?_⟩
      intro j hj hjT a
      rw [h4]
      by_cases e : nz[0] < j ∧ j ≤ T - 1
      · rw [if_pos e, hrd]
      · rw [if_neg e]
        obtain rfl : j = T := by omega
        simp [hrd]
    · refine ⟨⟨st.rows, st.cols, fun k l => if k = T then row.data l else st.data k l⟩, by rw [if_neg h], hr, hc, ?_⟩
      intro j hj hjT a
      obtain rfl : j = T := by omega
      simp [hrd]
  obtain ⟨⟨B, init⟩, h1, h2, h3, h4, h5, h6⟩ := loopDown_inv (n := nz.length) (body := knapBwdBody T cap sz nz w m)
    (s := (st1, row))
    (fun l s => s.1.rows = T + 1 ∧ s.1.cols = cap + 1 ∧ s.2.size = cap + 1 ∧
      (∀ j, loPos nz l ≤ j → j ≤ T → ∀ a ≤ cap, s.1.data j a = bRow cap T wf mf (T - j) a) ∧
      (∀ a ≤ cap, s.2.data a = bRow cap T wf mf (T - loPos nz l) a))
    (by
      have hlp : loPos nz nz.length = nz[nz.length - 1] + 1 := by
        have := loPos_succ (nz := nz) hlast
        rwa [Nat.sub_add_cancel hpos] at this
      refine ⟨p2, p3, rfl, ?_, ?_⟩
      · intro j hj hjT a ha
        rw [hlp] at hj
        rw [htail j (by omega) hjT, p4 j (by omega) hjT]
      · intro a ha
        rw [hlp, htail _ (by omega) (by omega)]; rfl)
    (by
      rintro l hl ⟨s, init⟩ ⟨s1, s2, s3, s4, s5⟩
      simp only at s1 s2 s3 s4 s5
      rw [loPos_succ hl] at s4 s5
      have hlT := ok.get_T hl
      obtain ⟨s', c1, c2, c3, c4⟩ := bwdCells ok hm hlT (ok.fits _ (List.getElem_mem hl)) s3 s1 s2
      obtain ⟨s'', g1, g2, g3, g4⟩ := bwdGap ok hl (init := ⟨s'.cols, s'.data nz[l]⟩) c3 c2 c3
      have hlo := loPos_le ok hl
      have hrow : ∀ a ≤ cap, s'.data nz[l] a = bRow cap T wf mf (T - nz[l]) a := by
        intro a ha
        rw [c4, if_pos (by omega), bRow_step hlT (ok.get_ne hl)]
        exact bwdVal_congr (ok.fits _ (List.getElem_mem hl)) s5 ha
      have hgap : ∀ j, loPos nz l ≤ j → j ≤ nz[l] → bRow cap T wf mf (T - j) = bRow cap T wf mf (T - nz[l]) := by
        intro j h1 h2
        exact bRow_gap h2 (by omega) (fun t ht ht' => bgap ok hl (by omega) ht')
      refine ⟨(s'', ⟨s'.cols, s'.data nz[l]⟩), ?_, g2, g3, c3, ?_, ?_⟩
      · simp only [knapBwdBody, List.getElem?_eq_getElem hl, Option.bind_eq_bind, Option.bind_some, c1,
          Mat.rdRow_of_lt (show nz[l] < s'.rows by omega), g1]
      · intro j hj hjT a ha
        simp only
        rw [g4]
        by_cases e : j < nz[l]
        · rw [if_pos ⟨hj, e⟩, hgap j hj (by omega)]
          exact hrow a ha
        · rw [if_neg (by omega)]
          by_cases e' : j = nz[l]
          · subst e'; exact hrow a ha
          · rw [c4, if_neg (by omega)]
            exact s4 j (by omega) hjT a ha
      · intro a ha
        rw [hgap _ (le_refl _) hlo]
        exact hrow a ha)
  refine ⟨B, ?_, h2, h3, fun j hjT => h5 j (by simp [loPos]) hjT⟩
  have e := ok.size
  subst e
  simp only [knapBackward, ← hrow, Mat.wrRow_of_lt (show T < st.rows by omega) (show row.size = st.cols by omega),
    Option.bind_eq_bind, Option.bind_some, if_neg hsz, List.getElem?_eq_getElem hlast, List.getElem?_eq_getElem hpos]
  by_cases h : ((nz[nz.length - 1] : ℕ) : ℤ) ≠ (T : ℤ) - 1
  · rw [if_pos h] at p1 ⊢
    rw [p1, Option.bind_some, h1, Option.bind_some]
  · rw [if_neg h] at p1 ⊢
    rw [Option.some.inj p1, h1, Option.bind_some]

/-- Every row of the Python backward messages, the first included. -/
theorem pyBackward_rows (ok : DeptOk T cap (pyNz w) sz w wf) (hm : m.Is T mf) :
    ∃ B, pyBackward T cap w m = some B ∧ B.length = T + 1 ∧ ∀ j ≤ T, ∃ row, B[j]? = some row ∧ row.size = cap + 1 ∧
      ∀ a ≤ cap, row.data a = bRow cap T wf mf (T - j) a := by
  set nz := pyNz w with hnz
  have hpos := ok.len_pos
  have hlast : nz.length - 1 < nz.length := by omega
  have hLT := ok.get_T hlast
  have hback : nz.getLast? = some (nz[nz.length - 1]) := by
    rw [List.getLast?_eq_getElem?, List.getElem?_eq_getElem (by omega)]
  have htail : ∀ j, nz[nz.length - 1] < j → j ≤ T → ∀ a, bRow cap T wf mf (T - j) a = fin 0 := by
    intro j h1 h2 a
    have := bRow_gap (cap := cap) (wf := wf) (mf := mf) h2 le_rfl (fun t ht ht' => ok.gap hlast (by omega) (by rw [hiPos_ge (by omega)]; exact ht'))
    rw [this, Nat.sub_self]; rfl
  set row0 : Arr Num := Arr.fill (cap + 1) 0 with hrow
  have hrd : ∀ a, row0.data a = fin 0 := fun a => rfl
  have hst0 : (if nz[nz.length - 1] ≠ T - 1 then List.replicate (T - 1 - nz[nz.length - 1]) row0 else []) =
      List.replicate (T - 1 - nz[nz.length - 1]) row0 := by
    by_cases h : nz[nz.length - 1] ≠ T - 1
    · rw [if_pos h]
    · rw [if_neg h, not_not.mp h]; simp
  have hlp : loPos nz nz.length = nz[nz.length - 1] + 1 := by
    have := loPos_succ (nz := nz) hlast
    rwa [Nat.sub_add_cancel hpos] at this
  obtain ⟨⟨st, init⟩, h1, h2, h3, -⟩ := loopList_inv_idx (l := nz.reverse) (body := fun t (s : List (Arr Num) × Arr Num) => do
      let row ← pyBwdRow cap w m t s.2
      let k ← pyBwdGap T nz t
      some (s.1 ++ [row] ++ List.replicate k row, row)) (s := (List.replicate (T - 1 - nz[nz.length - 1]) row0, row0))
    (fun k s => s.1.length = T - loPos nz (nz.length - k) ∧
      (∀ j, loPos nz (nz.length - k) ≤ j → j < T → ∃ row, s.1[T - 1 - j]? = some row ∧ row.size = cap + 1 ∧
        ∀ a ≤ cap, row.data a = bRow cap T wf mf (T - j) a) ∧
      s.2.size = cap + 1 ∧ ∀ a ≤ cap, s.2.data a = bRow cap T wf mf (T - loPos nz (nz.length - k)) a)
    (by
      simp only [Nat.sub_zero, hlp, List.length_replicate]
      refine ⟨by omega, fun j hj hjT => ⟨row0, ?_, rfl, fun a ha => ?_⟩, rfl, fun a ha => ?_⟩
      · rw [List.getElem?_replicate, if_pos (by omega)]
      · rw [htail j (by omega) (by omega), hrd]
      · rw [htail _ (by omega) (by omega), hrd])
    (by
      rintro k hk ⟨s, init⟩ ⟨s1, s2, s3, s4⟩
      rw [List.length_reverse] at hk
      simp only at s1 s2 s3 s4
      obtain ⟨l, hl, e1, e2⟩ : ∃ l, l < nz.length ∧ nz.length - k = l + 1 ∧ nz.length - (k + 1) = l :=
        ⟨nz.length - 1 - k, by omega, by omega, by omega⟩
      have hget : nz.reverse[k]'(by simpa using hk) = nz[l] := by
        rw [List.getElem_reverse]; congr 1; omega
      rw [hget]
      rw [e1, loPos_succ hl] at s1 s2 s4
      rw [e2]
      have hlT := ok.get_T hl
      obtain ⟨row, r1, r2, r3⟩ := pyBwdRow_spec ok hm hlT (ok.fits _ (List.getElem_mem hl)) s3
      have hlo := loPos_le ok hl
      have hrow : ∀ a ≤ cap, row.data a = bRow cap T wf mf (T - nz[l]) a := by
        intro a ha
        rw [r3 a ha, bRow_step hlT (ok.get_ne hl)]
        exact bwdVal_congr (ok.fits _ (List.getElem_mem hl)) s4 ha
      have hgap : ∀ j, loPos nz l ≤ j → j ≤ nz[l] → bRow cap T wf mf (T - j) = bRow cap T wf mf (T - nz[l]) := by
        intro j h1 h2
        exact bRow_gap h2 (by omega) (fun t ht ht' => bgap ok hl (by omega) ht')
      refine ⟨(s ++ [row] ++ List.replicate (nz[l] - loPos nz l) row, row), ?_, ?_, ?_, r2, ?_⟩
      · simp only [r1, pyBwdGap_spec ok hl, Option.bind_eq_bind, Option.bind_some]
      · simp only [List.length_append, List.length_singleton, List.length_replicate, s1]; omega
      · intro j hj hjT
        simp only [List.append_assoc]
        by_cases e : nz[l] < j
        · obtain ⟨r, q1, q2, q3⟩ := s2 j (by omega) hjT
          refine ⟨r, ?_, q2, q3⟩
          rw [List.getElem?_append_left (by omega)]; exact q1
        · refine ⟨row, ?_, r2, fun a ha => ?_⟩
          · rw [List.getElem?_append_right (by omega), ← List.replicate_one, List.replicate_append_replicate,
              List.getElem?_replicate, if_pos (by omega)]
          · rw [hgap j hj (by omega)]; exact hrow a ha
      · intro a ha
        rw [hgap _ (le_refl _) hlo]
        exact hrow a ha)
  rw [List.length_reverse, Nat.sub_self] at h2 h3
  have h20 : st.length = T := by simpa [loPos] using h2
  refine ⟨st.reverse ++ [row0], ?_, by simp [h20], fun j hj => ?_⟩
  · simp only [pyBackward, ← hnz, ← hrow, hback, Option.bind_eq_bind, Option.bind_some, hst0]
    simp only [Option.bind_eq_bind] at h1
    rw [h1, Option.bind_some]
  · by_cases e : j = T
    · subst e
      refine ⟨row0, ?_, rfl, fun a ha => ?_⟩
      · rw [List.getElem?_append_right (by simp [h20])]; simp [h20]
      · rw [Nat.sub_self]; rfl
    · obtain ⟨row, r1, r2, r3⟩ := h3 j (by simp [loPos]) (by omega)
      refine ⟨row, ?_, r2, r3⟩
      rw [List.getElem?_append_left (by rw [List.length_reverse]; omega), List.getElem?_reverse (by omega), h20]
      exact r1

end

end Verif.Proofs
