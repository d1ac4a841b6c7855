import Verif.Model.TeamKnapsack
import Mathlib.Algebra.BigOperators.Group.Finset.Basic
import Mathlib.Data.List.Nodup
import Mathlib.Data.List.NodupEquivFin
import Mathlib.Algebra.Order.Field.Rat
import Mathlib.Tactic.Ring
import Mathlib.Tactic.Linarith

/-! # Messages from teams to departments -/

namespace Verif.Proofs
open Verif Num Model

section
variable {D T : ℕ} {nzs : List (List ℕ)} {reward oric : Arr Num} {ext : Mat Num} {w o : ℕ → ℚ} {x : ℕ → ℕ → ℚ}

theorem take_succ_mem {α : Type} {l : List α} {k : ℕ} (hk : k < l.length) (a : α) :
    a ∈ l.take (k + 1) ↔ a ∈ l.take k ∨ a = l[k] := by
  rw [List.take_succ_eq_append_getElem hk, List.mem_append, List.mem_singleton]

theorem nodup_not_mem_take {α : Type} {l : List α} (h : l.Nodup) {k : ℕ} (hk : k < l.length) : l[k] ∉ l.take k := by
  intro hm
  obtain ⟨i, hi, e⟩ := List.mem_iff_getElem.mp hm
  rw [List.length_take] at hi
  rw [List.getElem_take] at e
  have := (List.Nodup.getElem_inj_iff h).mp e
  omega

/-- The teams shared with one other department. -/
theorem shared_is (hw : reward.Is T w) (ho : oric.Is T o) (hx : ext.Is D T x) {d t : ℕ} (hd : d < D) (ht : t < D)
    {I : List ℕ} (hI : I.Nodup) (hlt : ∀ l ∈ I, l < T) {m : Mat Num} (hm : m.rows = D) (hmc : m.cols = T) {u : List ℕ}
    (hu : u.Nodup) (hIu : ∀ l ∈ I, l ∈ u) :
    ∃ m' u', loopList I (teamToKnapShared reward ext oric d t) (m, u) = some (m', u') ∧ m'.rows = D ∧ m'.cols = T ∧
      u'.Nodup ∧ (∀ l, l ∈ u' ↔ l ∈ u ∧ l ∉ I) ∧
      ∀ i l, m'.data i l = if i = d ∧ l ∈ I then fin (w l + x t l + o l) else m.data i l := by
  obtain ⟨⟨m', u'⟩, h1, h2, h3, h4, h5, h6⟩ := loopList_inv_idx (l := I)
    (body := teamToKnapShared reward ext oric d t) (s := (m, u))
    (fun k s => s.1.rows = D ∧ s.1.cols = T ∧ s.2.Nodup ∧ (∀ l, l ∈ s.2 ↔ l ∈ u ∧ l ∉ I.take k) ∧
      ∀ i l, s.1.data i l = if i = d ∧ l ∈ I.take k then fin (w l + x t l + o l) else m.data i l)
    ⟨hm, hmc, hu, by simp, by simp⟩
    (by
      rintro k hk ⟨m', u'⟩ ⟨a1, a2, a3, a4, a5⟩
      simp only at a1 a2 a3 a4 a5
      have hl : I[k] < T := hlt _ (List.getElem_mem hk)
      have hmem : I[k] ∈ u' := (a4 _).mpr ⟨hIu _ (List.getElem_mem hk), nodup_not_mem_take hI hk⟩
      refine ⟨(⟨m'.rows, m'.cols, fun i l => if i = d ∧ l = I[k] then fin (w I[k] + x t I[k] + o I[k]) else m'.data i l⟩,
        u'.erase I[k]), ?_, a1, a2, a3.erase _, ?_, ?_⟩
      · simp only [teamToKnapShared, hw.rd hl, ho.rd hl, hx.rd ht hl, Option.bind_eq_bind, Option.bind_some, fin_add,
          Mat.wr_of_lt (show d < m'.rows by omega) (show I[k] < m'.cols by omega), eraseFound, if_pos hmem]
      · intro l
        rw [a3.mem_erase_iff, a4, take_succ_mem hk]
        tauto
      · intro i l
        simp only [take_succ_mem hk, a5]
        by_cases h1 : i = d
        · by_cases h2 : l = I[k]
          · simp [h1, h2]
          · simp [h1, h2]
        · simp [h1])
  refine ⟨m', u', h1, h2, h3, h4, ?_, ?_⟩
  · intro l; rw [h5 l, List.take_length]
  · intro i l; rw [h6 i l, List.take_length]

/-- The departments used by team `l`, other than `d`. -/
def otherDepts (D : ℕ) (nzs : List (List ℕ)) (d l : ℕ) : Finset ℕ :=
  (Finset.range D).filter (fun t => t ≠ d ∧ l ∈ nzs.getD t [])

theorem teamToKnapDept_is (hw : reward.Is T w) (ho : oric.Is T o) (hx : ext.Is D T x) (hlen : nzs.length = D)
    (hnd : ∀ d < D, (nzs.getD d []).Nodup) (hlt : ∀ d < D, ∀ l ∈ nzs.getD d [], l < T) {d : ℕ} (hd : d < D)
    (h2 : ∀ l ∈ nzs.getD d [], ∀ t ∈ otherDepts D nzs d l, ∀ t' ∈ otherDepts D nzs d l, t = t')
    {m : Mat Num} (hm : m.rows = D) (hmc : m.cols = T) :
    ∃ m', teamToKnapDept D T nzs reward ext oric d m = some m' ∧ m'.rows = D ∧ m'.cols = T ∧
      ∀ i l, m'.data i l = if i = d ∧ l ∈ nzs.getD d [] then fin (w l + o l + ∑ t ∈ otherDepts D nzs d l, x t l)
        else m.data i l := by
  have hget : ∀ t < D, nzs[t]? = some (nzs.getD t []) := by
    intro t ht
    have ht' : t < nzs.length := by omega
    simp [ht']
  set R := (List.range D).eraseIdx d with hR
  have hRnd : R.Nodup := (List.nodup_range).eraseIdx d
  have hRmem : ∀ t, t ∈ R ↔ t < D ∧ t ≠ d := by
    intro t
    rw [hR, List.mem_eraseIdx_iff_getElem]
    constructor
    · rintro ⟨i, hi, hne, e⟩
      simp only [List.getElem_range] at e
      subst e
      simp only [List.length_range] at hi
      exact ⟨hi, hne⟩
    · rintro ⟨h, hne⟩
      exact ⟨t, by simpa using h, hne, by simp⟩
  have hval : ∀ l ∈ nzs.getD d [], ∀ t ∈ otherDepts D nzs d l, ∑ t ∈ otherDepts D nzs d l, x t l = x t l := by
    intro l hl t ht
    have : otherDepts D nzs d l = {t} := Finset.eq_singleton_iff_unique_mem.mpr ⟨ht, fun t' ht' => h2 l hl t' ht' t ht⟩
    rw [this, Finset.sum_singleton]
  obtain ⟨⟨m1, u1⟩, p1, p2, p3, p4, p5, p6, p7⟩ := loopList_inv_idx (l := R)
    (body := teamToKnapOther T nzs reward ext oric d) (s := (m, nzs.getD d []))
    (fun k s => s.1.rows = D ∧ s.1.cols = T ∧ s.2.Nodup ∧
      (∀ l, l ∈ s.2 ↔ l ∈ nzs.getD d [] ∧ ∀ t ∈ R.take k, l ∉ nzs.getD t []) ∧
      (∀ l, l ∈ nzs.getD d [] → l ∉ s.2 → s.1.data d l = fin (w l + o l + ∑ t ∈ otherDepts D nzs d l, x t l)) ∧
      ∀ i l, ¬ (i = d ∧ l ∈ nzs.getD d []) → s.1.data i l = m.data i l)
    ⟨hm, hmc, hnd d hd, by simp, fun l h1 h2 => absurd h1 h2, fun _ _ _ => rfl⟩
    (by
      rintro k hk ⟨m', u'⟩ ⟨a1, a2, a3, a4, a5, a6⟩
      simp only at a1 a2 a3 a4 a5 a6
      obtain ⟨ht, htd⟩ := (hRmem R[k]).mp (List.getElem_mem hk)
      set t := R[k] with htdef
      set I := (nzs.getD d []).filter (fun l => decide (l ∈ nzs.getD t [])) with hI
      have hImem : ∀ l, l ∈ I ↔ l ∈ nzs.getD d [] ∧ l ∈ nzs.getD t [] := by intro l; simp [hI]
      have hInd : I.Nodup := (hnd d hd).filter _
      have hIlt : ∀ l ∈ I, l < T := fun l hl => hlt d hd l ((hImem l).mp hl).1
      have hIu : ∀ l ∈ I, l ∈ u' := by
        intro l hl
        obtain ⟨hl1, hl2⟩ := (hImem l).mp hl
        rw [a4]
        refine ⟨hl1, fun t' ht' hl' => ?_⟩
        have ht'R : t' ∈ R := List.mem_of_mem_take ht'
        obtain ⟨b1, b2⟩ := (hRmem t').mp ht'R
        have : t' = t := h2 l hl1 t' (by simp only [otherDepts, Finset.mem_filter, Finset.mem_range]; exact ⟨b1, b2, hl'⟩) t
          (by simp only [otherDepts, Finset.mem_filter, Finset.mem_range]; exact ⟨ht, htd, hl2⟩)
        rw [this] at ht'
        exact nodup_not_mem_take hRnd hk ht'
      have hIlen : I.length ≤ T := by
        have : I.toFinset ⊆ Finset.range T := by
          intro l hl; rw [List.mem_toFinset] at hl; exact Finset.mem_range.mpr (hIlt l hl)
        have := Finset.card_le_card this
        rwa [List.toFinset_card_of_nodup hInd, Finset.card_range] at this
      obtain ⟨m'', u'', q1, q2, q3, q4, q5, q6⟩ := shared_is hw ho hx hd ht hInd hIlt a1 a2 a3 hIu
      refine ⟨(m'', u''), ?_, q2, q3, q4, ?_, ?_, ?_⟩
      · simp only [teamToKnapOther, hget d hd, hget t ht, Option.bind_eq_bind, Option.bind_some, setIntersection, ← hI,
          if_pos hIlen]
        exact q1
      · intro l
        simp only [q5, a4, take_succ_mem hk, ← htdef, hImem]
        constructor
        · rintro ⟨⟨b1, b2⟩, b3⟩
          refine ⟨b1, fun t' ht' => ?_⟩
          rcases ht' with h | h
          · exact b2 t' h
          · rw [h]; exact fun h => b3 ⟨b1, h⟩
        · rintro ⟨b1, b2⟩
          exact ⟨⟨b1, fun t' ht' => b2 t' (Or.inl ht')⟩, fun h => b2 t (Or.inr rfl) h.2⟩
      · intro l hl hlu
        show m''.data d l = _
        rw [q6]
        by_cases h : l ∈ I
        · rw [if_pos ⟨rfl, h⟩, hval l hl t (by
            simp only [otherDepts, Finset.mem_filter, Finset.mem_range]; exact ⟨ht, htd, ((hImem l).mp h).2⟩)]
          congr 1; ring
        · rw [if_neg (fun h' => h h'.2)]
          refine a5 l hl fun h' => hlu ?_
          rw [q5]; exact ⟨h', h⟩
      · intro i l hil
        simp only [q6]
        rw [if_neg (fun h => hil ⟨h.1, ((hImem l).mp h.2).1⟩)]
        exact a6 i l hil)
  simp only [List.take_length] at p2 p3 p4 p5 p6 p7
  obtain ⟨m2, r1, r2, r3, r4⟩ := loopList_inv_idx (l := u1) (body := teamToKnapUnique reward oric d) (s := m1)
    (fun k m' => m'.rows = D ∧ m'.cols = T ∧
      ∀ i l, m'.data i l = if i = d ∧ l ∈ u1.take k then fin (w l + o l) else m1.data i l)
    ⟨p2, p3, by simp⟩
    (by
      rintro k hk m' ⟨a1, a2, a3⟩
      have hl : u1[k] < T := hlt d hd _ ((p5 _).mp (List.getElem_mem hk)).1
      refine ⟨⟨m'.rows, m'.cols, fun i l => if i = d ∧ l = u1[k] then fin (w u1[k] + o u1[k]) else m'.data i l⟩, ?_, a1, a2, ?_⟩
      · simp only [teamToKnapUnique, hw.rd hl, ho.rd hl, Option.bind_eq_bind, Option.bind_some, fin_add]
        exact Mat.wr_of_lt (by omega) (by omega)
      · intro i l
        simp only [take_succ_mem hk, a3]
        by_cases h1 : i = d
        · by_cases h2 : l = u1[k]
          · simp [h1, h2]
          · simp [h1, h2]
        · simp [h1])
  simp only [List.take_length] at r4
  refine ⟨m2, ?_, r2, r3, ?_⟩
  · simp only [teamToKnapDept, hget d hd, if_pos hd, Option.bind_eq_bind, Option.bind_some, ← hR, p1]
    exact r1
  · intro i l
    rw [r4]
    by_cases hil : i = d ∧ l ∈ nzs.getD d []
    · rw [if_pos hil]
      obtain ⟨rfl, hl⟩ := hil
      by_cases hu : l ∈ u1
      · rw [if_pos ⟨rfl, hu⟩]
        have he : otherDepts D nzs i l = ∅ := by
          ext t
          simp only [otherDepts, Finset.mem_filter, Finset.mem_range, Finset.notMem_empty, iff_false]
          rintro ⟨b1, b2, b3⟩
          exact ((p5 l).mp hu).2 t ((hRmem t).mpr ⟨b1, b2⟩) b3
        rw [he, Finset.sum_empty, add_zero]
      · rw [if_neg (fun h => hu h.2)]
        exact p6 l hl hu
    · rw [if_neg hil, if_neg (fun h => hil ⟨h.1, ((p5 l).mp h.2).1⟩)]
      exact p7 i l hil

theorem teamToKnapsack_is (hw : reward.Is T w) (ho : oric.Is T o) (hx : ext.Is D T x) (hlen : nzs.length = D)
    (hnd : ∀ d < D, (nzs.getD d []).Nodup) (hlt : ∀ d < D, ∀ l ∈ nzs.getD d [], l < T)
    (h2 : ∀ d < D, ∀ l ∈ nzs.getD d [], ∀ t ∈ otherDepts D nzs d l, ∀ t' ∈ otherDepts D nzs d l, t = t')
    {m : Mat Num} (hm : m.rows = D) (hmc : m.cols = T) :
    ∃ m', teamToKnapsack D T nzs m reward ext oric = some m' ∧ m'.rows = D ∧ m'.cols = T ∧
      ∀ d l, m'.data d l = if d < D ∧ l ∈ nzs.getD d [] then fin (w l + o l + ∑ t ∈ otherDepts D nzs d l, x t l)
        else m.data d l := by
  obtain ⟨m', h1, h2', h3, h4⟩ := loopUp_inv (n := ext.rows) (body := teamToKnapDept D T nzs reward ext oric) (s := m)
    (fun k m' => m'.rows = D ∧ m'.cols = T ∧
      ∀ d l, m'.data d l = if d < k ∧ l ∈ nzs.getD d [] then fin (w l + o l + ∑ t ∈ otherDepts D nzs d l, x t l)
        else m.data d l)
    ⟨hm, hmc, by simp⟩
    (by
      rintro k hk m' ⟨a1, a2, a3⟩
      rw [hx.1] at hk
      obtain ⟨m'', q1, q2, q3, q4⟩ := teamToKnapDept_is hw ho hx hlen hnd hlt hk (h2 k hk) a1 a2
      refine ⟨m'', q1, q2, q3, fun d l => ?_⟩
      rw [q4, a3]
      by_cases hdk : d = k
      · subst hdk
        by_cases hl : l ∈ nzs.getD d []
        · rw [if_pos ⟨rfl, hl⟩, if_pos ⟨by omega, hl⟩]
        · rw [if_neg (fun h => hl h.2), if_neg (fun h => hl h.2), if_neg (fun h => hl h.2)]
      · rw [if_neg (fun h => hdk h.1)]
        by_cases hl : l ∈ nzs.getD d []
        · by_cases hd : d < k
          · rw [if_pos ⟨hd, hl⟩, if_pos ⟨by omega, hl⟩]
          · rw [if_neg (fun h => hd h.1), if_neg (fun h => hd (by omega))]
        · rw [if_neg (fun h => hl h.2), if_neg (fun h => hl h.2)])
  rw [hx.1] at h4
  exact ⟨m', h1, h2', h3, h4⟩

end
end Verif.Proofs
