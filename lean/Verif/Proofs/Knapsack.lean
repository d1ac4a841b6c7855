import Verif.Model.Knapsack
import Verif.Spec.Knapsack
import Verif.Proofs.Subsets
import Mathlib.Data.List.Nodup
import Mathlib.Data.Finset.Card
import Mathlib.Data.Finset.Dedup

/-! Invariants of the knapsack trellis. -/

namespace Verif.Proofs
open Verif Num Model Spec

/-! ### Filling stages -/

theorem fillUp_spec {lo hi : ℕ} {row : Arr Num} {st : Mat Num} (hh : lo ≤ hi → hi ≤ st.rows) (hs : row.size = st.cols) :
    ∃ st', fillUp lo hi row st = some st' ∧ st'.rows = st.rows ∧ st'.cols = st.cols ∧
      ∀ j a, st'.data j a = if lo ≤ j ∧ j < hi then row.data a else st.data j a := by
  obtain ⟨st', h1, h2, h3, h4⟩ := loopUp_inv (n := hi - lo) (body := fun i st => Mat.wrRow st (lo + i) row) (s := st)
    (fun i t => t.rows = st.rows ∧ t.cols = st.cols ∧
      ∀ j a, t.data j a = if lo ≤ j ∧ j < lo + i then row.data a else st.data j a)
    ⟨rfl, rfl, fun j a => by rw [if_neg (by omega)]⟩
    (by
      rintro i hi' t ⟨t1, t2, t3⟩
      refine ⟨_, Mat.wrRow_of_lt (by have := hh (by omega); omega) (by omega), t1, t2, ?_⟩
      intro j a
      by_cases e : j = lo + i
      · subst e; simp
      · simp only [e, if_false, t3]
        by_cases h : lo ≤ j ∧ j < lo + i
        · rw [if_pos h, if_pos (by omega)]
        · rw [if_neg h, if_neg (by omega)])
  refine ⟨st', h1, h2, h3, fun j a => ?_⟩
  rw [h4]
  by_cases h : lo ≤ j ∧ j < hi
  · rw [if_pos h, if_pos (by omega)]
  · rw [if_neg h, if_neg (by omega)]

theorem fillDown_spec {lo hi : ℕ} {row : Arr Num} {st : Mat Num} (hh : lo < hi → hi < st.rows) (hs : row.size = st.cols) :
    ∃ st', fillDown hi lo row st = some st' ∧ st'.rows = st.rows ∧ st'.cols = st.cols ∧
      ∀ j a, st'.data j a = if lo < j ∧ j ≤ hi then row.data a else st.data j a := by
  obtain ⟨st', h1, h2, h3, h4⟩ := loopDown_inv (n := hi - lo) (body := fun i st => Mat.wrRow st (lo + 1 + i) row) (s := st)
    (fun i t => t.rows = st.rows ∧ t.cols = st.cols ∧
      ∀ j a, t.data j a = if lo + 1 + i ≤ j ∧ j ≤ hi then row.data a else st.data j a)
    ⟨rfl, rfl, fun j a => by rw [if_neg (by omega)]⟩
    (by
      rintro i hi' t ⟨t1, t2, t3⟩
      refine ⟨_, Mat.wrRow_of_lt (by have := hh (by omega); omega) (by omega), t1, t2, ?_⟩
      intro j a
      by_cases e : j = lo + 1 + i
      · subst e; simp only [if_true]; rw [if_pos (by omega)]
      · simp only [e, if_false, t3]
        by_cases h : lo + 1 + (i + 1) ≤ j ∧ j ≤ hi
        · rw [if_pos h, if_pos (by omega)]
        · rw [if_neg h, if_neg (by omega)])
  refine ⟨st', h1, h2, h3, fun j a => ?_⟩
  rw [h4]
  by_cases h : lo < j ∧ j ≤ hi
  · rw [if_pos h, if_pos (by omega)]
  · rw [if_neg h, if_neg (by omega)]

/-! ### The sets of costs -/

theorem mem_users {wf : ℕ → ℕ} {lo hi t : ℕ} : t ∈ users wf lo hi ↔ lo ≤ t ∧ t < hi ∧ wf t ≠ 0 := by
  simp only [users, Finset.mem_filter, Finset.mem_range]; tauto

theorem users_succ {wf : ℕ → ℕ} {t : ℕ} (h : wf t ≠ 0) : users wf 0 (t + 1) = insert t (users wf 0 t) := by
  ext s; rw [Finset.mem_insert, mem_users, mem_users]
  constructor
  · rintro ⟨h1, h2, h3⟩
    by_cases e : s = t
    · exact Or.inl e
    · exact Or.inr ⟨h1, by omega, h3⟩
  · rintro (rfl | ⟨h1, h2, h3⟩)
    · exact ⟨by omega, by omega, h⟩
    · exact ⟨h1, by omega, h3⟩

theorem users_left {wf : ℕ → ℕ} {t T : ℕ} (hT : t < T) (h : wf t ≠ 0) : users wf t T = insert t (users wf (t + 1) T) := by
  ext s; rw [Finset.mem_insert, mem_users, mem_users]
  constructor
  · rintro ⟨h1, h2, h3⟩
    by_cases e : s = t
    · exact Or.inl e
    · exact Or.inr ⟨by omega, h2, h3⟩
  · rintro (rfl | ⟨h1, h2, h3⟩)
    · exact ⟨le_refl _, hT, h⟩
    · exact ⟨by omega, h2, h3⟩

theorem users_gap_hi {wf : ℕ → ℕ} {lo i j : ℕ} (hij : i ≤ j) (h : ∀ t, i ≤ t → t < j → wf t = 0) :
    users wf lo j = users wf lo i := by
  ext s; rw [mem_users, mem_users]
  constructor
  · rintro ⟨h1, h2, h3⟩
    refine ⟨h1, ?_, h3⟩
    by_contra hc; exact h3 (h s (by omega) h2)
  · rintro ⟨h1, h2, h3⟩; exact ⟨h1, by omega, h3⟩

theorem users_gap_lo {wf : ℕ → ℕ} {hi i j : ℕ} (hij : i ≤ j) (h : ∀ t, i ≤ t → t < j → wf t = 0) :
    users wf i hi = users wf j hi := by
  ext s; rw [mem_users, mem_users]
  constructor
  · rintro ⟨h1, h2, h3⟩
    refine ⟨?_, h2, h3⟩
    by_contra hc; exact h3 (h s h1 (by omega))
  · rintro ⟨h1, h2, h3⟩; exact ⟨by omega, h2, h3⟩

/-- Costs of the sets of teams `< j` of total weight `a`. -/
def Fset (wf : ℕ → ℕ) (mf : ℕ → ℚ) (j a : ℕ) : Set ℚ := sums (users wf 0 j) (fun S => S.sum wf = a) mf
/-- Costs of the sets of teams `≥ j` that still fit when weight `a` is used. -/
def Bset (wf : ℕ → ℕ) (mf : ℕ → ℚ) (T cap j a : ℕ) : Set ℚ := sums (users wf j T) (fun S => a + S.sum wf ≤ cap) mf

section sets
variable {wf : ℕ → ℕ} {mf : ℕ → ℚ} {T cap : ℕ}

theorem users_notMem_hi (t : ℕ) : t ∉ users wf 0 t := by rw [mem_users]; omega
theorem users_notMem_lo (t T : ℕ) : t ∉ users wf (t + 1) T := by rw [mem_users]; omega

theorem users_zero : users wf 0 0 = ∅ := by ext s; rw [mem_users]; simp
theorem users_top : users wf T T = ∅ := by ext s; rw [mem_users]; simp; omega

theorem Fset_zero (a : ℕ) : Fset wf mf 0 a = if a = 0 then {0} else ∅ := by
  unfold Fset; rw [users_zero]
  by_cases h : a = 0
  · rw [if_pos h, sums_empty_true _ (by simp [h])]
  · rw [if_neg h, sums_empty_false _ (by simpa [eq_comm] using h)]

theorem Bset_top {a : ℕ} (ha : a ≤ cap) : Bset wf mf T cap T a = {0} := by
  unfold Bset; rw [users_top, sums_empty_true _ (by simpa using ha)]

theorem Fset_gap {i j : ℕ} (hij : i ≤ j) (h : ∀ t, i ≤ t → t < j → wf t = 0) (a : ℕ) : Fset wf mf j a = Fset wf mf i a := by
  unfold Fset; rw [users_gap_hi hij h]

theorem Bset_gap {i j : ℕ} (hij : i ≤ j) (h : ∀ t, i ≤ t → t < j → wf t = 0) (a : ℕ) :
    Bset wf mf T cap i a = Bset wf mf T cap j a := by
  unfold Bset; rw [users_gap_lo hij h]

theorem Fset_succ {t : ℕ} (h : wf t ≠ 0) (a : ℕ) :
    Fset wf mf (t + 1) a = Fset wf mf t a ∪ (if wf t ≤ a then addSet (Fset wf mf t (a - wf t)) {mf t} else ∅) := by
  unfold Fset
  rw [users_succ h, sums_insert (users_notMem_hi t)]
  congr 1
  have hs : ∀ S ⊆ users wf 0 t, (insert t S).sum wf = wf t + S.sum wf := fun S hS =>
    Finset.sum_insert (fun h => users_notMem_hi t (hS h))
  by_cases ha : wf t ≤ a
  · rw [if_pos ha]
    congr 1
    refine sums_congr fun S hS => ?_
    rw [hs S hS]; omega
  · rw [if_neg ha, sums_false]
    · ext q; simp [addSet]
    · intro S hS; rw [hs S hS]; omega

theorem Bset_step {t : ℕ} (hT : t < T) (h : wf t ≠ 0) (a : ℕ) :
    Bset wf mf T cap t a = Bset wf mf T cap (t + 1) a ∪
      (if a + wf t ≤ cap then addSet (Bset wf mf T cap (t + 1) (a + wf t)) {mf t} else ∅) := by
  unfold Bset
  rw [users_left hT h, sums_insert (users_notMem_lo t T)]
  congr 1
  have hs : ∀ S ⊆ users wf (t + 1) T, (insert t S).sum wf = wf t + S.sum wf := fun S hS =>
    Finset.sum_insert (fun h => users_notMem_lo t T (hS h))
  by_cases ha : a + wf t ≤ cap
  · rw [if_pos ha]
    congr 1
    refine sums_congr fun S hS => ?_
    rw [hs S hS]; omega
  · rw [if_neg ha, sums_false]
    · ext q; simp [addSet]
    · intro S hS; rw [hs S hS]; omega

end sets

/-! ### Sorted index lists -/

section lists
variable {T cap sz : ℕ} {nz : List ℕ} {w : Arr ℕ} {wf : ℕ → ℕ}

/-- Position up to which forward stages are final after `l` teams. -/
def hiPos (T : ℕ) (nz : List ℕ) (l : ℕ) : ℕ := nz.getD l T

theorem hiPos_lt {l : ℕ} (h : l < nz.length) : hiPos T nz l = nz[l] := by simp [hiPos, h]
theorem hiPos_ge {l : ℕ} (h : nz.length ≤ l) : hiPos T nz l = T := by simp [hiPos, h]

theorem _root_.Verif.Spec.DeptOk.get_lt (ok : DeptOk T cap nz sz w wf) {i j : ℕ} (hij : i < j) (hj : j < nz.length) :
    nz[i] < nz[j] := (List.pairwise_iff_getElem.mp ok.sorted) i j (by omega) hj hij

theorem _root_.Verif.Spec.DeptOk.get_T (ok : DeptOk T cap nz sz w wf) {i : ℕ} (hi : i < nz.length) : nz[i] < T :=
  ((ok.mem _).mp (List.getElem_mem hi)).1
theorem _root_.Verif.Spec.DeptOk.get_ne (ok : DeptOk T cap nz sz w wf) {i : ℕ} (hi : i < nz.length) : wf nz[i] ≠ 0 :=
  ((ok.mem _).mp (List.getElem_mem hi)).2
theorem _root_.Verif.Spec.DeptOk.len_pos (ok : DeptOk T cap nz sz w wf) : 0 < nz.length :=
  List.length_pos_of_ne_nil ok.nonempty

theorem _root_.Verif.Spec.DeptOk.nodup (ok : DeptOk T cap nz sz w wf) : nz.Nodup :=
  ok.sorted.imp (fun h => Nat.ne_of_lt h)

/-- Between consecutive listed teams all weights are zero. -/
theorem _root_.Verif.Spec.DeptOk.gap (ok : DeptOk T cap nz sz w wf) {l : ℕ} (hl : l < nz.length) {t : ℕ}
    (h1 : nz[l] < t) (h2 : t < hiPos T nz (l + 1)) : wf t = 0 := by
  by_contra hne
  have hT : t < T := by
    by_cases h : l + 1 < nz.length
    · rw [hiPos_lt h] at h2; have := ok.get_T h; omega
    · rw [hiPos_ge (by omega)] at h2; exact h2
  obtain ⟨j, hj, e⟩ := List.mem_iff_getElem.mp ((ok.mem t).mpr ⟨hT, hne⟩)
  have hlj : l < j := by
    by_contra hc
    rcases Nat.lt_or_eq_of_le (Nat.not_lt.mp hc) with h | h
    · have := ok.get_lt h hl; omega
    · subst h; omega
  rw [hiPos_lt (show l + 1 < nz.length by omega)] at h2
  rcases Nat.lt_or_eq_of_le (Nat.succ_le_of_lt hlj) with h | h
  · have := ok.get_lt h hj; simp only [Nat.succ_eq_add_one] at this; omega
  · simp only [Nat.succ_eq_add_one] at h; subst h; omega

/-- Before the first listed team all weights are zero. -/
theorem _root_.Verif.Spec.DeptOk.gap0 (ok : DeptOk T cap nz sz w wf) {t : ℕ} (h : t < nz[0]'ok.len_pos) : wf t = 0 := by
  by_contra hne
  have hT : t < T := by have := ok.get_T ok.len_pos; omega
  obtain ⟨j, hj, e⟩ := List.mem_iff_getElem.mp ((ok.mem t).mpr ⟨hT, hne⟩)
  rcases Nat.eq_zero_or_pos j with h0 | h0
  · subst h0; omega
  · have := ok.get_lt h0 hj; omega

theorem _root_.Verif.Spec.DeptOk.all (ok : DeptOk T cap nz sz w wf) (h : nz.length = T) {t : ℕ} (ht : t < T) : t ∈ nz := by
  have h1 : nz.toFinset ⊆ Finset.range T := by
    intro s hs; rw [List.mem_toFinset] at hs; simpa using ((ok.mem s).mp hs).1
  have h2 : nz.toFinset.card = T := by rw [List.toFinset_card_of_nodup ok.nodup, h]
  have h3 := Finset.eq_of_subset_of_card_le h1 (by rw [h2, Finset.card_range])
  rw [← List.mem_toFinset, h3]; simpa using ht

theorem _root_.Verif.Spec.DeptOk.next_mem (ok : DeptOk T cap nz sz w wf) {l : ℕ} (hl : l < nz.length)
    (h : nz[l] + 1 ∈ nz) : hiPos T nz (l + 1) = nz[l] + 1 := by
  obtain ⟨j, hj, e⟩ := List.mem_iff_getElem.mp h
  have hlj : l < j := by
    by_contra hc
    rcases Nat.lt_or_eq_of_le (Nat.not_lt.mp hc) with h | h
    · have := ok.get_lt h hl; omega
    · subst h; omega
  have h1 : l + 1 < nz.length := by omega
  rw [hiPos_lt h1]
  have h2 := ok.get_lt (show l < l + 1 by omega) h1
  rcases Nat.lt_or_eq_of_le (Nat.succ_le_of_lt hlj) with h | h
  · have := ok.get_lt h hj; simp only [Nat.succ_eq_add_one] at this; omega
  · simp only [Nat.succ_eq_add_one] at h; subst h; exact e

theorem upperBound_get {l : ℕ} {t : ℕ} (hl : l < nz.length) (h1 : t < nz[l])
    (h2 : ∀ j, ∀ h : j < l, nz[j] ≤ t) : upperBound nz t = l := by
  unfold upperBound
  rw [List.findIdx_eq hl]
  refine ⟨by simpa using h1, fun j hj => ?_⟩
  have := h2 j hj
  simp; omega

end lists

/-! ### Forward pass -/

section fwd
variable {T cap sz : ℕ} {nz : List ℕ} {w : Arr ℕ} {wf : ℕ → ℕ} {m : Arr Num} {mf : ℕ → ℚ}

/-- The new value of a cell of forward stage `t + 1`. -/
def fwdVal (wf : ℕ → ℕ) (mf : ℕ → ℚ) (t : ℕ) (init : Arr Num) (a : ℕ) : Num :=
  if wf t ≤ a ∧ ¬ (t = 0 ∧ a ≠ wf t) then cmin (init.data a) (init.data (a - wf t) + fin (mf t)) else init.data a

theorem fwdCells (ok : DeptOk T cap nz sz w wf) (hm : m.Is T mf) {t : ℕ} (ht : t < T) {init : Arr Num}
    (hi : init.size = cap + 1) {st : Mat Num} (hr : st.rows = T + 1) (hc : st.cols = cap + 1) :
    ∃ st', loopUp (cap + 1) (knapFwdCell w m t init) st = some st' ∧ st'.rows = T + 1 ∧ st'.cols = cap + 1 ∧
      ∀ j a, st'.data j a = if j = t + 1 ∧ a < cap + 1 then fwdVal wf mf t init a else st.data j a := by
  obtain ⟨st', h1, h2, h3, h4⟩ := loopUp_inv (n := cap + 1) (body := knapFwdCell w m t init) (s := st)
    (fun i s => s.rows = T + 1 ∧ s.cols = cap + 1 ∧
      ∀ j a, s.data j a = if j = t + 1 ∧ a < i then fwdVal wf mf t init a else st.data j a)
    ⟨hr, hc, fun j a => by rw [if_neg (by omega)]⟩
    (by
      rintro i hi' s ⟨s1, s2, s3⟩
      refine ⟨⟨s.rows, s.cols, fun j a => if j = t + 1 ∧ a = i then fwdVal wf mf t init i else s.data j a⟩, ?_, s1, s2, ?_⟩
      · by_cases h : wf t ≤ i ∧ ¬ (t = 0 ∧ i ≠ wf t)
        · have e : fwdVal wf mf t init i = cmin (init.data i) (init.data (i - wf t) + fin (mf t)) := if_pos h
          simp only [knapFwdCell, Arr.rd_of_lt (show t < w.size by rw [ok.w_size]; exact ht), ok.w_data t ht,
            Option.bind_eq_bind, Option.bind_some, if_pos h, Arr.rd_of_lt (show i < init.size by omega),
            Arr.rd_of_lt (show i - wf t < init.size by omega), hm.rd ht,
            Mat.wr_of_lt (show t + 1 < s.rows by omega) (show i < s.cols by omega), e]
        · have e : fwdVal wf mf t init i = init.data i := if_neg h
          simp only [knapFwdCell, Arr.rd_of_lt (show t < w.size by rw [ok.w_size]; exact ht), ok.w_data t ht,
            Option.bind_eq_bind, Option.bind_some, if_neg h, Arr.rd_of_lt (show i < init.size by omega),
            Mat.wr_of_lt (show t + 1 < s.rows by omega) (show i < s.cols by omega), e]
      · intro j a
        by_cases e : j = t + 1 ∧ a = i
        · rw [if_pos (show j = t + 1 ∧ a < i + 1 by omega), e.2]; exact if_pos ⟨e.1, rfl⟩
        · simp only [e, if_false, s3]
          by_cases h : j = t + 1 ∧ a < i
          · rw [if_pos h, if_pos (by omega)]
          · rw [if_neg h, if_neg (by omega)])
  exact ⟨st', h1, h2, h3, h4⟩

theorem fwdVal_isMin {t : ℕ} (hne : wf t ≠ 0) {init : Arr Num}
    (hi : ∀ a ≤ cap, IsMin (Fset wf mf t a) (init.data a)) {a : ℕ} (ha : a ≤ cap) :
    IsMin (Fset wf mf (t + 1) a) (fwdVal wf mf t init a) := by
  rw [Fset_succ hne]
  unfold fwdVal
  by_cases h : wf t ≤ a ∧ ¬ (t = 0 ∧ a ≠ wf t)
  · rw [if_pos h, if_pos h.1]
    exact (hi a ha).union (isMin_add_fin (hi _ (by omega)) _)
  · rw [if_neg h]
    by_cases h1 : wf t ≤ a
    · rw [if_pos h1]
      have h2 : t = 0 ∧ a ≠ wf t := by by_contra hc; exact h ⟨h1, hc⟩
      obtain ⟨rfl, h3⟩ := h2
      rw [Fset_zero (a - wf 0), if_neg (show ¬ (a - wf 0 = 0) by omega)]
      have : addSet (∅ : Set ℚ) {mf 0} = ∅ := by ext q; simp [addSet]
      rw [this, Set.union_empty]
      exact hi a ha
    · rw [if_neg h1, Set.union_empty]
      exact hi a ha

theorem fwdGap (ok : DeptOk T cap nz sz w wf) {l : ℕ} (hl : l < nz.length) {init : Arr Num} (hi : init.size = cap + 1)
    {st : Mat Num} (hr : st.rows = T + 1) (hc : st.cols = cap + 1) :
    ∃ st', knapFwdGap T nz nz[l] init st = some st' ∧ st'.rows = T + 1 ∧ st'.cols = cap + 1 ∧
      ∀ j a, st'.data j a = if nz[l] + 1 < j ∧ j ≤ hiPos T nz (l + 1) then init.data a else st.data j a := by
  have hT := ok.get_T hl
  by_cases hmem : nz[l] + 1 ∈ nz
  · refine ⟨st, ?_, hr, hc, ?_⟩
    · simp [knapFwdGap, hmem]
    · intro j a
      rw [ok.next_mem hl hmem, if_neg (by omega)]
  · by_cases hlast : l + 1 < nz.length
    · -- a later listed team exists
      have hb := ok.get_lt (show l < l + 1 by omega) hlast
      have hne : nz[l + 1] ≠ nz[l] + 1 := fun e => hmem (e ▸ List.getElem_mem hlast)
      have hback : nz.getLast? = some (nz[nz.length - 1]) := by
        rw [List.getLast?_eq_getElem?, List.getElem?_eq_getElem (by omega)]
      have hlb : nz[l + 1] ≤ nz[nz.length - 1] := by
        rcases Nat.lt_or_eq_of_le (show l + 1 ≤ nz.length - 1 by omega) with h | h
        · exact (ok.get_lt h (by omega)).le
        · simp only [h]; exact le_refl _
      have hlen : nz.length ≠ T := fun e => hmem (ok.all e (by have := ok.get_T hlast; omega))
      have hub : upperBound nz nz[l] = l + 1 := upperBound_get hlast hb (fun j hj => by
        rcases Nat.lt_or_eq_of_le (show j ≤ l by omega) with h | h
        · exact (ok.get_lt h hl).le
        · subst h; exact le_refl _)
      obtain ⟨st', h1, h2, h3, h4⟩ := fillUp_spec (lo := nz[l] + 2) (hi := nz[l + 1] + 1) (row := init) (st := st)
        (fun _ => by have := ok.get_T hlast; omega) (by omega)
      refine ⟨st', ?_, by omega, by omega, ?_⟩
      · simp only [knapFwdGap, if_pos hlen, if_pos hmem, hback, Option.bind_eq_bind, Option.bind_some]
        rw [if_neg (by omega), if_pos (by omega), hub, List.getElem?_eq_getElem hlast]
        exact h1
      · intro j a
        rw [h4, hiPos_lt hlast]
        by_cases h : nz[l] + 2 ≤ j ∧ j < nz[l + 1] + 1
        · rw [if_pos h, if_pos (by omega)]
        · rw [if_neg h, if_neg (by omega)]
    · -- the last listed team
      have hll : l = nz.length - 1 := by omega
      have hback : nz.getLast? = some nz[l] := by
        rw [List.getLast?_eq_getElem?, ← hll, List.getElem?_eq_getElem hl]
      rw [hiPos_ge (by omega)]
      by_cases hend : nz[l] + 1 < T
      · have hlen : nz.length ≠ T := fun e => hmem (ok.all e hend)
        obtain ⟨st', h1, h2, h3, h4⟩ := fillUp_spec (lo := nz[l] + 2) (hi := T + 1) (row := init) (st := st)
          (fun _ => by omega) (by omega)
        refine ⟨st', ?_, by omega, by omega, ?_⟩
        · simp only [knapFwdGap, if_pos hlen, if_pos hmem, hback, Option.bind_eq_bind, Option.bind_some]
          rw [if_pos (by omega)]
          exact h1
        · intro j a
          rw [h4]
          by_cases h : nz[l] + 2 ≤ j ∧ j < T + 1
          · rw [if_pos h, if_pos (by omega)]
          · rw [if_neg h, if_neg (by omega)]
      · refine ⟨st, ?_, hr, hc, ?_⟩
        · by_cases hlen : nz.length ≠ T
          · simp only [knapFwdGap, if_pos hlen, if_pos hmem, hback, Option.bind_eq_bind, Option.bind_some]
            rw [if_neg (by omega), if_neg (by omega)]
          · simp only [knapFwdGap, if_neg hlen]
        · intro j a
          rw [if_neg (by omega)]

/-- Every forward cell is the cheapest cost of the earlier teams with exactly that weight. -/
theorem knapForward_spec (ok : DeptOk T cap nz sz w wf) (hm : m.Is T mf) {st : Mat Num} (hr : st.rows = T + 1)
    (hc : st.cols = cap + 1) :
    ∃ F, knapForward T cap nz sz w m st = some F ∧ F.rows = T + 1 ∧ F.cols = cap + 1 ∧
      ∀ j ≤ T, ∀ a ≤ cap, IsMin (Fset wf mf j a) (F.data j a) := by
  have hpos := ok.len_pos
  have hT0 := ok.get_T hpos
  have hinit : ∀ a ≤ cap, IsMin (Fset wf mf 0 a) ((knapInitF cap).data a) := by
    intro a ha
    rw [Fset_zero]
    by_cases h : a = 0
    · rw [if_pos h, h]; exact isMin_singleton 0
    · rw [if_neg h]
      simp only [knapInitF, h, if_false]; exact isMin_empty
  -- the first stages
  obtain ⟨st1, p1, p2, p3, p4⟩ : ∃ st1, (if nz[0] ≠ 0 then fillUp 1 (nz[0] + 1) (knapInitF cap)
      (⟨st.rows, st.cols, fun k l => if k = 0 then (knapInitF cap).data l else st.data k l⟩ : Mat Num) else
      some (⟨st.rows, st.cols, fun k l => if k = 0 then (knapInitF cap).data l else st.data k l⟩ : Mat Num)) = some st1 ∧
      st1.rows = T + 1 ∧ st1.cols = cap + 1 ∧ ∀ j ≤ nz[0], ∀ a, st1.data j a = (knapInitF cap).data a := by
    by_cases h : nz[0] ≠ 0
    · obtain ⟨st', h1, h2, h3, h4⟩ := fillUp_spec (lo := 1) (hi := nz[0] + 1) (row := knapInitF cap)
        (st := ⟨st.rows, st.cols, fun k l => if k = 0 then (knapInitF cap).data l else st.data k l⟩)
        (fun _ => by change _ ≤ st.rows; omega) (by simp [knapInitF, hc])
      refine ⟨st', by rw [if_pos h]; exact h1, by rw [h2]; exact hr, by rw [h3]; exact hc, ?_⟩
      intro j hj a
      rw [h4]
      by_cases e : 1 ≤ j ∧ j < nz[0] + 1
      · rw [if_pos e]
      · rw [if_neg e]
        obtain rfl : j = 0 := by omega
        simp
    · refine ⟨⟨st.rows, st.cols, fun k l => if k = 0 then (knapInitF cap).data l else st.data k l⟩,
        by rw [if_neg h], hr, hc, ?_⟩
      intro j hj a
      obtain rfl : j = 0 := by omega
      simp
  obtain ⟨⟨F, init⟩, h1, h2, h3, h4, h5, h6⟩ := loopUp_inv (n := nz.length) (body := knapFwdBody T cap nz w m)
    (s := (st1, knapInitF cap))
    (fun l s => s.1.rows = T + 1 ∧ s.1.cols = cap + 1 ∧ s.2.size = cap + 1 ∧
      (∀ j ≤ hiPos T nz l, ∀ a ≤ cap, IsMin (Fset wf mf j a) (s.1.data j a)) ∧
      ∀ a ≤ cap, IsMin (Fset wf mf (hiPos T nz l) a) (s.2.data a))
    (by
      refine ⟨p2, p3, rfl, ?_, ?_⟩
      · intro j hj a ha
        rw [hiPos_lt hpos] at hj
        rw [p4 j hj, Fset_gap (i := 0) (by omega) (fun t _ ht => ok.gap0 (by omega))]
        exact hinit a ha
      · intro a ha
        rw [hiPos_lt hpos, Fset_gap (i := 0) (by omega) (fun t _ ht => ok.gap0 ht)]
        exact hinit a ha)
    (by
      rintro l hl ⟨s, init⟩ ⟨s1, s2, s3, s4, s5⟩
      simp only at s1 s2 s3 s4 s5
      rw [hiPos_lt hl] at s4 s5
      have hlT := ok.get_T hl
      obtain ⟨s', c1, c2, c3, c4⟩ := fwdCells ok hm hlT s3 s1 s2
      obtain ⟨s'', g1, g2, g3, g4⟩ := fwdGap ok hl (init := ⟨s'.cols, s'.data (nz[l] + 1)⟩) c3 c2 c3
      have hrow : ∀ a ≤ cap, IsMin (Fset wf mf (nz[l] + 1) a) (s'.data (nz[l] + 1) a) := by
        intro a ha
        rw [c4, if_pos (by omega)]
        exact fwdVal_isMin (ok.get_ne hl) s5 ha
      have hle : nz[l] + 1 ≤ hiPos T nz (l + 1) := by
        by_cases h : l + 1 < nz.length
        · rw [hiPos_lt h]; exact ok.get_lt (by omega) h
        · rw [hiPos_ge (by omega)]; omega
      have hgap : ∀ j, nz[l] + 1 ≤ j → j ≤ hiPos T nz (l + 1) → ∀ a, Fset wf mf j a = Fset wf mf (nz[l] + 1) a := by
        intro j h1 h2 a
        exact Fset_gap h1 (fun t ht ht' => ok.gap hl (by omega) (by omega)) a
      refine ⟨(s'', ⟨s'.cols, s'.data (nz[l] + 1)⟩), ?_, g2, g3, c3, ?_, ?_⟩
      · simp only [knapFwdBody, List.getElem?_eq_getElem hl, Option.bind_eq_bind, Option.bind_some, c1,
          Mat.rdRow_of_lt (show nz[l] + 1 < s'.rows by omega), g1]
      · intro j hj a ha
        simp only
        rw [g4]
        by_cases e : nz[l] + 1 < j
        · rw [if_pos ⟨e, hj⟩, hgap j (by omega) hj]
          exact hrow a ha
        · rw [if_neg (by omega)]
          by_cases e' : j = nz[l] + 1
          · subst e'; exact hrow a ha
          · rw [c4, if_neg (by omega)]
            exact s4 j (by omega) a ha
      · intro a ha
        rw [hgap _ hle (le_refl _)]
        exact hrow a ha)
  refine ⟨F, ?_, h2, h3, ?_⟩
  · simp only [knapForward, Mat.wrRow_of_lt (show 0 < st.rows by omega) (show (knapInitF cap).size = st.cols by simp [knapInitF, hc]),
      Option.bind_eq_bind, Option.bind_some, List.getElem?_eq_getElem hpos, ok.size]
    by_cases h : nz[0] ≠ 0
    · rw [if_pos h] at p1 ⊢
      rw [p1, Option.bind_some, h1, Option.bind_some]
    · rw [if_neg h] at p1 ⊢
      rw [Option.some.inj p1, h1, Option.bind_some]
  · rw [hiPos_ge (le_refl _)] at h5
    exact h5

end fwd

/-! ### Backward pass -/

section bwd
variable {T cap sz : ℕ} {nz : List ℕ} {w : Arr ℕ} {wf : ℕ → ℕ} {m : Arr Num} {mf : ℕ → ℚ}

/-- The new value of a cell of backward stage `t`. -/
def bwdVal (cap : ℕ) (wf : ℕ → ℕ) (mf : ℕ → ℚ) (t : ℕ) (init : Arr Num) (a : ℕ) : Num :=
  if (t > 0 ∧ a + wf t ≤ cap) ∨ (a = 0 ∧ t = 0) then cmin (init.data a) (init.data (a + wf t) + fin (mf t))
  else init.data a

theorem bwdCells (ok : DeptOk T cap nz sz w wf) (hm : m.Is T mf) {t : ℕ} (ht : t < T) (hfit : wf t ≤ cap)
    {init : Arr Num} (hi : init.size = cap + 1) {st : Mat Num} (hr : st.rows = T + 1) (hc : st.cols = cap + 1) :
    ∃ st', loopUp (cap + 1) (knapBwdCell cap w m t init) st = some st' ∧ st'.rows = T + 1 ∧ st'.cols = cap + 1 ∧
      ∀ j a, st'.data j a = if j = t ∧ a < cap + 1 then bwdVal cap wf mf t init a else st.data j a := by
  obtain ⟨st', h1, h2, h3, h4⟩ := loopUp_inv (n := cap + 1) (body := knapBwdCell cap w m t init) (s := st)
    (fun i s => s.rows = T + 1 ∧ s.cols = cap + 1 ∧
      ∀ j a, s.data j a = if j = t ∧ a < i then bwdVal cap wf mf t init a else st.data j a)
    ⟨hr, hc, fun j a => by rw [if_neg (by omega)]⟩
    (by
      rintro i hi' s ⟨s1, s2, s3⟩
      refine ⟨⟨s.rows, s.cols, fun j a => if j = t ∧ a = i then bwdVal cap wf mf t init i else s.data j a⟩, ?_, s1, s2, ?_⟩
      · by_cases h : (t > 0 ∧ i + wf t ≤ cap) ∨ (i = 0 ∧ t = 0)
        · have e : bwdVal cap wf mf t init i = cmin (init.data i) (init.data (i + wf t) + fin (mf t)) := if_pos h
          simp only [knapBwdCell, Arr.rd_of_lt (show t < w.size by rw [ok.w_size]; exact ht), ok.w_data t ht,
            Option.bind_eq_bind, Option.bind_some, if_pos h, Arr.rd_of_lt (show i < init.size by omega),
            Arr.rd_of_lt (show i + wf t < init.size by omega), hm.rd ht,
            Mat.wr_of_lt (show t < s.rows by omega) (show i < s.cols by omega), e]
        · have e : bwdVal cap wf mf t init i = init.data i := if_neg h
          simp only [knapBwdCell, Arr.rd_of_lt (show t < w.size by rw [ok.w_size]; exact ht), ok.w_data t ht,
            Option.bind_eq_bind, Option.bind_some, if_neg h, Arr.rd_of_lt (show i < init.size by omega),
            Mat.wr_of_lt (show t < s.rows by omega) (show i < s.cols by omega), e]
      · intro j a
        by_cases e : j = t ∧ a = i
        · rw [if_pos (show j = t ∧ a < i + 1 by omega), e.2]; exact if_pos ⟨e.1, rfl⟩
        · simp only [e, if_false, s3]
          by_cases h : j = t ∧ a < i
          · rw [if_pos h, if_pos (by omega)]
          · rw [if_neg h, if_neg (by omega)])
  exact ⟨st', h1, h2, h3, h4⟩

theorem bwdVal_isMin {t : ℕ} (hpos : 0 < t) (hT : t < T) (hne : wf t ≠ 0) {init : Arr Num}
    (hi : ∀ a ≤ cap, IsMin (Bset wf mf T cap (t + 1) a) (init.data a)) {a : ℕ} (ha : a ≤ cap) :
    IsMin (Bset wf mf T cap t a) (bwdVal cap wf mf t init a) := by
  rw [Bset_step hT hne]
  unfold bwdVal
  by_cases h : a + wf t ≤ cap
  · rw [if_pos (Or.inl ⟨hpos, h⟩), if_pos h]
    exact (hi a ha).union (isMin_add_fin (hi _ h) _)
  · rw [if_neg h, Set.union_empty, if_neg (by omega)]
    exact hi a ha

/-- Position down to which backward stages are final when the teams `≥ l` of the list are done. -/
def loPos (nz : List ℕ) : ℕ → ℕ
  | 0 => 0
  | l + 1 => nz.getD l 0 + 1

theorem loPos_succ {l : ℕ} (h : l < nz.length) : loPos nz (l + 1) = nz[l] + 1 := by simp [loPos, h]

theorem loPos_le (ok : DeptOk T cap nz sz w wf) {l : ℕ} (hl : l < nz.length) : loPos nz l ≤ nz[l] := by
  cases l with
  | zero => simp [loPos]
  | succ l => rw [loPos_succ (by omega)]; exact ok.get_lt (by omega) hl

theorem bgap (ok : DeptOk T cap nz sz w wf) {l : ℕ} (hl : l < nz.length) {t : ℕ} (h1 : loPos nz l ≤ t) (h2 : t < nz[l]) :
    wf t = 0 := by
  cases l with
  | zero => exact ok.gap0 h2
  | succ l =>
    rw [loPos_succ (by omega)] at h1
    exact ok.gap (l := l) (by omega) (by omega) (by rw [hiPos_lt hl]; exact h2)

theorem bwdGap (ok : DeptOk T cap nz sz w wf) {l : ℕ} (hl : l < nz.length) {init : Arr Num} (hi : init.size = cap + 1)
    {st : Mat Num} (hr : st.rows = T + 1) (hc : st.cols = cap + 1) :
    ∃ st', knapBwdGap T sz nz nz[l] init st = some st' ∧ st'.rows = T + 1 ∧ st'.cols = cap + 1 ∧
      ∀ j a, st'.data j a = if loPos nz l ≤ j ∧ j < nz[l] then init.data a else st.data j a := by
  have hT := ok.get_T hl
  have hpos := ok.len_pos
  have hlen : nz.length ≤ T := by
    have h1 : nz.toFinset ⊆ Finset.range T := by
      intro s hs; rw [List.mem_toFinset] at hs; simpa using ((ok.mem s).mp hs).1
    have h2 := Finset.card_le_card h1
    rwa [List.toFinset_card_of_nodup ok.nodup, Finset.card_range] at h2
  have hsz : (sz : ℤ) - 1 ≠ T := by rw [ok.size]; omega
  by_cases h0 : nz[l] = 0
  · refine ⟨st, ?_, hr, hc, ?_⟩
    · simp only [knapBwdGap, if_pos hsz, if_pos h0]
    · intro j a; rw [if_neg (by omega)]
  by_cases hmem : nz[l] - 1 ∈ nz
  · refine ⟨st, ?_, hr, hc, ?_⟩
    · simp only [knapBwdGap, if_pos hsz, if_neg h0]
      rw [if_neg (by simpa using hmem)]
    · intro j a
      rw [if_neg]
      rintro ⟨e1, e2⟩
      have h3 := (ok.mem _).mp hmem
      exact h3.2 (bgap ok hl (by omega) (by omega))
  · cases l with
    | zero =>
      obtain ⟨st', h1, h2, h3, h4⟩ := fillDown_spec (lo := 0) (hi := nz[0] - 1) (row := init) (st := st)
        (fun _ => by omega) (by omega)
      refine ⟨⟨st'.rows, st'.cols, fun k l => if k = 0 then init.data l else st'.data k l⟩, ?_, by simp only; omega,
        by simp only; omega, ?_⟩
      · simp only [knapBwdGap, if_pos hsz, if_neg h0, if_pos hmem, List.getElem?_eq_getElem hpos, Option.bind_eq_bind,
          Option.bind_some]
        rw [if_pos (by omega), h1, Option.bind_some, Mat.wrRow_of_lt (by omega) (by omega)]
      · intro j a
        have e0 : loPos nz 0 = 0 := rfl
        rw [e0]
        simp only [h4]
        by_cases e : j = 0
        · rw [if_pos e, if_pos (by omega)]
        · rw [if_neg e]
          by_cases h : 0 < j ∧ j ≤ nz[0] - 1
          · rw [if_pos h, if_pos (by omega)]
          · rw [if_neg h, if_neg (by omega)]
    | succ l =>
      have hl' : l < nz.length := by omega
      have hlt := ok.get_lt (show l < l + 1 by omega) hl
      have hne : nz[l] ≠ nz[l + 1] - 1 := fun e => hmem (e ▸ List.getElem_mem hl')
      have h0l : nz[0] ≤ nz[l] := by
        rcases Nat.eq_zero_or_pos l with h | h
        · simp only [h]; exact le_refl _
        · exact (ok.get_lt h hl').le
      have hub : upperBound nz (nz[l + 1] - 1) = l + 1 := upperBound_get hl (by omega) (fun j hj => by
        rcases Nat.lt_or_eq_of_le (show j ≤ l by omega) with h | h
        · have := ok.get_lt h hl'; omega
        · subst h; omega)
      obtain ⟨st', h1, h2, h3, h4⟩ := fillDown_spec (lo := nz[l]) (hi := nz[l + 1] - 1) (row := init) (st := st)
        (fun _ => by omega) (by omega)
      refine ⟨st', ?_, by omega, by omega, ?_⟩
      · simp only [knapBwdGap, if_pos hsz, if_neg h0, if_pos hmem, List.getElem?_eq_getElem hpos, Option.bind_eq_bind,
          Option.bind_some]
        rw [if_neg (by omega), hub, if_neg (by omega)]
        simp only [Nat.add_sub_cancel, List.getElem?_eq_getElem hl', Option.bind_some]
        exact h1
      · intro j a
        rw [h4, loPos_succ hl']
        by_cases h : nz[l] < j ∧ j ≤ nz[l + 1] - 1
        · rw [if_pos h, if_pos (by omega)]
        · rw [if_neg h, if_neg (by omega)]

/-- Every backward cell of a stage `j ≥ 1` is the cheapest cost of the teams `≥ j` that still fit. -/
theorem knapBackward_spec (ok : DeptOk T cap nz sz w wf) (hm : m.Is T mf) {st : Mat Num} (hr : st.rows = T + 1)
    (hc : st.cols = cap + 1) :
    ∃ B, knapBackward T cap nz sz w m st = some B ∧ B.rows = T + 1 ∧ B.cols = cap + 1 ∧
      ∀ j, 0 < j → j ≤ T → ∀ a ≤ cap, IsMin (Bset wf mf T cap j a) (B.data j a) := by
  have hpos := ok.len_pos
  have hlast : nz.length - 1 < nz.length := by omega
  have hLT := ok.get_T hlast
  have hsz : sz ≠ 0 := by rw [ok.size]; omega
  have h0L : nz[0] ≤ nz[nz.length - 1] := by
    rcases Nat.eq_zero_or_pos (nz.length - 1) with h | h
    · simp only [h]; exact le_refl _
    · exact (ok.get_lt h hlast).le
  have htail : ∀ j, nz[nz.length - 1] < j → j ≤ T → ∀ a, Bset wf mf T cap j a = Bset wf mf T cap T a := by
    intro j h1 h2 a
    exact Bset_gap h2 (fun t ht ht' => ok.gap hlast (by omega) (by rw [hiPos_ge (by omega)]; exact ht')) a
  set row : Arr Num := Arr.fill (cap + 1) 0 with hrow
  have hrs : row.size = cap + 1 := rfl
  have hrd : ∀ a, row.data a = fin 0 := fun a => rfl
  obtain ⟨st1, p1, p2, p3, p4⟩ : ∃ st1, (if ((nz[nz.length - 1] : ℕ) : ℤ) ≠ (T : ℤ) - 1 then fillDown (T - 1) nz[0] row
      (⟨st.rows, st.cols, fun k l => if k = T then row.data l else st.data k l⟩ : Mat Num) else
      some (⟨st.rows, st.cols, fun k l => if k = T then row.data l else st.data k l⟩ : Mat Num)) = some st1 ∧
      st1.rows = T + 1 ∧ st1.cols = cap + 1 ∧ ∀ j, nz[nz.length - 1] < j → j ≤ T → ∀ a, st1.data j a = fin 0 := by
    by_cases h : ((nz[nz.length - 1] : ℕ) : ℤ) ≠ (T : ℤ) - 1
    · obtain ⟨st', h1, h2, h3, h4⟩ := fillDown_spec (lo := nz[0]) (hi := T - 1) (row := row)
        (st := ⟨st.rows, st.cols, fun k l => if k = T then row.data l else st.data k l⟩)
        (fun _ => by change _ < st.rows; omega) (by rw [hrs, ← hc])
      refine ⟨st', by rw [if_pos h]; exact h1, by rw [h2]; exact hr, by rw [h3]; exact hc, ?_⟩
      intro j hj hjT a
      rw [h4]
      by_cases e : nz[0] < j ∧ j ≤ T - 1
      · rw [if_pos e, hrd]
      · rw [if_neg e]
        obtain rfl : j = T := by omega
        simp [hrd]
    · refine ⟨⟨st.rows, st.cols, fun k l => if k = T then row.data l else st.data k l⟩, by rw [if_neg h], hr, hc, ?_⟩
      intro j hj hjT a
      obtain rfl : j = T := by omega
      simp [hrd]
  obtain ⟨⟨B, init⟩, h1, h2, h3, h4, h5, h6⟩ := loopDown_inv (n := nz.length) (body := knapBwdBody T cap sz nz w m)
    (s := (st1, row))
    (fun l s => s.1.rows = T + 1 ∧ s.1.cols = cap + 1 ∧ s.2.size = cap + 1 ∧
      (∀ j, 0 < j → loPos nz l ≤ j → j ≤ T → ∀ a ≤ cap, IsMin (Bset wf mf T cap j a) (s.1.data j a)) ∧
      (0 < l → ∀ a ≤ cap, IsMin (Bset wf mf T cap (loPos nz l) a) (s.2.data a)))
    (by
      have hlp : loPos nz nz.length = nz[nz.length - 1] + 1 := by
        have := loPos_succ (nz := nz) hlast
        rwa [Nat.sub_add_cancel hpos] at this
      refine ⟨p2, p3, rfl, ?_, ?_⟩
      · intro j _ hj hjT a ha
        rw [hlp] at hj
        rw [htail j (by omega) hjT, Bset_top ha, p4 j (by omega) hjT]
        exact isMin_singleton 0
      · intro _ a ha
        rw [hlp, htail _ (by omega) (by omega), Bset_top ha]
        exact isMin_singleton 0)
    (by
      rintro l hl ⟨s, init⟩ ⟨s1, s2, s3, s4, s5⟩
      simp only at s1 s2 s3 s4 s5
      rw [loPos_succ hl] at s4 s5
      have s5 := s5 (by omega)
      have hlT := ok.get_T hl
      obtain ⟨s', c1, c2, c3, c4⟩ := bwdCells ok hm hlT (ok.fits _ (List.getElem_mem hl)) s3 s1 s2
      obtain ⟨s'', g1, g2, g3, g4⟩ := bwdGap ok hl (init := ⟨s'.cols, s'.data nz[l]⟩) c3 c2 c3
      have hlo := loPos_le ok hl
      have hrow : 0 < nz[l] → ∀ a ≤ cap, IsMin (Bset wf mf T cap nz[l] a) (s'.data nz[l] a) := by
        intro hp a ha
        rw [c4, if_pos (by omega)]
        exact bwdVal_isMin hp hlT (ok.get_ne hl) s5 ha
      have hgap : ∀ j, loPos nz l ≤ j → j ≤ nz[l] → ∀ a, Bset wf mf T cap j a = Bset wf mf T cap nz[l] a := by
        intro j h1 h2 a
        exact Bset_gap h2 (fun t ht ht' => bgap ok hl (by omega) ht') a
      refine ⟨(s'', ⟨s'.cols, s'.data nz[l]⟩), ?_, g2, g3, c3, ?_, ?_⟩
      · simp only [knapBwdBody, List.getElem?_eq_getElem hl, Option.bind_eq_bind, Option.bind_some, c1,
          Mat.rdRow_of_lt (show nz[l] < s'.rows by omega), g1]
      · intro j hj0 hj hjT a ha
        simp only
        rw [g4]
        by_cases e : j < nz[l]
        · rw [if_pos ⟨hj, e⟩, hgap j hj (by omega)]
          exact hrow (by omega) a ha
        · rw [if_neg (by omega)]
          by_cases e' : j = nz[l]
          · subst e'; exact hrow hj0 a ha
          · rw [c4, if_neg (by omega)]
            exact s4 j hj0 (by omega) hjT a ha
      · intro hl0 a ha
        rw [hgap _ (le_refl _) hlo]
        refine hrow ?_ a ha
        have := ok.get_lt hl0 hl
        omega)
  refine ⟨B, ?_, h2, h3, fun j hj hjT => h5 j hj (by simp [loPos]) hjT⟩
  have e := ok.size
  subst e
  simp only [knapBackward, ← hrow, Mat.wrRow_of_lt (show T < st.rows by omega) (show row.size = st.cols by omega),
    Option.bind_eq_bind, Option.bind_some, if_neg hsz, List.getElem?_eq_getElem hlast, List.getElem?_eq_getElem hpos]
  by_cases h : ((nz[nz.length - 1] : ℕ) : ℤ) ≠ (T : ℤ) - 1
  · rw [if_pos h] at p1 ⊢
    rw [p1, Option.bind_some, h1, Option.bind_some]
  · rw [if_neg h] at p1 ⊢
    rw [Option.some.inj p1, h1, Option.bind_some]

end bwd

end Verif.Proofs
