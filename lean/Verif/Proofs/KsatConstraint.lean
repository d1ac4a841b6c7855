import Verif.Model.KsatConstraint
import Verif.Proofs.Subsets
import Verif.Spec.Clause
import Verif.Proofs.Factors
import Mathlib.Algebra.BigOperators.Group.Finset.Piecewise
import Mathlib.Data.Finset.Max

/-! Loop invariants of the clause update and the exactness of its messages. -/

namespace Verif.Proofs
open Verif Num Model Spec

/-- Invariant of the clause forward table: stages `0..i` are final. -/
def KFwd (k : ℕ) (u : ℕ → ℚ) (i : ℕ) (f : Mat Num) : Prop :=
  f.rows = k + 1 ∧ f.cols = 2 ∧ ∀ j ≤ i, f.data j 0 = fin 0 ∧ IsMin (sums (Finset.range j) Finset.Nonempty u) (f.data j 1)

/-- Invariant of the clause backward table: stages `i..k` are final. -/
def KBwd (k : ℕ) (u : ℕ → ℚ) (i : ℕ) (b : Mat Num) : Prop :=
  b.rows = k + 1 ∧ b.cols = 2 ∧ ∀ j, i ≤ j → j ≤ k → IsMin (sums (Finset.Ico j k) (fun _ => True) u) (b.data j 1) ∧
    (j < k → IsMin (sums (Finset.Ico j k) Finset.Nonempty u) (b.data j 0))

/-- Value of literal `s` of clause `c`. -/
def litVal (x : ℕ → ℕ → ℚ) (conx : Mat ℕ) (ty : Mat ℤ) (c s : ℕ) : ℚ := x c (conx.data c s) * (ty.data c s : ℚ)

section
variable {C k n : ℕ} {x : ℕ → ℕ → ℚ} {V : Mat Num} {conx : Mat ℕ} {ty : Mat ℤ}

theorem ksatLit_eq (hV : V.Is C n x) (ht : ClauseTables C k n conx ty) {c s : ℕ} (hc : c < C) (hs : s < k) :
    ksatLit V conx ty c s = some (fin (litVal x conx ty c s)) := by
  have h1 := ht.conx_lt c hc s hs
  simp [ksatLit, Mat.rd, ht.conx_rows, ht.conx_cols, ht.ty_rows, ht.ty_cols, hc, hs, hV.1, hV.2.1, h1,
    hV.2.2 c hc _ h1, litVal]

theorem range_succ_insert (i : ℕ) : Finset.range (i + 1) = insert i (Finset.range i) := Finset.range_add_one

theorem Ico_insert_left {i k : ℕ} (h : i < k) : Finset.Ico i k = insert i (Finset.Ico (i + 1) k) := by
  ext j; simp only [Finset.mem_insert, Finset.mem_Ico]; omega

theorem sums_true_empty (u : ℕ → ℚ) : sums ∅ (fun _ => True) u = {0} := sums_empty_true u trivial

/-- All subsets = the empty one and the nonempty ones. -/
theorem sums_true_split (W : Finset ℕ) (u : ℕ → ℚ) :
    sums W (fun _ => True) u = {0} ∪ sums W Finset.Nonempty u := by
  ext q; simp only [sums, Set.mem_union, Set.mem_singleton_iff, Set.mem_ofPred_eq, true_and]
  constructor
  · rintro ⟨S, hS, rfl⟩
    rcases S.eq_empty_or_nonempty with rfl | h
    · left; simp [cost]
    · right; exact ⟨S, hS, h, rfl⟩
  · rintro (rfl | ⟨S, hS, -, rfl⟩)
    · exact ⟨∅, by simp, by simp [cost]⟩
    · exact ⟨S, hS, rfl⟩

theorem addSet_union_left (A B D : Set ℚ) : addSet (A ∪ B) D = addSet A D ∪ addSet B D := by
  ext q; simp only [addSet, Set.mem_union, Set.mem_ofPred_eq]
  constructor
  · rintro ⟨a, ha | ha, b, hb, rfl⟩
    · left; exact ⟨a, ha, b, hb, rfl⟩
    · right; exact ⟨a, ha, b, hb, rfl⟩
  · rintro (⟨a, ha, b, hb, rfl⟩ | ⟨a, ha, b, hb, rfl⟩)
    · exact ⟨a, Or.inl ha, b, hb, rfl⟩
    · exact ⟨a, Or.inr ha, b, hb, rfl⟩

theorem addSet_union_right (A B D : Set ℚ) : addSet D (A ∪ B) = addSet D A ∪ addSet D B := by
  ext q; simp only [addSet, Set.mem_union, Set.mem_ofPred_eq]
  constructor
  · rintro ⟨a, ha, b, hb | hb, rfl⟩
    · left; exact ⟨a, ha, b, hb, rfl⟩
    · right; exact ⟨a, ha, b, hb, rfl⟩
  · rintro (⟨a, ha, b, hb, rfl⟩ | ⟨a, ha, b, hb, rfl⟩)
    · exact ⟨a, ha, b, Or.inl hb, rfl⟩
    · exact ⟨a, ha, b, Or.inr hb, rfl⟩

theorem addSet_zero (A : Set ℚ) : addSet A {0} = A := by
  ext q; simp [addSet]

theorem zero_addSet (A : Set ℚ) : addSet {0} A = A := by
  ext q; simp [addSet]

/-- Nonempty subsets of `insert t V`. -/
theorem sums_nonempty_insert {W : Finset ℕ} {t : ℕ} (ht : t ∉ W) (u : ℕ → ℚ) :
    sums (insert t W) Finset.Nonempty u = sums W Finset.Nonempty u ∪ addSet (sums W (fun _ => True) u) {u t} := by
  have h : sums W (fun S => (insert t S).Nonempty) u = sums W (fun _ => True) u :=
    sums_congr (fun S _ => by simp)
  rw [sums_insert ht, h]

theorem sums_true_insert {W : Finset ℕ} {t : ℕ} (ht : t ∉ W) (u : ℕ → ℚ) :
    sums (insert t W) (fun _ => True) u = sums W (fun _ => True) u ∪ addSet (sums W (fun _ => True) u) {u t} :=
  sums_insert ht _ u

theorem ksatFwdStage_inv (hV : V.Is C n x) (ht : ClauseTables C k n conx ty) {c : ℕ} (hc : c < C) {i : ℕ} (hi : i < k)
    {f : Mat Num} (hf : KFwd k (litVal x conx ty c) i f) :
    ∃ f', ksatFwdStage V conx ty c i f = some f' ∧ KFwd k (litVal x conx ty c) (i + 1) f' := by
  obtain ⟨hr, hcc, hd⟩ := hf
  refine ⟨⟨f.rows, f.cols, fun a l => if a = i + 1 ∧ l = 1 then
      cmin (f.data i 1 + cmin 0 (fin (litVal x conx ty c i))) (f.data i 0 + fin (litVal x conx ty c i)) else
    if a = i + 1 ∧ l = 0 then f.data i 0 else f.data a l⟩, ?_, hr, hcc, ?_⟩
  · simp [ksatFwdStage, Mat.rd, Mat.wr, hr, hcc, show i < k + 1 by omega, hi, ksatLit_eq hV ht hc hi]
  · intro j hj
    by_cases h : j = i + 1
    · subst h
      obtain ⟨h0, h1⟩ := hd i (le_refl _)
      simp only [true_and, if_true, one_ne_zero, zero_ne_one, if_false, h0]
      rw [range_succ_insert, sums_nonempty_insert (by simp), sums_true_split, addSet_union_left, zero_addSet]
      have e1 : IsMin ({0} ∪ {litVal x conx ty c i}) (cmin 0 (fin (litVal x conx ty c i))) :=
        (isMin_singleton 0).union (isMin_singleton _)
      have e2 := isMin_add h1 e1
      rw [addSet_union_right, addSet_zero] at e2
      have e3 := e2.union (isMin_singleton (litVal x conx ty c i))
      rw [fin_add, zero_add]
      refine e3.congr ?_
      rw [Set.union_assoc, Set.union_comm (addSet _ _)]
    · simp only [h, false_and, if_false]
      exact hd j (by omega)

theorem ksatBwdStage_inv (hV : V.Is C n x) (ht : ClauseTables C k n conx ty) {c : ℕ} (hc : c < C) {i : ℕ} (hi : i < k)
    {b : Mat Num} (hb : KBwd k (litVal x conx ty c) (i + 1) b) :
    ∃ b', ksatBwdStage k V conx ty c i b = some b' ∧ KBwd k (litVal x conx ty c) i b' := by
  obtain ⟨hr, hcc, hd⟩ := hb
  obtain ⟨d1, d0⟩ := hd (i + 1) (le_refl _) (by omega)
  set u := litVal x conx ty c with hu
  have ht' : i ∉ Finset.Ico (i + 1) k := by simp
  refine ⟨⟨b.rows, b.cols, fun a l => if a = i ∧ l = 1 then cmin (b.data (i + 1) 1) (b.data (i + 1) 1 + fin (u i)) else
    if a = i ∧ l = 0 then (if i + 1 = k then fin (u i) else cmin (b.data (i + 1) 0) (b.data (i + 1) 1 + fin (u i)))
      else b.data a l⟩, ?_, hr, hcc, ?_⟩
  · by_cases hk : i + 1 = k
    · simp [ksatBwdStage, Mat.rd, Mat.wr, hr, hcc, show i < k + 1 by omega, ksatLit_eq hV ht hc hi, hk, ← hu]
    · simp [ksatBwdStage, Mat.rd, Mat.wr, hr, hcc, show i < k + 1 by omega, hi, ksatLit_eq hV ht hc hi, hk, ← hu]
  · intro j hj hj'
    by_cases h : j = i
    · subst h
      simp only [true_and, if_true, zero_ne_one, if_false]
      constructor
      · rw [Ico_insert_left hi, sums_true_insert ht']
        exact d1.union (isMin_add_fin d1 _)
      · intro _
        rw [Ico_insert_left hi, sums_nonempty_insert ht']
        by_cases hk : j + 1 = k
        · rw [if_pos hk]
          subst hk
          rw [Finset.Ico_self, sums_true_empty, zero_addSet, sums_empty_false u (by simp), Set.empty_union]
          exact isMin_singleton _
        · rw [if_neg hk]
          exact (d0 (by omega)).union (isMin_add_fin d1 _)
    · simp only [h, false_and, if_false]
      exact hd j (by omega) hj'

/-- The literal-level message value for literal `s`: `solid - dashed - u s`. -/
theorem literal_message {u : ℕ → ℚ} {f b : Mat Num} (hf : KFwd k u k f) (hb : KBwd k u 0 b) {s : ℕ} (hs : s < k) :
    IsMin (costs (Finset.range k) AtLeastOne u (fun S => s ∈ S))
      (cmin (f.data s 0 + b.data (s + 1) 1 + fin (u s)) (f.data s 1 + fin (u s) + b.data (s + 1) 1)) ∧
    IsMin (costs (Finset.range k) AtLeastOne u (fun S => s ∉ S))
      (if s + 1 = k then f.data s 1 + b.data (s + 1) 1
        else cmin (f.data s 0 + b.data (s + 1) 0) (f.data s 1 + b.data (s + 1) 1)) := by
  obtain ⟨f0, f1⟩ := hf.2.2 s (by omega)
  obtain ⟨b1, b0⟩ := hb.2.2 (s + 1) (by omega) (by omega)
  have hd := disjoint_range_Ico s k
  have hsn : s ∉ Finset.range s ∪ Finset.Ico (s + 1) k := by simp
  constructor
  · -- sets that contain `s`
    have e : costs (Finset.range k) AtLeastOne u (fun S => s ∈ S) =
        addSet (addSet {0} (sums (Finset.Ico (s + 1) k) (fun _ => True) u)) {u s} ∪
        addSet (addSet (sums (Finset.range s) Finset.Nonempty u) {u s}) (sums (Finset.Ico (s + 1) k) (fun _ => True) u) := by
      have e1 : costs (Finset.range k) AtLeastOne u (fun S => s ∈ S) = sums (Finset.range k) (fun S => s ∈ S) u := by
        ext q; simp only [costs, sums, Set.mem_ofPred_eq, AtLeastOne]
        constructor
        · rintro ⟨S, hS, _, h, rfl⟩; exact ⟨S, hS, h, rfl⟩
        · rintro ⟨S, hS, h, rfl⟩; exact ⟨S, hS, ⟨s, h⟩, h, rfl⟩
      rw [e1, range_split hs, sums_insert hsn, sums_false _ _ (fun S hS h => hsn (hS h)), Set.empty_union,
        sums_congr (ok' := fun _ => True) (fun S _ => by simp)]
      have e2 : sums (Finset.range s ∪ Finset.Ico (s + 1) k) (fun _ => True) u =
          addSet (sums (Finset.range s) (fun _ => True) u) (sums (Finset.Ico (s + 1) k) (fun _ => True) u) := by
        ext q; rw [sums_union hd]
        constructor
        · rintro ⟨L, R, hL, hR, -, rfl⟩; exact ⟨_, ⟨L, hL, trivial, rfl⟩, _, ⟨R, hR, trivial, rfl⟩, rfl⟩
        · rintro ⟨_, ⟨L, hL, -, rfl⟩, _, ⟨R, hR, -, rfl⟩, rfl⟩; exact ⟨L, R, hL, hR, trivial, rfl⟩
      rw [e2, sums_true_split (Finset.range s), addSet_union_left, addSet_union_left]
      congr 1
      ext q; simp only [addSet, Set.mem_ofPred_eq, Set.mem_singleton_iff]
      constructor
      · rintro ⟨_, ⟨a, ha, b, hb, rfl⟩, _, rfl, rfl⟩
        exact ⟨_, ⟨a, ha, _, rfl, rfl⟩, b, hb, by ring⟩
      · rintro ⟨_, ⟨a, ha, _, rfl, rfl⟩, b, hb, rfl⟩
        exact ⟨_, ⟨a, ha, b, hb, rfl⟩, _, rfl, by ring⟩
    rw [e, f0]
    exact (isMin_add_fin (isMin_add (isMin_singleton 0) b1) _).union (isMin_add (isMin_add_fin f1 _) b1)
  · -- sets that do not contain `s`
    have e : costs (Finset.range k) AtLeastOne u (fun S => s ∉ S) =
        addSet {0} (sums (Finset.Ico (s + 1) k) Finset.Nonempty u) ∪
        addSet (sums (Finset.range s) Finset.Nonempty u) (sums (Finset.Ico (s + 1) k) (fun _ => True) u) := by
      have e1 : costs (Finset.range k) AtLeastOne u (fun S => s ∉ S) =
          sums (Finset.range s ∪ Finset.Ico (s + 1) k) Finset.Nonempty u := by
        ext q; simp only [costs, sums, Set.mem_ofPred_eq, AtLeastOne]
        constructor
        · rintro ⟨S, hS, h, h', rfl⟩
          refine ⟨S, ?_, h, rfl⟩
          intro j hj
          have := hS hj
          rw [range_split hs, Finset.mem_insert] at this
          exact this.resolve_left (by rintro rfl; exact h' hj)
        · rintro ⟨S, hS, h, rfl⟩
          refine ⟨S, ?_, h, fun h' => hsn (hS h'), rfl⟩
          rw [range_split hs]; exact hS.trans (Finset.subset_insert _ _)
      rw [e1]
      ext q; rw [sums_union hd, zero_addSet]
      constructor
      · rintro ⟨L, R, hL, hR, hok, rfl⟩
        rcases L.eq_empty_or_nonempty with rfl | h
        · left; refine ⟨R, hR, ?_, by simp [cost]⟩
          simpa using hok
        · right; exact ⟨_, ⟨L, hL, h, rfl⟩, _, ⟨R, hR, trivial, rfl⟩, rfl⟩
      · rintro (⟨R, hR, h, rfl⟩ | ⟨_, ⟨L, hL, h, rfl⟩, _, ⟨R, hR, -, rfl⟩, rfl⟩)
        · exact ⟨∅, R, by simp, hR, by simpa using h, by simp [cost]⟩
        · exact ⟨L, R, hL, hR, h.inl, rfl⟩
    rw [e]
    by_cases hk : s + 1 = k
    · rw [if_pos hk]
      subst hk
      rw [Finset.Ico_self, sums_empty_false u (by simp), zero_addSet, Set.empty_union]
      rw [Finset.Ico_self] at b1
      exact isMin_add f1 b1
    · rw [if_neg hk, f0]
      exact (isMin_add (isMin_singleton 0) (b0 (by omega))).union (isMin_add f1 b1)

end

/-! ### From literals to variables -/

/-- Costs over variable assignments and costs over sets of true literals differ by a constant. -/
theorem clause_costs {k : ℕ} {v : ℕ → ℕ} {ty : ℕ → ℤ} {u m : ℕ → ℚ}
    (hinj : ∀ i < k, ∀ j < k, v i = v j → i = j) (hty : ∀ j < k, ty j = 1 ∨ ty j = -1)
    (hu : ∀ j < k, u j = m (v j) * (ty j : ℚ)) {s : ℕ} (hs : s < k) (c : Prop → Prop) :
    costs (clauseVars k v) (ClauseSat k v ty) m (fun S => c (v s ∈ S)) =
      addSet (costs (Finset.range k) AtLeastOne u (fun T => c (s ∈ T ↔ ty s = 1)))
        {(Finset.range k).sum (fun j => if ty j = -1 then m (v j) else 0)} := by
  classical
  let φ : Finset ℕ → Finset ℕ := fun T => ((Finset.range k).filter (fun j => (j ∈ T ↔ ty j = 1))).image v
  let ψ : Finset ℕ → Finset ℕ := fun S => (Finset.range k).filter (fun j => (v j ∈ S ↔ ty j = 1))
  have memφ : ∀ T, ∀ j < k, (v j ∈ φ T ↔ (j ∈ T ↔ ty j = 1)) := by
    intro T j hj
    simp only [φ, Finset.mem_image, Finset.mem_filter, Finset.mem_range]
    constructor
    · rintro ⟨i, ⟨hi, h⟩, e⟩
      rw [← hinj i hi j hj e]; exact h
    · intro h; exact ⟨j, ⟨hj, h⟩, rfl⟩
  have hcost : ∀ T ⊆ Finset.range k, cost m (φ T) = cost u T +
      (Finset.range k).sum (fun j => if ty j = -1 then m (v j) else 0) := by
    intro T hT
    have h1 : cost u T = (Finset.range k).sum (fun j => if j ∈ T then u j else 0) := by
      unfold cost
      rw [Finset.sum_ite_mem, Finset.inter_eq_right.mpr hT]
    rw [h1, ← Finset.sum_add_distrib]
    unfold cost
    simp only [φ]
    rw [Finset.sum_image, Finset.sum_filter]
    · refine Finset.sum_congr rfl fun j hj => ?_
      rw [Finset.mem_range] at hj
      rw [hu j hj]
      rcases hty j hj with h | h <;> by_cases hjT : j ∈ T <;> simp [h, hjT]
    · intro i hi j hj e
      simp only [Finset.coe_filter, Finset.mem_range, Set.mem_ofPred_eq] at hi hj
      exact hinj i hi.1 j hj.1 e
  ext q
  constructor
  · rintro ⟨S, hS, ⟨j, hj, hsat⟩, hc, rfl⟩
    have hT : ψ S ⊆ Finset.range k := Finset.filter_subset _ _
    have memψ : ∀ j < k, (j ∈ ψ S ↔ (v j ∈ S ↔ ty j = 1)) := by
      intro j hj; simp [ψ, hj]
    have hφψ : φ (ψ S) = S := by
      ext w; constructor
      · intro hw
        simp only [φ, Finset.mem_image, Finset.mem_filter, Finset.mem_range] at hw
        obtain ⟨i, ⟨hi, h⟩, rfl⟩ := hw
        rw [memψ i hi] at h
        by_cases h1 : ty i = 1 <;> simpa [h1] using h
      · intro hw
        obtain ⟨i, hi, rfl⟩ := Finset.mem_image.mp (hS hw)
        rw [Finset.mem_range] at hi
        rw [memφ _ i hi, memψ i hi]
        simp [hw]
    refine ⟨cost u (ψ S), ⟨ψ S, hT, ⟨j, ?_⟩, ?_, rfl⟩, _, rfl, ?_⟩
    · rw [memψ j hj]
      rcases hsat with ⟨h1, h2⟩ | ⟨h1, h2⟩
      · simp [h1, h2]
      · simp [h1, h2]
    · have : (s ∈ ψ S ↔ ty s = 1) ↔ v s ∈ S := by
        rw [memψ s hs]; by_cases h1 : ty s = 1 <;> simp [h1]
      change c _
      rw [this]; exact hc
    · rw [← hcost _ hT, hφψ]
  · rintro ⟨_, ⟨T, hT, ⟨j, hjT⟩, hc, rfl⟩, _, rfl, rfl⟩
    refine ⟨φ T, ?_, ⟨j, ?_, ?_⟩, ?_, hcost T hT⟩
    · exact Finset.image_subset_image (Finset.filter_subset _ _)
    · simpa using hT hjT
    · have hj : j < k := by simpa using hT hjT
      rw [memφ T j hj]
      rcases hty j hj with h | h
      · left; exact ⟨h, by simp [h, hjT]⟩
      · right; exact ⟨h, by simp [h, hjT]⟩
    · change c (v s ∈ φ T)
      rw [memφ T s hs]; exact hc

theorem num_sub_shift (p q K z : ℚ) : (fin p + fin K) - (fin q + fin K) - fin z = fin (p - q - z) := by
  simp

/-- Lifting the literal-level message to a variable-level message. -/
theorem clause_lift {k : ℕ} {v : ℕ → ℕ} {ty : ℕ → ℤ} {u m : ℕ → ℚ}
    (hinj : ∀ i < k, ∀ j < k, v i = v j → i = j) (hty : ∀ j < k, ty j = 1 ∨ ty j = -1)
    (hu : ∀ j < k, u j = m (v j) * (ty j : ℚ)) {s : ℕ} (hs : s < k) {a b : Num}
    (ha : IsMin (costs (Finset.range k) AtLeastOne u (fun S => s ∈ S)) a)
    (hb : IsMin (costs (Finset.range k) AtLeastOne u (fun S => s ∉ S)) b) :
    IsMessage (clauseVars k v) (ClauseSat k v ty) m (v s) ((a - b - fin (u s)) * fin (ty s : ℚ)) := by
  obtain ⟨p, rfl, -⟩ : ∃ q, a = fin q ∧ _ :=
    ha.exists_fin ⟨cost u {s}, {s}, by simpa using hs, ⟨s, by simp⟩, by simp, rfl⟩
  have h1 := clause_costs hinj hty hu hs (fun P => P)
  have h2 := clause_costs hinj hty hu hs (fun P => ¬ P)
  generalize (Finset.range k).sum (fun j => if ty j = -1 then m (v j) else 0) = K at h1 h2
  rcases hty s hs with h | h
  · simp only [h, iff_true] at h1 h2
    refine ⟨fin p + fin K, b + fin K, (isMin_add_fin ha K).congr h1.symm, (isMin_add_fin hb K).congr h2.symm, ?_⟩
    rw [hu s hs, h]
    rcases hb with ⟨-, rfl⟩ | ⟨q, rfl, -⟩
    · simp; rfl
    · simp
  · have h3 : ¬ ((-1 : ℤ) = 1) := by decide
    simp only [h, h3, iff_false, not_not] at h1 h2
    refine ⟨b + fin K, fin p + fin K, (isMin_add_fin hb K).congr h1.symm, (isMin_add_fin ha K).congr h2.symm, ?_⟩
    rw [hu s hs, h]
    rcases hb with ⟨-, rfl⟩ | ⟨q, rfl, -⟩
    · change (ninf : Num) * fin _ = pinf + _
      simp
      rfl
    · simp; ring

/-! ### The whole update -/

section
variable {C k n : ℕ} {x : ℕ → ℕ → ℚ} {V : Mat Num} {conx : Mat ℕ} {ty : Mat ℤ}

/-- The output message of literal `s` of clause `c`, at the literal level. -/
def IsLitMsg (k : ℕ) (u : ℕ → ℚ) (s : ℕ) (mu : Num) : Prop :=
  ∃ a b, IsMin (costs (Finset.range k) AtLeastOne u (fun S => s ∈ S)) a ∧
    IsMin (costs (Finset.range k) AtLeastOne u (fun S => s ∉ S)) b ∧ mu = a - b - fin (u s)

theorem lt_abs_zero {w : Num} (h : w ≠ nan) : lt (Num.abs 0) (Num.abs w) = false → w = 0 := by
  cases w with
  | nan => exact absurd rfl h
  | ninf => intro h'; simp [Num.abs, lt] at h'
  | pinf => intro h'; simp [Num.abs, lt] at h'
  | fin q =>
    intro h'
    simp [zero_def] at h'
    rw [h']; rfl

theorem IsLitMsg.ne_nan {u : ℕ → ℚ} {s : ℕ} {mu : Num} (h : IsLitMsg k u s mu) (hs : s < k) {t : ℤ}
    (ht : t = 1 ∨ t = -1) : mu * fin (t : ℚ) ≠ nan := by
  obtain ⟨a, b, ha, hb, rfl⟩ := h
  obtain ⟨p, rfl, -⟩ : ∃ q, a = fin q ∧ _ :=
    ha.exists_fin ⟨cost u {s}, {s}, by simpa using hs, ⟨s, by simp⟩, by simp, rfl⟩
  rcases hb with ⟨-, rfl⟩ | ⟨q, rfl, -⟩
  · rcases ht with rfl | rfl
    · change (ninf : Num) * fin _ ≠ nan; simp; decide
    · change (ninf : Num) * fin _ ≠ nan; simp; decide
  · simp

theorem ksatOut_step (hV : V.Is C n x) (ht : ClauseTables C k n conx ty) {c : ℕ} (hc : c < C) {s : ℕ} (hs : s < k)
    {f b out : Mat Num} (hf : KFwd k (litVal x conx ty c) k f) (hb : KBwd k (litVal x conx ty c) 0 b)
    (hr : out.rows = C) (hcc : out.cols = n) (h0 : out.data c (conx.data c s) = 0) :
    ∃ mu, IsLitMsg k (litVal x conx ty c) s mu ∧ ∃ out', ksatOut k V conx ty f b c s out = some out' ∧
      out'.rows = C ∧ out'.cols = n ∧ ∀ i j, out'.data i j =
        if i = c ∧ j = conx.data c s then mu * fin (ty.data c s : ℚ) else out.data i j := by
  obtain ⟨l1, l2⟩ := literal_message hf hb hs
  set u := litVal x conx ty c with hu
  refine ⟨_, ⟨_, _, l1, l2, rfl⟩, ?_⟩
  have hlit : IsLitMsg k u s _ := ⟨_, _, l1, l2, rfl⟩
  have hv := ht.conx_lt c hc s hs
  have hnn := hlit.ne_nan hs (ht.sign c hc s hs)
  have hfr := hf.1; have hfc := hf.2.1; have hbr := hb.1; have hbc := hb.2.1
  generalize hmu : (cmin (f.data s 0 + b.data (s + 1) 1 + fin (u s)) (f.data s 1 + fin (u s) + b.data (s + 1) 1)) -
    (if s + 1 = k then f.data s 1 + b.data (s + 1) 1 else cmin (f.data s 0 + b.data (s + 1) 0) (f.data s 1 + b.data (s + 1) 1)) -
    fin (u s) = mu at hnn ⊢
  have hrun : ksatOut k V conx ty f b c s out =
      if lt (Num.abs (out.data c (conx.data c s))) (Num.abs (mu * fin (ty.data c s : ℚ))) then
        out.wr c (conx.data c s) (mu * fin (ty.data c s : ℚ)) else some out := by
    by_cases hk : s + 1 = k
    · rw [if_pos hk] at hmu
      simp only [ksatOut, ksatLit_eq hV ht hc hs, Mat.rd, hfr, hfc, hbr, hbc, hr, hcc, ht.conx_rows, ht.conx_cols,
        ht.ty_rows, ht.ty_cols]
      simp [hc, hs, hv, show s < k + 1 by omega, ← hu, if_pos hk, hmu]
    · rw [if_neg hk] at hmu
      simp only [ksatOut, ksatLit_eq hV ht hc hs, Mat.rd, hfr, hfc, hbr, hbc, hr, hcc, ht.conx_rows, ht.conx_cols,
        ht.ty_rows, ht.ty_cols]
      simp [hc, hs, hv, show s < k + 1 by omega, ← hu, if_neg hk, hmu]
  rw [hrun, h0]
  cases hlt : lt (Num.abs 0) (Num.abs (mu * fin (ty.data c s : ℚ)))
  · have h := lt_abs_zero hnn hlt
    refine ⟨out, by simp, hr, hcc, ?_⟩
    intro i j
    by_cases e : i = c ∧ j = conx.data c s
    · rw [if_pos e, e.1, e.2, h0, h]
    · rw [if_neg e]
  · have hw : out.wr c (conx.data c s) (mu * fin (ty.data c s : ℚ)) = some ⟨out.rows, out.cols, fun i j =>
        if i = c ∧ j = conx.data c s then mu * fin (ty.data c s : ℚ) else out.data i j⟩ :=
      Mat.wr_of_lt (by omega) (by omega)
    exact ⟨⟨out.rows, out.cols, fun i j =>
        if i = c ∧ j = conx.data c s then mu * fin (ty.data c s : ℚ) else out.data i j⟩,
      by rw [if_pos rfl, hw], hr, hcc, fun i j => rfl⟩

theorem kfwd_init {u : ℕ → ℚ} {f : Mat Num} (hr : f.rows = k + 1) (hc : f.cols = 2) :
    ∃ f', f.wrRow 0 initFwd2 = some f' ∧ KFwd k u 0 f' := by
  refine ⟨_, Mat.wrRow_of_lt (by omega) (by simp [initFwd2, hc]), hr, hc, ?_⟩
  intro j hj
  obtain rfl : j = 0 := by omega
  simp only [initFwd2, if_true, one_ne_zero, if_false, Finset.range_zero, sums_empty_false u (ok := Finset.Nonempty) (by simp)]
  exact ⟨rfl, isMin_empty⟩

theorem kbwd_init {u : ℕ → ℚ} {f : Mat Num} (hr : f.rows = k + 1) (hc : f.cols = 2) :
    ∃ f', f.wrRow k initBwd2 = some f' ∧ KBwd k u k f' := by
  refine ⟨_, Mat.wrRow_of_lt (by omega) (by simp [initBwd2, hc]), hr, hc, ?_⟩
  intro j hj hj'
  obtain rfl : j = k := by omega
  simp only [initBwd2, if_true, Finset.Ico_self, sums_true_empty]
  exact ⟨isMin_singleton 0, fun h => absurd h (lt_irrefl _)⟩

/-- Closed form of the whole update: entries of clause members are literal messages times the sign, all other entries
are zero. -/
theorem ksatToVariableUpdate_lit (hV : V.Is C n x) (ht : ClauseTables C k n conx ty) {old : Mat Num}
    (hr : old.rows = C) (hcc : old.cols = n) :
    ∃ out, ksatToVariableUpdate C k V old conx ty = some out ∧ out.rows = C ∧ out.cols = n ∧
      ∀ c < C, (∀ s < k, ∃ mu, IsLitMsg k (litVal x conx ty c) s mu ∧
          out.data c (conx.data c s) = mu * fin (ty.data c s : ℚ)) ∧
        ∀ j, (∀ s < k, conx.data c s ≠ j) → out.data c j = 0 := by
  obtain ⟨⟨f, b, out⟩, hst, -, -, -, -, hor, hoc, hod, -⟩ :=
    loopUp_inv (n := C) (body := ksatBody k V conx ty)
      (s := (Mat.fill (k + 1) 2 0, Mat.fill (k + 1) 2 0, Mat.fill old.rows old.cols 0))
      (fun i st => st.1.rows = k + 1 ∧ st.1.cols = 2 ∧ st.2.1.rows = k + 1 ∧ st.2.1.cols = 2 ∧
        st.2.2.rows = C ∧ st.2.2.cols = n ∧
        (∀ c < i, (∀ s < k, ∃ mu, IsLitMsg k (litVal x conx ty c) s mu ∧
          st.2.2.data c (conx.data c s) = mu * fin (ty.data c s : ℚ)) ∧
          ∀ j, (∀ s < k, conx.data c s ≠ j) → st.2.2.data c j = 0) ∧
        ∀ c, i ≤ c → ∀ j, st.2.2.data c j = 0)
      ⟨rfl, rfl, rfl, rfl, hr, hcc, fun c hc => absurd hc (by omega), fun _ _ _ => rfl⟩
      (by
        rintro i hi ⟨f, b, out⟩ ⟨fr, fc, br, bc, or, oc, od, oz⟩
        simp only at fr fc br bc or oc od oz
        obtain ⟨f1, hf1, if1⟩ := kfwd_init (u := litVal x conx ty i) fr fc
        obtain ⟨f2, hf2, if2⟩ := loopUp_inv (n := k) (body := ksatFwdStage V conx ty i) (s := f1)
          (fun j f => KFwd k (litVal x conx ty i) j f) if1 (fun j hj f hf => ksatFwdStage_inv hV ht hi hj hf)
        obtain ⟨b1, hb1, ib1⟩ := kbwd_init (u := litVal x conx ty i) br bc
        obtain ⟨b2, hb2, ib2⟩ := loopDown_inv (n := k) (body := ksatBwdStage k V conx ty i) (s := b1)
          (fun j f => KBwd k (litVal x conx ty i) j f) ib1 (fun j hj f hf => ksatBwdStage_inv hV ht hi hj hf)
        obtain ⟨o, ho, ior, ioc, iod⟩ := loopUp_inv (n := k) (body := ksatOut k V conx ty f2 b2 i) (s := out)
          (fun l o => o.rows = C ∧ o.cols = n ∧ (∀ c ≠ i, ∀ j, o.data c j = out.data c j) ∧
            (∀ s < l, ∃ mu, IsLitMsg k (litVal x conx ty i) s mu ∧
              o.data i (conx.data i s) = mu * fin (ty.data i s : ℚ)) ∧
            ∀ j, (∀ s < l, conx.data i s ≠ j) → o.data i j = 0)
          ⟨or, oc, fun _ _ _ => rfl, fun t ht => absurd ht (by omega), fun j _ => oz i (le_refl _) j⟩
          (by
            rintro l hl o ⟨h1, h2, h3, h4, h5⟩
            have hz : o.data i (conx.data i l) = 0 :=
              h5 _ (fun s hs e => absurd (ht.conx_inj i hi s (by omega) l hl e) (by omega))
            obtain ⟨mu, hmu, o', ho', g1, g2, g3⟩ := ksatOut_step hV ht hi hl if2 ib2 h1 h2 hz
            refine ⟨o', ho', g1, g2, ?_, ?_, ?_⟩
            · intro c hc j
              rw [g3, if_neg (fun h => hc h.1), h3 c hc]
            · intro s hs
              by_cases hsl : s = l
              · subst hsl; exact ⟨mu, hmu, by rw [g3, if_pos ⟨rfl, rfl⟩]⟩
              · obtain ⟨mu', h6, h7⟩ := h4 s (by omega)
                refine ⟨mu', h6, ?_⟩
                rw [g3, if_neg, h7]
                rintro ⟨-, e⟩
                exact hsl (ht.conx_inj i hi s (by omega) l hl e)
            · intro j hj
              rw [g3, if_neg, h5 j (fun s hs => hj s (by omega))]
              rintro ⟨-, e⟩
              exact hj l (by omega) e.symm)
        obtain ⟨i1, i2, i3⟩ := iod
        refine ⟨(f2, b2, o), by simp [ksatBody, hf1, hf2, hb1, hb2, ho], if2.1, if2.2.1, ib2.1, ib2.2.1, ior, ioc, ?_, ?_⟩
        · intro c hc
          by_cases hci : c = i
          · subst hci; exact ⟨i2, i3⟩
          · obtain ⟨h6, h7⟩ := od c (by omega)
            constructor
            · intro s hs
              obtain ⟨mu, h8, h9⟩ := h6 s hs
              exact ⟨mu, h8, by rw [i1 c hci, h9]⟩
            · intro j hj
              rw [i1 c hci, h7 j hj]
        · intro c hc j
          rw [i1 c (by omega), oz c (by omega)])
  exact ⟨out, by simp only [ksatToVariableUpdate]; rw [hst]; rfl, hor, hoc, hod⟩

/-- The literal message in closed form. -/
theorem IsLitMsg.closed {u : ℕ → ℚ} {s : ℕ} {mu : Num} (h : IsLitMsg k u s mu) (hs : s < k) (hk : 2 ≤ k) :
    ∃ q, IsLeast {q | ∃ j < k, j ≠ s ∧ u j = q} q ∧ mu = fin (min (-q) 0) := by
  have hne : ∃ j < k, j ≠ s := by
    by_cases h0 : s = 0
    · exact ⟨1, by omega, by omega⟩
    · exact ⟨0, by omega, by omega⟩
  have hset : {q | ∃ j < k, j ≠ s ∧ u j = q} = others (Finset.range k) u s := by
    ext q; simp [others]
  obtain ⟨q, hq, hq'⟩ : ∃ q, q ∈ others (Finset.range k) u s ∧ ∀ r ∈ others (Finset.range k) u s, q ≤ r := by
    obtain ⟨j, hj, hjs⟩ := hne
    obtain ⟨l, hl, hmin⟩ := Finset.exists_min_image ((Finset.range k).erase s) u ⟨j, by simp [hj, hjs]⟩
    rw [Finset.mem_erase] at hl
    refine ⟨u l, ⟨l, hl.2, hl.1, rfl⟩, ?_⟩
    rintro _ ⟨i, hi, his, rfl⟩
    exact hmin i (by simp only [Finset.mem_erase]; exact ⟨his, hi⟩)
  have hl : IsLeast (others (Finset.range k) u s) q := ⟨hq, fun r hr => hq' r hr⟩
  refine ⟨q, by rw [hset]; exact hl, ?_⟩
  have h1 : IsMessage (Finset.range k) AtLeastOne u s mu := h
  have h2 := atLeastOne_message (vars := Finset.range k) (x := u) (t := s) (by simpa using hs) (isMin_fin hl)
  rw [h1.unique h2]
  simp

end

end Verif.Proofs
