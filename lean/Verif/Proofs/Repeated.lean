import Mathlib.Tactic.LinearCombination
import Verif.Spec.Repeated
import Verif.Proofs.KsatRun

/-! Clause updates and runs on formulas in which a clause may repeat a variable. -/

namespace Verif.Proofs
open Verif Num Model Spec

section
variable {C k n : ℕ} {x : ℕ → ℕ → ℚ} {V : Mat Num} {conx : Mat ℕ} {ty : Mat ℤ}

theorem loose_lit (hV : V.Is C n x) (ht : LooseTables C k n conx ty) {c s : ℕ} (hc : c < C) (hs : s < k) :
    ksatLit V conx ty c s = some (fin (litVal x conx ty c s)) := by
  have h1 := ht.conx_lt c hc s hs
  simp [ksatLit, Mat.rd, ht.conx_rows, ht.conx_cols, ht.ty_rows, ht.ty_cols, hc, hs, hV.1, hV.2.1, h1,
    hV.2.2 c hc _ h1, litVal]

theorem loose_fwd (hV : V.Is C n x) (ht : LooseTables C k n conx ty) {c : ℕ} (hc : c < C) {i : ℕ} (hi : i < k)
    {f : Mat Num} (hf : KFwd k (litVal x conx ty c) i f) :
    ∃ f', ksatFwdStage V conx ty c i f = some f' ∧ KFwd k (litVal x conx ty c) (i + 1) f' := by
  obtain ⟨hr, hcc, hd⟩ := hf
  refine ⟨⟨f.rows, f.cols, fun a l => if a = i + 1 ∧ l = 1 then
      cmin (f.data i 1 + cmin 0 (fin (litVal x conx ty c i))) (f.data i 0 + fin (litVal x conx ty c i)) else
    if a = i + 1 ∧ l = 0 then f.data i 0 else f.data a l⟩, ?_, hr, hcc, ?_⟩
  · simp [ksatFwdStage, Mat.rd, Mat.wr, hr, hcc, show i < k + 1 by omega, hi, loose_lit hV ht hc hi]
  · intro j hj
    by_cases h : j = i + 1
    · subst h
      obtain ⟨h0, h1⟩ := hd i (le_refl _)
      simp only [true_and, if_true, one_ne_zero, zero_ne_one, if_false, h0]
      rw [range_succ_insert, sums_nonempty_insert (by simp), sums_true_split, addSet_union_left, zero_addSet]
      have e1 : IsMin ({0} ∪ {litVal x conx ty c i}) (cmin 0 (fin (litVal x conx ty c i))) :=
        (isMin_singleton 0).union (isMin_singleton _)
      have e2 := isMin_add h1 e1
      rw [addSet_union_right, addSet_zero] at e2
      have e3 := e2.union (isMin_singleton (litVal x conx ty c i))
      rw [fin_add, zero_add]
      refine e3.congr ?_
      rw [Set.union_assoc, Set.union_comm (addSet _ _)]
    · simp only [h, false_and, if_false]
      exact hd j (by omega)

theorem loose_bwd (hV : V.Is C n x) (ht : LooseTables C k n conx ty) {c : ℕ} (hc : c < C) {i : ℕ} (hi : i < k)
    {b : Mat Num} (hb : KBwd k (litVal x conx ty c) (i + 1) b) :
    ∃ b', ksatBwdStage k V conx ty c i b = some b' ∧ KBwd k (litVal x conx ty c) i b' := by
  obtain ⟨hr, hcc, hd⟩ := hb
  obtain ⟨d1, d0⟩ := hd (i + 1) (le_refl _) (by omega)
  set u := litVal x conx ty c with hu
  have ht' : i ∉ Finset.Ico (i + 1) k := by simp
  refine ⟨⟨b.rows, b.cols, fun a l => if a = i ∧ l = 1 then cmin (b.data (i + 1) 1) (b.data (i + 1) 1 + fin (u i)) else
    if a = i ∧ l = 0 then (if i + 1 = k then fin (u i) else cmin (b.data (i + 1) 0) (b.data (i + 1) 1 + fin (u i)))
      else b.data a l⟩, ?_, hr, hcc, ?_⟩
  · by_cases hk : i + 1 = k
    · simp [ksatBwdStage, Mat.rd, Mat.wr, hr, hcc, show i < k + 1 by omega, loose_lit hV ht hc hi, hk, ← hu]
    · simp [ksatBwdStage, Mat.rd, Mat.wr, hr, hcc, show i < k + 1 by omega, hi, loose_lit hV ht hc hi, hk, ← hu]
  · intro j hj hj'
    by_cases h : j = i
    · subst h
      simp only [true_and, if_true, zero_ne_one, if_false]
      constructor
      · rw [Ico_insert_left hi, sums_true_insert ht']
        exact d1.union (isMin_add_fin d1 _)
      · intro _
        rw [Ico_insert_left hi, sums_nonempty_insert ht']
        by_cases hk : j + 1 = k
        · rw [if_pos hk]
          subst hk
          rw [Finset.Ico_self, sums_true_empty, zero_addSet, sums_empty_false u (by simp), Set.empty_union]
          exact isMin_singleton _
        · rw [if_neg hk]
          exact (d0 (by omega)).union (isMin_add_fin d1 _)
    · simp only [h, false_and, if_false]
      exact hd j (by omega) hj'

theorem push_unique {l : ℕ → ℕ × ℤ} {z : ℕ → ℚ} {s : ℕ} {p p' : ℚ} (h : IsPush k l z s p) (h' : IsPush k l z s p') : p = p' := by
  obtain ⟨q, hq, rfl⟩ := h
  obtain ⟨q', hq', rfl⟩ := h'
  rw [hq.unique hq']

/-- One position: the larger in magnitude of the old entry and the push of the position. -/
theorem loose_out (hV : V.Is C n x) (ht : LooseTables C k n conx ty) (hk2 : 2 ≤ k) {c : ℕ} (hc : c < C) {s : ℕ} (hs : s < k)
    {f b out : Mat Num} (hf : KFwd k (litVal x conx ty c) k f) (hb : KBwd k (litVal x conx ty c) 0 b)
    (hr : out.rows = C) (hcc : out.cols = n) {o : ℚ} (h0 : out.data c (conx.data c s) = fin o) :
    ∃ p, IsPush k (litAt conx ty c) (x c) s p ∧ ∃ out', ksatOut k V conx ty f b c s out = some out' ∧
      out'.rows = C ∧ out'.cols = n ∧ ∀ i j, out'.data i j =
        if i = c ∧ j = conx.data c s then fin (if |o| < |p| then p else o) else out.data i j := by
  obtain ⟨l1, l2⟩ := literal_message hf hb hs
  set u := litVal x conx ty c with hu
  have hlit : IsLitMsg k u s _ := ⟨_, _, l1, l2, rfl⟩
  obtain ⟨q, hq, hmu⟩ := hlit.closed hs hk2
  have hv := ht.conx_lt c hc s hs
  have hfr := hf.1; have hfc := hf.2.1; have hbr := hb.1; have hbc := hb.2.1
  refine ⟨-(max 0 q) * (ty.data c s : ℚ), ⟨q, hq, rfl⟩, ?_⟩
  have hpm : min (-q) 0 = -(max 0 q) := by
    rcases le_total 0 q with h | h
    · rw [max_eq_right h, min_eq_left (by linarith)]
    · rw [max_eq_left h, min_eq_right (by linarith), neg_zero]
  have hrun : ksatOut k V conx ty f b c s out =
      if lt (Num.abs (out.data c (conx.data c s))) (Num.abs (fin (min (-q) 0) * fin (ty.data c s : ℚ))) then
        out.wr c (conx.data c s) (fin (min (-q) 0) * fin (ty.data c s : ℚ)) else some out := by
    by_cases hk : s + 1 = k
    · rw [if_pos hk] at hmu
      simp only [ksatOut, loose_lit hV ht hc hs, Mat.rd, hfr, hfc, hbr, hbc, hr, hcc, ht.conx_rows, ht.conx_cols,
        ht.ty_rows, ht.ty_cols]
      simp [hc, hs, hv, show s < k + 1 by omega, ← hu, if_pos hk, hmu]
    · rw [if_neg hk] at hmu
      simp only [ksatOut, loose_lit hV ht hc hs, Mat.rd, hfr, hfc, hbr, hbc, hr, hcc, ht.conx_rows, ht.conx_cols,
        ht.ty_rows, ht.ty_cols]
      simp [hc, hs, hv, show s < k + 1 by omega, ← hu, if_neg hk, hmu]
  rw [hrun, h0, hpm, fin_mul, abs_fin, abs_fin, lt_fin]
  set p := -(max 0 q) * (ty.data c s : ℚ)
  by_cases hlt : |o| < |p|
  · have hw : out.wr c (conx.data c s) (fin p) = some ⟨out.rows, out.cols, fun i j =>
        if i = c ∧ j = conx.data c s then fin p else out.data i j⟩ :=
      Mat.wr_of_lt (by omega) (by omega)
    rw [if_pos (by simpa using hlt), hw]
    exact ⟨_, rfl, hr, hcc, fun i j => by simp only [if_pos hlt]⟩
  · rw [if_neg (by simpa using hlt)]
    refine ⟨out, rfl, hr, hcc, fun i j => ?_⟩
    by_cases e : i = c ∧ j = conx.data c s
    · rw [if_pos e, e.1, e.2, h0, if_neg hlt]
    · rw [if_neg e]

/-- What is written for one clause after `l` positions. -/
def LooseRow (k : ℕ) (lits : ℕ → ℕ × ℤ) (z : ℕ → ℚ) (l : ℕ) (row : ℕ → ℚ) : Prop :=
  (∀ v, (∀ s < l, (lits s).1 ≠ v) → row v = 0) ∧
    ∀ s < l, (∃ s' < l, (lits s').1 = (lits s).1 ∧ IsPush k lits z s' (row (lits s).1)) ∧
      ∀ p, IsPush k lits z s p → |p| ≤ |row (lits s).1|

theorem looseRow_step {lits : ℕ → ℕ × ℤ} {z : ℕ → ℚ} {l : ℕ} {row : ℕ → ℚ} (h : LooseRow k lits z l row) {p : ℚ}
    (hp : IsPush k lits z l p) :
    LooseRow k lits z (l + 1) (fun v => if v = (lits l).1 then (if |row v| < |p| then p else row v) else row v) := by
  have hz : (∀ s < l, (lits s).1 ≠ (lits l).1) → row (lits l).1 = 0 := h.1 _
  constructor
  · intro v hv
    beta_reduce
    rw [if_neg (fun e => hv l (by omega) e.symm)]
    exact h.1 v (fun s hs => hv s (by omega))
  · intro s hs
    by_cases e : (lits s).1 = (lits l).1
    · simp only [e, if_true]
      by_cases hlt : |row (lits l).1| < |p|
      · rw [if_pos hlt]
        refine ⟨⟨l, by omega, rfl, hp⟩, fun p' hp' => ?_⟩
        by_cases hsl : s = l
        · subst hsl; rw [push_unique hp hp']
        · have := (h.2 s (by omega)).2 p' hp'
          rw [e] at this
          exact this.trans hlt.le
      · rw [if_neg hlt]
        by_cases hex : ∃ t < l, (lits t).1 = (lits l).1
        · obtain ⟨t, ht, et⟩ := hex
          obtain ⟨⟨s', h1, h2, h3⟩, -⟩ := h.2 t ht
          rw [et] at h2 h3
          refine ⟨⟨s', by omega, h2, h3⟩, fun p' hp' => ?_⟩
          by_cases hsl : s = l
          · subst hsl; rw [push_unique hp' hp]; exact not_lt.mp hlt
          · have := (h.2 s (by omega)).2 p' hp'
            rwa [e] at this
        · push Not at hex
          have h0 := hz hex
          have hp0 : p = 0 := by
            rw [h0, abs_zero, not_lt] at hlt
            exact abs_nonpos_iff.mp hlt
          have hsl : s = l := by
            by_contra hne
            exact hex s (by omega) e
          refine ⟨⟨l, by omega, rfl, by rw [h0, ← hp0]; exact hp⟩, fun p' hp' => ?_⟩
          subst hsl
          rw [push_unique hp' hp, hp0, h0]
    · simp only [e, if_false]
      have hsl : s < l := by
        rcases Nat.lt_succ_iff_lt_or_eq.mp hs with h' | h'
        · exact h'
        · exact absurd (by rw [h']) e
      obtain ⟨⟨s', h1, h2, h3⟩, h4⟩ := h.2 s hsl
      exact ⟨⟨s', by omega, h2, h3⟩, h4⟩

/-- The whole update for clauses that may repeat variables. -/
theorem loose_update (hV : V.Is C n x) (ht : LooseTables C k n conx ty) (hk2 : 2 ≤ k) {old : Mat Num}
    (hr : old.rows = C) (hcc : old.cols = n) :
    ∃ out y, ksatToVariableUpdate C k V old conx ty = some out ∧ out.Is C n y ∧
      ∀ c < C, LooseRow k (litAt conx ty c) (x c) k (y c) := by
  obtain ⟨⟨f, b, out⟩, hst, -, -, -, -, hor, hoc, hod, -⟩ :=
    loopUp_inv (n := C) (body := ksatBody k V conx ty)
      (s := (Mat.fill (k + 1) 2 0, Mat.fill (k + 1) 2 0, Mat.fill old.rows old.cols 0))
      (fun i st => st.1.rows = k + 1 ∧ st.1.cols = 2 ∧ st.2.1.rows = k + 1 ∧ st.2.1.cols = 2 ∧
        st.2.2.rows = C ∧ st.2.2.cols = n ∧
        (∀ c < i, ∃ row : ℕ → ℚ, (∀ v, st.2.2.data c v = fin (row v)) ∧ LooseRow k (litAt conx ty c) (x c) k row) ∧
        ∀ c, i ≤ c → ∀ j, st.2.2.data c j = 0)
      ⟨rfl, rfl, rfl, rfl, hr, hcc, fun c hc => absurd hc (by omega), fun _ _ _ => rfl⟩
      (by
        rintro i hi ⟨f, b, out⟩ ⟨fr, fc, br, bc, or, oc, od, oz⟩
        simp only at fr fc br bc or oc od oz
        obtain ⟨f1, hf1, if1⟩ := kfwd_init (u := litVal x conx ty i) fr fc
        obtain ⟨f2, hf2, if2⟩ := loopUp_inv (n := k) (body := ksatFwdStage V conx ty i) (s := f1)
          (fun j f => KFwd k (litVal x conx ty i) j f) if1 (fun j hj f hf => loose_fwd hV ht hi hj hf)
        obtain ⟨b1, hb1, ib1⟩ := kbwd_init (u := litVal x conx ty i) br bc
        obtain ⟨b2, hb2, ib2⟩ := loopDown_inv (n := k) (body := ksatBwdStage k V conx ty i) (s := b1)
          (fun j f => KBwd k (litVal x conx ty i) j f) ib1 (fun j hj f hf => loose_bwd hV ht hi hj hf)
        obtain ⟨o, ho, ior, ioc, iod⟩ := loopUp_inv (n := k) (body := ksatOut k V conx ty f2 b2 i) (s := out)
          (fun l o => o.rows = C ∧ o.cols = n ∧ (∀ c ≠ i, ∀ j, o.data c j = out.data c j) ∧
            ∃ row : ℕ → ℚ, (∀ v, o.data i v = fin (row v)) ∧ LooseRow k (litAt conx ty i) (x i) l row)
          ⟨or, oc, fun _ _ _ => rfl, fun _ => 0, fun v => oz i (le_refl _) v, fun _ _ => rfl, fun t ht => absurd ht (by omega)⟩
          (by
            rintro l hl o ⟨h1, h2, h3, row, h4, h5⟩
            obtain ⟨p, hp, o', ho', g1, g2, g3⟩ := loose_out hV ht hk2 hi hl if2 ib2 h1 h2 (h4 _)
            refine ⟨o', ho', g1, g2, ?_, _, ?_, looseRow_step h5 hp⟩
            · intro c hc j
              rw [g3, if_neg (fun h => hc h.1), h3 c hc]
            · intro v
              rw [g3]
              by_cases e : v = conx.data i l
              · rw [if_pos ⟨rfl, e⟩, if_pos (show v = (litAt conx ty i l).1 from e), e]
              · rw [if_neg (fun h => e h.2), if_neg (show ¬ v = (litAt conx ty i l).1 from e), h4])
        obtain ⟨i1, row, i2, i3⟩ := iod
        refine ⟨(f2, b2, o), by simp [ksatBody, hf1, hf2, hb1, hb2, ho], if2.1, if2.2.1, ib2.1, ib2.2.1, ior, ioc, ?_, ?_⟩
        · intro c hc
          by_cases hci : c = i
          · subst hci; exact ⟨row, i2, i3⟩
          · obtain ⟨row', h6, h7⟩ := od c (by omega)
            exact ⟨row', fun v => by rw [i1 c hci]; exact h6 v, h7⟩
        · intro c hc j
          rw [i1 c (by omega), oz c (by omega)])
  choose! y hy using hod
  exact ⟨out, y, by simp only [ksatToVariableUpdate]; rw [hst]; rfl, ⟨hor, hoc, fun c hc v _ => (hy c hc).1 v⟩, fun c hc => (hy c hc).2⟩

end

section exact
open Classical in
theorem sum_sub_filter {R S : Finset ℕ} (h : S ⊆ R) (z : ℕ → ℚ) : S.sum z = ∑ u ∈ R, if u ∈ S then z u else 0 := by
  rw [← Finset.sum_filter]
  congr 1
  ext u
  simp only [Finset.mem_filter]
  exact ⟨fun hu => ⟨h hu, hu⟩, fun hu => hu.2⟩

theorem free_le {R S : Finset ℕ} (h : S ⊆ R) (z : ℕ → ℚ) : ∑ u ∈ R, min 0 (z u) ≤ S.sum z := by
  rw [sum_sub_filter h]
  refine Finset.sum_le_sum fun u _ => ?_
  split_ifs
  · exact min_le_right _ _
  · exact min_le_left _ _

/-- The literal `l` holds in `S`. -/
def litTrue (l : ℕ × ℤ) (S : Finset ℕ) : Prop := (l.2 = 1 ∧ l.1 ∈ S) ∨ (l.2 = -1 ∧ l.1 ∉ S)

theorem lit_le {R S : Finset ℕ} (h : S ⊆ R) (z : ℕ → ℚ) {l : ℕ × ℤ} (hl : l.1 ∈ R) (ht : litTrue l S) :
    (∑ u ∈ R, min 0 (z u)) + max 0 (litCost z l) ≤ S.sum z := by
  rw [sum_sub_filter h, ← sub_nonneg, ← sub_sub, ← Finset.sum_sub_distrib, sub_nonneg]
  have hn : ∀ u ∈ R, 0 ≤ (if u ∈ S then z u else 0) - min 0 (z u) := by
    intro u _
    split_ifs
    · exact sub_nonneg.mpr (min_le_right _ _)
    · exact sub_nonneg.mpr (min_le_left _ _)
  refine le_trans ?_ (Finset.single_le_sum hn hl)
  rcases ht with ⟨h1, h2⟩ | ⟨h1, h2⟩
  · simp only [if_pos h2, litCost, h1]
    rcases le_total 0 (z l.1) with h | h
    · rw [min_eq_left h]; simp [h]
    · rw [min_eq_right h]; simp [h]
  · simp only [if_neg h2, litCost, h1]
    rcases le_total 0 (z l.1) with h | h
    · rw [min_eq_left h]; simp [h]
    · rw [min_eq_right h]; simp [h]

theorem free_attained (R : Finset ℕ) (z : ℕ → ℚ) : ∃ S ⊆ R, S.sum z = ∑ u ∈ R, min 0 (z u) := by
  refine ⟨R.filter fun u => z u < 0, Finset.filter_subset _ _, ?_⟩
  rw [Finset.sum_filter]
  refine Finset.sum_congr rfl fun u _ => ?_
  split_ifs with h
  · rw [min_eq_right h.le]
  · rw [min_eq_left (not_lt.mp h)]

theorem lit_attained {R : Finset ℕ} (z : ℕ → ℚ) {l : ℕ × ℤ} (hl : l.1 ∈ R) (hs : l.2 = 1 ∨ l.2 = -1) :
    ∃ S ⊆ R, litTrue l S ∧ S.sum z = (∑ u ∈ R, min 0 (z u)) + max 0 (litCost z l) := by
  classical
  refine ⟨R.filter fun u => if u = l.1 then l.2 = 1 else z u < 0, Finset.filter_subset _ _, ?_, ?_⟩
  · rcases hs with h | h
    · left; exact ⟨h, by simp [hl, h]⟩
    · right; exact ⟨h, by simp [h]⟩
  · rw [Finset.sum_filter]
    have e : max 0 (litCost z l) = ∑ u ∈ R, if u = l.1 then max 0 (litCost z l) else 0 := by
      rw [Finset.sum_ite_eq' R l.1, if_pos hl]
    rw [e, ← Finset.sum_add_distrib]
    refine Finset.sum_congr rfl fun u _ => ?_
    by_cases hu : u = l.1
    · subst hu
      rcases hs with h | h
      · simp only [if_true, h, litCost]
        rcases le_total 0 (z l.1) with g | g
        · simp [g]
        · simp [g]
      · simp only [if_true, h, litCost]
        rcases le_total 0 (z l.1) with g | g
        · simp [g]
        · simp [g]
    · simp only [if_neg hu, add_zero]
      by_cases g : z u < 0
      · rw [if_pos g, min_eq_right g.le]
      · rw [if_neg g, min_eq_left (not_lt.mp g)]

/-- A literal whose variable occurs nowhere else in the clause: its push is the exact message, whatever the other literals are. -/
theorem push_exact {k : ℕ} {v : ℕ → ℕ} {ty : ℕ → ℤ} (hty : ∀ j < k, ty j = 1 ∨ ty j = -1) {s : ℕ} (hs : s < k)
    (hone : ∀ j < k, j ≠ s → v j ≠ v s) {z : ℕ → ℚ} {p : ℚ} (hp : IsPush k (fun j => (v j, ty j)) z s p) :
    IsMessage (clauseVars k v) (ClauseSat k v ty) z (v s) (fin p) := by
  obtain ⟨q, ⟨⟨j0, hj0, hjs, hjq⟩, hlow⟩, hpq⟩ := hp
  have hsv : v s ∈ clauseVars k v := Finset.mem_image.mpr ⟨s, Finset.mem_range.mpr hs, rfl⟩
  have hjv : ∀ j < k, j ≠ s → v j ∈ (clauseVars k v).erase (v s) := fun j hj hne =>
    Finset.mem_erase.mpr ⟨hone j hj hne, Finset.mem_image.mpr ⟨j, Finset.mem_range.mpr hj, rfl⟩⟩
  generalize hR : (clauseVars k v).erase (v s) = R at hjv
  have hRV : R ⊆ clauseVars k v := hR ▸ Finset.erase_subset _ _
  have hRs : v s ∉ R := hR ▸ Finset.notMem_erase _ _
  set F := ∑ u ∈ R, min 0 (z u) with hF
  obtain ⟨S0, s1, s2⟩ := free_attained R z
  obtain ⟨S1, t1, t2, t3⟩ := lit_attained z (l := (v j0, ty j0)) (hjv j0 hj0 hjs) (hty j0 hj0)
  rw [hjq] at t3
  have hins : ∀ S ⊆ R, insert (v s) S ⊆ clauseVars k v := fun S h => Finset.insert_subset hsv (h.trans hRV)
  have hinsum : ∀ S ⊆ R, cost z (insert (v s) S) = z (v s) + S.sum z := fun S h => Finset.sum_insert fun e => hRs (h e)
  -- a set without `v s`
  have hout : ∀ S ⊆ clauseVars k v, v s ∉ S → S ⊆ R := fun S h hn u hu => by
    rw [← hR]; exact Finset.mem_erase.mpr ⟨fun e => hn (e ▸ hu), h hu⟩
  have hin : ∀ S ⊆ clauseVars k v, v s ∈ S → S.erase (v s) ⊆ R ∧ cost z S = z (v s) + (S.erase (v s)).sum z := fun S h hm =>
    ⟨hR ▸ Finset.erase_subset_erase _ h, (Finset.add_sum_erase S z hm).symm⟩
  have hlit : ∀ S ⊆ R, ∀ j < k, j ≠ s → litTrue (v j, ty j) S → F + max 0 q ≤ S.sum z := fun S h j hj hne hl =>
    le_trans (by gcongr; exact hlow ⟨j, hj, hne, rfl⟩) (lit_le h z (hjv j hj hne) hl)
  rcases hty s hs with h1 | h1
  · refine ⟨fin (z (v s) + F), fin (F + max 0 q), Or.inr ⟨_, rfl, ?_, ?_⟩, Or.inr ⟨_, rfl, ?_, ?_⟩, ?_⟩
    · exact ⟨insert (v s) S0, hins _ s1, ⟨s, hs, Or.inl ⟨h1, Finset.mem_insert_self _ _⟩⟩, Finset.mem_insert_self _ _, by rw [hinsum _ s1, s2]⟩
    · rintro _ ⟨S, g1, -, g3, rfl⟩
      obtain ⟨e1, e2⟩ := hin S g1 g3
      rw [e2]
      exact add_le_add le_rfl (free_le e1 z)
    · exact ⟨S1, t1.trans hRV, ⟨j0, hj0, t2⟩, fun e => hRs (t1 e), t3⟩
    · rintro _ ⟨S, g1, ⟨j, hj, hl⟩, g3, rfl⟩
      have hne : j ≠ s := by
        rintro rfl
        rcases hl with ⟨-, hl⟩ | ⟨hl, -⟩
        · exact g3 hl
        · rw [h1] at hl; exact absurd hl (by decide)
      exact hlit S (hout S g1 g3) j hj hne hl
    · simp only [hpq, h1]
      simp only [fin_sub]
      congr 1
      push_cast; ring
  · refine ⟨fin (z (v s) + (F + max 0 q)), fin F, Or.inr ⟨_, rfl, ?_, ?_⟩, Or.inr ⟨_, rfl, ?_, ?_⟩, ?_⟩
    · refine ⟨insert (v s) S1, hins _ t1, ⟨j0, hj0, ?_⟩, Finset.mem_insert_self _ _, by rw [hinsum _ t1, t3]⟩
      rcases t2 with ⟨g, g'⟩ | ⟨g, g'⟩
      · exact Or.inl ⟨g, Finset.mem_insert_of_mem g'⟩
      · exact Or.inr ⟨g, fun e => by rcases Finset.mem_insert.mp e with e | e
                                     · exact hone j0 hj0 hjs e
                                     · exact g' e⟩
    · rintro _ ⟨S, g1, ⟨j, hj, hl⟩, g3, rfl⟩
      have hne : j ≠ s := by
        rintro rfl
        rcases hl with ⟨hl, -⟩ | ⟨-, hl⟩
        · rw [h1] at hl; exact absurd hl (by decide)
        · exact hl g3
      obtain ⟨e1, e2⟩ := hin S g1 g3
      rw [e2]
      refine add_le_add le_rfl (hlit _ e1 j hj hne ?_)
      rcases hl with ⟨g, g'⟩ | ⟨g, g'⟩
      · exact Or.inl ⟨g, Finset.mem_erase.mpr ⟨hone j hj hne, g'⟩⟩
      · exact Or.inr ⟨g, fun e => g' (Finset.mem_of_mem_erase e)⟩
    · exact ⟨S0, s1.trans hRV, ⟨s, hs, Or.inr ⟨h1, fun e => hRs (s1 e)⟩⟩, fun e => hRs (s1 e), s2⟩
    · rintro _ ⟨S, g1, -, g3, rfl⟩
      exact free_le (hout S g1 g3) z
    · simp only [hpq, h1]
      simp only [fin_sub]
      congr 1
      push_cast; ring

end exact

section run
variable {inp : KsatInputs} {w : ℕ → ℚ} {c0 v0 m : ℕ} {σ : ℤ}

/-- What one iteration does to the message between a clause that only consists of the literal `(v0, σ)` and its variable. -/
structure RepStep (inp : KsatInputs) (w : ℕ → ℚ) (c0 v0 m : ℕ) (σ : ℤ) (j : ℕ) (s s' : KsatState) : Prop where
  k2v : s'.k2v.val c0 v0 = dampStep inp.flag inp.alpha j (-(max 0 (s.v2k.val c0 v0 * (σ : ℚ))) * (σ : ℚ)) (s.k2v.val c0 v0)
  other : (∀ c < inp.numConstraints, c ≠ c0 → s.k2v.val c v0 = 0) → ∀ c < inp.numConstraints, c ≠ c0 → s'.k2v.val c v0 = 0
  v2k : s'.v2k.val c0 v0 = w v0 + (m - 1) * s'.k2v.val c0 v0

theorem repIter_step (ht : LooseTables inp.numConstraints inp.k inp.numVars inp.conx inp.conxType) (hk : 2 ≤ inp.k)
    (hw : inp.cost.Is inp.numVars w) (hu : ∀ v ∈ inp.used, v < inp.numVars) (hl : inp.conns.length = inp.numVars)
    (hcl : ∀ l ∈ inp.conns, ∀ c ∈ l, c < inp.numConstraints) (hc0 : c0 < inp.numConstraints)
    (hlit : ∀ s < inp.k, inp.conx.data c0 s = v0 ∧ inp.conxType.data c0 s = σ)
    (honly : ∀ c < inp.numConstraints, c ≠ c0 → ∀ s < inp.k, inp.conx.data c s ≠ v0) (hv0 : v0 ∈ inp.used)
    (hm : inp.conns.getD v0 [] = List.replicate m c0) (hm0 : m ≠ 0) {j : ℕ} {s : KsatState} (h : KsatInv inp j s) :
    ∃ s', ksatIter inp j s = some s' ∧ KsatInv inp (j + 1) s' ∧ RepStep inp w c0 v0 m σ j s s' := by
  obtain ⟨d, y, d1, d2, d3⟩ := loose_update h.v2k ht hk h.dummy_rows h.dummy_cols
  obtain ⟨⟨u, o⟩, f1, f2, f3, f4, f5⟩ := processFiltering_step (flag := inp.flag) (alpha := inp.alpha) (k := j)
    (s := (s.k2v, s.old)) d2 h.k2v.1 h.k2v.2.1 (by rw [h.old_rows]) h.old_cols (p := s.k2v.val) (fun a b c hc v hv => h.mem a b c hc v hv)
  simp only at f2 f3 f4 f5
  obtain ⟨V, v1, v2⟩ := variableToKsat_is f2 h.v2k.1 h.v2k.2.1 hu hl hcl hw
  have hv0n := hu v0 hv0
  have hy0 : y c0 v0 = -(max 0 (s.v2k.val c0 v0 * (σ : ℚ))) * (σ : ℚ) := by
    obtain ⟨⟨s', hs', -, q, ⟨⟨i, hi, -, hq⟩, -⟩, hp⟩, -⟩ := (d3 c0 hc0).2 0 (by omega)
    simp only [litAt, litCost, (hlit i hi).1, (hlit i hi).2, (hlit s' hs').1, (hlit s' hs').2, (hlit 0 (by omega)).1] at hq hp
    rw [hp, ← hq]
  refine ⟨⟨V, d, u, o⟩, ?_, ⟨v2.self, f2.self, d2.1, d2.2.1, by rw [f3, h.old_rows], f4, ?_⟩, ⟨?_, ?_, ?_⟩⟩
  · simp only [ksatIter, d1, f1, v1, Option.bind_eq_bind, Option.bind_some]
  · intro _ hf c hc v hv
    rw [f5 hf c hc v hv]
    exact f2.self.2.2 c hc v hv
  · show u.val c0 v0 = _
    rw [f2.val hc0 hv0n, hy0]
  · intro hz c hc hne
    show u.val c v0 = 0
    rw [f2.val hc hv0n, (d3 c hc).1 v0 (fun s hs => honly c hc hne s hs), hz c hc hne]
    simp [dampStep]
  · show V.val c0 v0 = w v0 + (m - 1) * u.val c0 v0
    rw [v2.val hc0 hv0n, f2.val hc0 hv0n, if_pos ⟨hv0, by rw [hm]; simp [hm0]⟩, hm, List.map_replicate, List.sum_replicate, nsmul_eq_mul]
    ring

theorem rep_run (ht : LooseTables inp.numConstraints inp.k inp.numVars inp.conx inp.conxType) (hk : 2 ≤ inp.k)
    (hw : inp.cost.Is inp.numVars w) (hu : ∀ v ∈ inp.used, v < inp.numVars) (hl : inp.conns.length = inp.numVars)
    (hcl : ∀ l ∈ inp.conns, ∀ c ∈ l, c < inp.numConstraints) (hc0 : c0 < inp.numConstraints)
    (hlit : ∀ s < inp.k, inp.conx.data c0 s = v0 ∧ inp.conxType.data c0 s = σ)
    (honly : ∀ c < inp.numConstraints, c ≠ c0 → ∀ s < inp.k, inp.conx.data c s ≠ v0) (hv0 : v0 ∈ inp.used)
    (hm : inp.conns.getD v0 [] = List.replicate m c0) (hm0 : m ≠ 0)
    {V : Mat Num} {x0 : ℕ → ℕ → ℚ} (hV : V.Is inp.numConstraints inp.numVars x0) :
    ∃ x y : ℕ → ℚ, x 0 = x0 c0 v0 ∧ y 0 = 0 ∧
      (∀ j, y (j + 1) = dampStep inp.flag inp.alpha j (-(max 0 (x j * (σ : ℚ))) * (σ : ℚ)) (y j) ∧ x (j + 1) = w v0 + (m - 1) * y (j + 1)) ∧
      ∀ K, ∃ out g, ksatSolve inp V K = some out ∧ out.Is inp.numVars g ∧ g v0 = y K := by
  obtain ⟨st, s0, hst⟩ := loop_trace (body := ksatIter inp) (s0 := ksatInit inp V) (KsatInv inp) (RepStep inp w c0 v0 m σ)
    ⟨hV.self, ⟨rfl, rfl, fun _ _ _ _ => rfl⟩, rfl, rfl, rfl, rfl, fun h => absurd rfl h⟩
    (fun j s h => repIter_step ht hk hw hu hl hcl hc0 hlit honly hv0 hm hm0 h)
  have hv0n := hu v0 hv0
  refine ⟨fun j => (st j).v2k.val c0 v0, fun j => (st j).k2v.val c0 v0, ?_, ?_, fun j => ⟨(hst j).2.2.k2v, (hst j).2.2.v2k⟩, fun K => ?_⟩
  · simp only [s0]; exact hV.val hc0 hv0n
  · simp only [s0]; rfl
  · obtain ⟨out, o1, o2⟩ := ksatExtrinsic_is (hst K).2.1.k2v (Arr.fill_is inp.numVars 0)
    refine ⟨out, _, ?_, o2, ?_⟩
    · simp only [ksatSolve, ksatIterate, (hst K).1, Option.bind_eq_bind, Option.bind_some]
      rw [show (Arr.fill inp.numVars (0 : Num)) = Arr.fill inp.numVars (fin 0) from rfl, o1]
      rfl
    · have hz : ∀ K, ∀ c < inp.numConstraints, c ≠ c0 → (st K).k2v.val c v0 = 0 := by
        intro K
        induction K with
        | zero => intro c _ _; rw [s0]; rfl
        | succ K ih => exact (hst K).2.2.other ih
      beta_reduce
      rw [zero_add, Finset.sum_eq_single c0 (fun c hc hne => hz K c (Finset.mem_range.mp hc) hne)
        (fun h => absurd (Finset.mem_range.mpr hc0) h)]

end run

section lone
variable {inp : KsatInputs} {w : ℕ → ℚ} {c0 : ℕ} {m : ℕ → ℕ}

theorem loneIter_step (ht : LooseTables inp.numConstraints inp.k inp.numVars inp.conx inp.conxType) (hk : 2 ≤ inp.k)
    (hw : inp.cost.Is inp.numVars w) (hu : ∀ v ∈ inp.used, v < inp.numVars) (hl : inp.conns.length = inp.numVars)
    (hcl : ∀ l ∈ inp.conns, ∀ c ∈ l, c < inp.numConstraints) (hc0 : c0 < inp.numConstraints)
    (honly : ∀ c < inp.numConstraints, c ≠ c0 → ∀ s < inp.k, ∀ t < inp.k, inp.conx.data c s ≠ inp.conx.data c0 t)
    (hused : ∀ t < inp.k, inp.conx.data c0 t ∈ inp.used)
    (hm : ∀ t < inp.k, inp.conns.getD (inp.conx.data c0 t) [] = List.replicate (m (inp.conx.data c0 t)) c0)
    (hm0 : ∀ t < inp.k, m (inp.conx.data c0 t) ≠ 0) (ha : ¬ (inp.flag = true ∧ inp.alpha ≠ 0)) {j : ℕ} {s : KsatState} (h : KsatInv inp j s) :
    ∃ s', ksatIter inp j s = some s' ∧ KsatInv inp (j + 1) s' ∧ ∃ y, (∀ v < inp.numVars, s'.k2v.val c0 v = y v) ∧
      LooseRow inp.k (litAt inp.conx inp.conxType c0) (s.v2k.val c0) inp.k y ∧
      (∀ c < inp.numConstraints, c ≠ c0 → ∀ t < inp.k, s'.k2v.val c (inp.conx.data c0 t) = 0) ∧
      ∀ t < inp.k, s'.v2k.val c0 (inp.conx.data c0 t) = w (inp.conx.data c0 t) + (m (inp.conx.data c0 t) - 1) * y (inp.conx.data c0 t) := by
  obtain ⟨d, y, d1, d2, d3⟩ := loose_update h.v2k ht hk h.dummy_rows h.dummy_cols
  obtain ⟨⟨u, o⟩, f1, f2, f3, f4, f5⟩ := processFiltering_step (flag := inp.flag) (alpha := inp.alpha) (k := j)
    (s := (s.k2v, s.old)) d2 h.k2v.1 h.k2v.2.1 (by rw [h.old_rows]) h.old_cols (p := s.k2v.val) (fun a b c hc v hv => h.mem a b c hc v hv)
  simp only at f2 f3 f4 f5
  obtain ⟨V, v1, v2⟩ := variableToKsat_is f2 h.v2k.1 h.v2k.2.1 hu hl hcl hw
  have hval : ∀ c < inp.numConstraints, ∀ v < inp.numVars, u.val c v = y c v := fun c hc v hv => by
    rw [f2.val hc hv, dampStep, if_neg ha]
  refine ⟨⟨V, d, u, o⟩, ?_, ⟨v2.self, f2.self, d2.1, d2.2.1, by rw [f3, h.old_rows], f4, ?_⟩, y c0, fun v hv => hval c0 hc0 v hv, d3 c0 hc0, ?_, ?_⟩
  · simp only [ksatIter, d1, f1, v1, Option.bind_eq_bind, Option.bind_some]
  · intro _ hf c hc v hv
    rw [f5 hf c hc v hv]
    exact f2.self.2.2 c hc v hv
  · intro c hc hne t ht'
    show u.val c _ = 0
    rw [hval c hc _ (ht.conx_lt c0 hc0 t ht')]
    exact (d3 c hc).1 _ (fun s hs => honly c hc hne s hs t ht')
  · intro t ht'
    have hvn := ht.conx_lt c0 hc0 t ht'
    show V.val c0 _ = _
    rw [v2.val hc0 hvn, if_pos ⟨hused t ht', by rw [hm t ht']; simp [hm0 t ht']⟩, hm t ht', List.map_replicate, List.sum_replicate, nsmul_eq_mul]
    rw [dampStep, if_neg ha]
    ring

/-- Undamped runs: if the cheapest literal of the clause is repeated, the messages from the clause are zero after every even number of iterations. -/
theorem lone_run (ht : LooseTables inp.numConstraints inp.k inp.numVars inp.conx inp.conxType) (hk : 2 ≤ inp.k)
    (hw : inp.cost.Is inp.numVars w) (hu : ∀ v ∈ inp.used, v < inp.numVars) (hl : inp.conns.length = inp.numVars)
    (hcl : ∀ l ∈ inp.conns, ∀ c ∈ l, c < inp.numConstraints) (hc0 : c0 < inp.numConstraints)
    (honly : ∀ c < inp.numConstraints, c ≠ c0 → ∀ s < inp.k, ∀ t < inp.k, inp.conx.data c s ≠ inp.conx.data c0 t)
    (hused : ∀ t < inp.k, inp.conx.data c0 t ∈ inp.used)
    (hm : ∀ t < inp.k, inp.conns.getD (inp.conx.data c0 t) [] = List.replicate (m (inp.conx.data c0 t)) c0)
    (hm0 : ∀ t < inp.k, m (inp.conx.data c0 t) ≠ 0) (ha : ¬ (inp.flag = true ∧ inp.alpha ≠ 0))
    (hsame : ∀ s < inp.k, ∀ t < inp.k, inp.conx.data c0 s = inp.conx.data c0 t → inp.conxType.data c0 s = inp.conxType.data c0 t)
    {a b : ℕ} (hak : a < inp.k) (hbk : b < inp.k) (hab : a ≠ b) (habv : inp.conx.data c0 a = inp.conx.data c0 b)
    (hma : 2 ≤ m (inp.conx.data c0 a)) (hpos : 0 ≤ litCost w (litAt inp.conx inp.conxType c0 a))
    (hmin : ∀ t < inp.k, litCost w (litAt inp.conx inp.conxType c0 a) ≤ litCost w (litAt inp.conx inp.conxType c0 t))
    {V : Mat Num} {x0 : ℕ → ℕ → ℚ} (hV : V.Is inp.numConstraints inp.numVars x0)
    (hx0 : ∀ t < inp.k, x0 c0 (inp.conx.data c0 t) = w (inp.conx.data c0 t)) {K : ℕ} (hK : Even K) :
    ∃ out g, ksatSolve inp V K = some out ∧ out.Is inp.numVars g ∧ ∀ t < inp.k, g (inp.conx.data c0 t) = 0 := by
  have hlt : ∀ t < inp.k, inp.conx.data c0 t < inp.numVars := fun t h => ht.conx_lt c0 hc0 t h
  obtain ⟨st, s0, hst⟩ := loop_trace (body := ksatIter inp) (s0 := ksatInit inp V)
    (fun j s => KsatInv inp j s ∧ (∀ c < inp.numConstraints, c ≠ c0 → ∀ t < inp.k, s.k2v.val c (inp.conx.data c0 t) = 0) ∧
      (Even j → ∀ t < inp.k, s.k2v.val c0 (inp.conx.data c0 t) = 0 ∧ s.v2k.val c0 (inp.conx.data c0 t) = w (inp.conx.data c0 t)) ∧
      (¬ Even j → litCost (s.v2k.val c0) (litAt inp.conx inp.conxType c0 a) ≤ 0)) (fun _ _ _ => True)
    ⟨⟨hV.self, ⟨rfl, rfl, fun _ _ _ _ => rfl⟩, rfl, rfl, rfl, rfl, fun h => absurd rfl h⟩, fun _ _ _ _ _ => rfl,
      fun _ t h => ⟨rfl, (hV.val hc0 (hlt t h)).trans (hx0 t h)⟩, fun h => absurd (by simp) h⟩
    (by
      rintro j s ⟨hinv, -, heven, hodd⟩
      obtain ⟨s', e1, e2, y, e3, e4, e5, e6⟩ := loneIter_step ht hk hw hu hl hcl hc0 honly hused hm hm0 ha hinv
      refine ⟨s', e1, ⟨e2, e5, ?_, ?_⟩, trivial⟩
      · intro hj t htk
        rw [Nat.even_add_one] at hj
        have hx := hodd hj
        have hy : y (inp.conx.data c0 t) = 0 := by
          obtain ⟨⟨s1, hs1, -, q, ⟨-, hlow⟩, hp⟩, -⟩ := e4.2 t htk
          have hq : q ≤ 0 := by
            by_cases h : a = s1
            · refine le_trans (hlow ⟨b, hbk, fun e => hab (h.trans e.symm), rfl⟩) ?_
              have : litAt inp.conx inp.conxType c0 b = litAt inp.conx inp.conxType c0 a := by
                simp only [litAt, habv, hsame a hak b hbk habv]
              rw [this]; exact hx
            · exact le_trans (hlow ⟨a, hak, h, rfl⟩) hx
          rw [max_eq_left hq, neg_zero, zero_mul] at hp
          exact hp
        refine ⟨(e3 _ (hlt t htk)).trans hy, ?_⟩
        rw [e6 t htk, hy, mul_zero, add_zero]
      · intro hj
        rw [Nat.even_add_one, not_not] at hj
        have hx : ∀ t < inp.k, litCost (s.v2k.val c0) (litAt inp.conx inp.conxType c0 t) = litCost w (litAt inp.conx inp.conxType c0 t) := by
          intro t htk
          simp only [litCost, litAt, (heven hj t htk).2]
        have hs : (inp.conxType.data c0 a : ℚ) * (inp.conxType.data c0 a : ℚ) = 1 := by
          rcases ht.sign c0 hc0 a hak with e | e <;> rw [e] <;> norm_num
        have hy : y (inp.conx.data c0 a) = -(w (inp.conx.data c0 a)) := by
          obtain ⟨⟨s1, hs1, hv1, q, ⟨⟨i, hi, -, hiq⟩, hlow⟩, hp⟩, -⟩ := e4.2 a hak
          have hq : q = litCost w (litAt inp.conx inp.conxType c0 a) := by
            refine le_antisymm ?_ ?_
            · by_cases h : a = s1
              · have := hlow ⟨b, hbk, fun e => hab (h.trans e.symm), rfl⟩
                rw [hx b hbk] at this
                have e : litAt inp.conx inp.conxType c0 b = litAt inp.conx inp.conxType c0 a := by
                  simp only [litAt, habv, hsame a hak b hbk habv]
                rwa [e] at this
              · have := hlow ⟨a, hak, h, rfl⟩
                rwa [hx a hak] at this
            · rw [← hiq, hx i hi]; exact hmin i hi
          have hsg : (litAt inp.conx inp.conxType c0 s1).2 = inp.conxType.data c0 a := hsame s1 hs1 a hak hv1
          have hv : (litAt inp.conx inp.conxType c0 a).1 = inp.conx.data c0 a := rfl
          rw [hq, max_eq_right hpos, hsg, hv] at hp
          rw [hp, litCost]
          show -(w (inp.conx.data c0 a) * (inp.conxType.data c0 a : ℚ)) * (inp.conxType.data c0 a : ℚ) = _
          linear_combination -(w (inp.conx.data c0 a)) * hs
        show s'.v2k.val c0 (inp.conx.data c0 a) * (inp.conxType.data c0 a : ℚ) ≤ 0
        rw [e6 a hak, hy]
        have hm2 : (0 : ℚ) ≤ (m (inp.conx.data c0 a) : ℚ) - 2 := by
          have : (2 : ℚ) ≤ (m (inp.conx.data c0 a) : ℚ) := by exact_mod_cast hma
          linarith
        have := mul_nonneg hm2 hpos
        simp only [litCost, litAt] at this
        nlinarith)
  obtain ⟨h1, ⟨h2, h3, h4, -⟩, -⟩ := hst K
  obtain ⟨out, o1, o2⟩ := ksatExtrinsic_is h2.k2v (Arr.fill_is inp.numVars 0)
  refine ⟨out, _, ?_, o2, fun t htk => ?_⟩
  · simp only [ksatSolve, ksatIterate, h1, Option.bind_eq_bind, Option.bind_some]
    rw [show (Arr.fill inp.numVars (0 : Num)) = Arr.fill inp.numVars (fin 0) from rfl, o1]
    rfl
  · rw [zero_add, Finset.sum_eq_zero]
    intro c hc
    by_cases e : c = c0
    · rw [e]; exact (h4 hK t htk).1
    · exact h3 c (Finset.mem_range.mp hc) e t htk

end lone

end Verif.Proofs
