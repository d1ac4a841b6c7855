import Verif.Spec.Forbidden
import Verif.Proofs.InfRun
import Verif.Proofs.TspOptimal

/-! With infinite costs, messages of the edges of a cycle cover are bounded above and the others below. -/

namespace Verif.Proofs
open Verif Num Model Spec

/-- Infinite or finite and at least `q`. -/
def AtLeast (q : ℚ) (x : Num) : Prop := x = pinf ∨ ∃ p, x = fin p ∧ q ≤ p
/-- Minus infinity or finite and at most `q`. -/
def AtMost (q : ℚ) (x : Num) : Prop := x = ninf ∨ ∃ p, x = fin p ∧ p ≤ q

theorem AtLeast.mono {q q' : ℚ} {x : Num} (h : AtLeast q x) (hq : q' ≤ q) : AtLeast q' x :=
  h.imp_right fun ⟨p, h1, h2⟩ => ⟨p, h1, hq.trans h2⟩
theorem AtMost.mono {q q' : ℚ} {x : Num} (h : AtMost q x) (hq : q ≤ q') : AtMost q' x :=
  h.imp_right fun ⟨p, h1, h2⟩ => ⟨p, h1, h2.trans hq⟩
theorem AtLeast.ne {q : ℚ} {x : Num} (h : AtLeast q x) : x ≠ nan := by
  rcases h with rfl | ⟨p, rfl, -⟩ <;> simp
theorem AtMost.ne {q : ℚ} {x : Num} (h : AtMost q x) : x ≠ nan := by
  rcases h with rfl | ⟨p, rfl, -⟩ <;> simp
theorem AtLeast.neg {q : ℚ} {x : Num} (h : AtLeast q x) : AtMost (-q) (-x) := by
  rcases h with rfl | ⟨p, rfl, h⟩
  · exact Or.inl rfl
  · exact Or.inr ⟨-p, rfl, by linarith⟩
theorem AtMost.neg {q : ℚ} {x : Num} (h : AtMost q x) : AtLeast (-q) (-x) := by
  rcases h with rfl | ⟨p, rfl, h⟩
  · exact Or.inl rfl
  · exact Or.inr ⟨-p, rfl, by linarith⟩
theorem AtLeast.add {q r : ℚ} {x y : Num} (h : AtLeast q x) (h' : AtLeast r y) : AtLeast (q + r) (x + y) := by
  rcases h with rfl | ⟨p, rfl, h⟩ <;> rcases h' with rfl | ⟨p', rfl, h'⟩
  · exact Or.inl rfl
  · exact Or.inl rfl
  · exact Or.inl rfl
  · exact Or.inr ⟨p + p', rfl, by linarith⟩
theorem AtMost.add {q r : ℚ} {x y : Num} (h : AtMost q x) (h' : AtMost r y) : AtMost (q + r) (x + y) := by
  rcases h with rfl | ⟨p, rfl, h⟩ <;> rcases h' with rfl | ⟨p', rfl, h'⟩
  · exact Or.inl rfl
  · exact Or.inl rfl
  · exact Or.inl rfl
  · exact Or.inr ⟨p + p', rfl, by linarith⟩
theorem AtLeast.scale {q w : ℚ} {x : Num} (h : AtLeast q x) (hw : 0 < w) : AtLeast (w * q) (x * fin w) := by
  rcases h with rfl | ⟨p, rfl, h⟩
  · left; show infMul pinf w = pinf
    unfold infMul; rw [if_neg hw.ne', if_pos hw]
  · exact Or.inr ⟨p * w, rfl, by nlinarith⟩
theorem AtMost.scale {q w : ℚ} {x : Num} (h : AtMost q x) (hw : 0 < w) : AtMost (w * q) (x * fin w) := by
  rcases h with rfl | ⟨p, rfl, h⟩
  · left; show infMul ninf w = ninf
    unfold infMul; rw [if_neg hw.ne', if_pos hw]
  · exact Or.inr ⟨p * w, rfl, by nlinarith⟩
theorem atLeast_fin {q p : ℚ} : AtLeast q (fin p) ↔ q ≤ p := by simp [AtLeast]
theorem atMost_fin {q p : ℚ} : AtMost q (fin p) ↔ p ≤ q := by simp [AtMost]

/-- A minimum of numbers that are at least `q`. -/
theorem MinN.atLeast {S : Set Num} {w : Num} {q : ℚ} (h : MinN S w) (hS : ∀ s ∈ S, AtLeast q s) : AtLeast q w :=
  h.2.1.elim Or.inl (hS w)

/-- A minimum of numbers one of which is at most `q`. -/
theorem MinN.atMost {S : Set Num} {w s : Num} {q : ℚ} (h : MinN S w) (hs : s ∈ S) (hq : AtMost q s) : AtMost q w := by
  have h1 := h.2.2 s hs
  have h2 := h.1
  rcases hq with rfl | ⟨p, rfl, hp⟩
  · left; cases w <;> simp_all [lt]
  · cases w with
    | nan => exact absurd rfl h2
    | ninf => exact Or.inl rfl
    | pinf => simp [lt] at h1
    | fin z => exact Or.inr ⟨z, rfl, by simp only [lt_fin, decide_eq_false_iff_not, not_lt] at h1; linarith⟩

section
variable {flag : Bool} {alpha : ℚ}

theorem AtLeast.filter {j : ℕ} {d o : Num} {q p : ℚ} (hd : AtLeast q d) (ho : AtLeast p o) (h0 : j = 0 → o = fin 0) (r0 : 0 ≤ rate flag alpha)
    (r1 : rate flag alpha < 1) : AtLeast ((1 - rate flag alpha) * q + rate flag alpha * p) (filterVal flag alpha j d o) := by
  unfold filterVal
  by_cases hf : flag ∧ alpha ≠ 0
  · have hr : rate flag alpha = alpha := if_pos hf
    rw [if_pos hf]
    rw [hr] at r0 r1 ⊢
    have hα : 0 < alpha := lt_of_le_of_ne r0 (Ne.symm hf.2)
    have h1 : AtLeast _ (d * fin (1 - alpha)) := hd.scale (by linarith)
    split_ifs with hj
    · rw [h0 hj, atLeast_fin] at ho
      exact h1.mono (by nlinarith)
    · exact h1.add (ho.scale hα)
  · have hr : rate flag alpha = 0 := if_neg hf
    rw [if_neg hf, hr]
    exact hd.mono (by linarith)

theorem AtMost.filter {j : ℕ} {d o : Num} {q p : ℚ} (hd : AtMost q d) (ho : AtMost p o) (h0 : j = 0 → o = fin 0) (r0 : 0 ≤ rate flag alpha)
    (r1 : rate flag alpha < 1) : AtMost ((1 - rate flag alpha) * q + rate flag alpha * p) (filterVal flag alpha j d o) := by
  unfold filterVal
  by_cases hf : flag ∧ alpha ≠ 0
  · have hr : rate flag alpha = alpha := if_pos hf
    rw [if_pos hf]
    rw [hr] at r0 r1 ⊢
    have hα : 0 < alpha := lt_of_le_of_ne r0 (Ne.symm hf.2)
    have h1 : AtMost _ (d * fin (1 - alpha)) := hd.scale (by linarith)
    split_ifs with hj
    · rw [h0 hj, atMost_fin] at ho
      exact h1.mono (by nlinarith)
    · exact h1.add (ho.scale hα)
  · have hr : rate flag alpha = 0 := if_neg hf
    rw [if_neg hf, hr]
    exact hd.mono (by linarith)

theorem filterVal_zero {j : ℕ} : filterVal flag alpha j (fin 0) (fin 0) = fin 0 := by
  unfold filterVal
  split_ifs <;> simp

end

/-- Prices for a cycle cover that avoids the forbidden edges. -/
structure DualF (n : ℕ) (F : ℕ → ℕ → Bool) (C : ℕ → ℕ → ℚ) (next : ℕ → ℕ) (u v : ℕ → ℚ) (δ : ℚ) : Prop where
  cover : CycleCover n next
  avoid : Avoids n F next
  tight : ∀ i < n, C i (next i) = u i + v (next i)
  slack : ∀ i < n, ∀ j < n, j ≠ i → j ≠ next i → F i j = false → u i + v j + δ ≤ C i j

section
variable {inp : TspInputs} {F : ℕ → ℕ → Bool} {C : ℕ → ℕ → ℚ} {next : ℕ → ℕ} {u v : ℕ → ℚ} {δ : ℚ}

/-- What holds before iteration `j`. -/
structure InfInv (inp : TspInputs) (c : ℕ → ℕ → Num) (next : ℕ → ℕ) (u v : ℕ → ℚ) (j : ℕ) (a b : ℚ) (m : TspMsgs) : Prop where
  e2d_rows : m.e2d.rows = inp.numEdges
  e2d_cols : m.e2d.cols = inp.numNodes
  e2d_src : ∀ e < inp.numEdges, m.e2d.data e (src inp.edges e) = m.deg.data e (dst inp.edges e) + c (src inp.edges e) (dst inp.edges e)
  e2d_dst : ∀ e < inp.numEdges, m.e2d.data e (dst inp.edges e) = m.deg.data e (src inp.edges e) + c (src inp.edges e) (dst inp.edges e)
  dummy_rows : m.degDummy.rows = inp.numEdges
  dummy_cols : m.degDummy.cols = inp.numNodes
  dummy_off : ∀ e < inp.numEdges, ∀ z < inp.numNodes, z ≠ src inp.edges e → z ≠ dst inp.edges e → m.degDummy.data e z = fin 0
  deg_rows : m.deg.rows = inp.numEdges
  deg_cols : m.deg.cols = inp.numNodes
  deg_off : ∀ e < inp.numEdges, ∀ z < inp.numNodes, z ≠ src inp.edges e → z ≠ dst inp.edges e → m.deg.data e z = fin 0
  old_rows : m.degOld.rows = inp.numEdges
  old_cols : m.degOld.cols = inp.numNodes
  old_zero : j = 0 ∨ ¬ (inp.flag ∧ inp.alpha ≠ 0) → ∀ e < inp.numEdges, ∀ z < inp.numNodes, m.degOld.data e z = fin 0
  old : inp.flag ∧ inp.alpha ≠ 0 → ∀ e < inp.numEdges, ∀ z < inp.numNodes, m.degOld.data e z = m.deg.data e z
  non : ∀ e < inp.numEdges, dst inp.edges e ≠ next (src inp.edges e) →
    AtLeast (a - u (src inp.edges e)) (m.deg.data e (src inp.edges e)) ∧ AtLeast (a - v (dst inp.edges e)) (m.deg.data e (dst inp.edges e))
  cov : ∀ e < inp.numEdges, dst inp.edges e = next (src inp.edges e) →
    AtMost (-b - u (src inp.edges e)) (m.deg.data e (src inp.edges e)) ∧ AtMost (-b - v (dst inp.edges e)) (m.deg.data e (dst inp.edges e))

theorem forbid_cover (hd : DualF inp.numNodes F C next u v δ) {i : ℕ} (hi : i < inp.numNodes) :
    forbid F C i (next i) = fin (u i + v (next i)) := by
  unfold forbid
  rw [hd.avoid i hi, hd.tight i hi]; rfl

theorem forbid_other (hd : DualF inp.numNodes F C next u v δ) {i j : ℕ} (hi : i < inp.numNodes) (hj : j < inp.numNodes) (hne : j ≠ i)
    (hn : j ≠ next i) : AtLeast (u i + v j + δ) (forbid F C i j) := by
  unfold forbid
  cases hF : F i j
  · exact Or.inr ⟨_, rfl, hd.slack i hi j hj hne hn hF⟩
  · exact Or.inl rfl

theorem infStep (h : CostsOk inp (forbid F C)) (hd : DualF inp.numNodes F C next u v δ) (r0 : 0 ≤ rate inp.flag inp.alpha)
    (r1 : rate inp.flag inp.alpha < 1) {j : ℕ} {a b : ℚ} {m : TspMsgs} (hm : InfInv inp (forbid F C) next u v j a b m) :
    ∃ m', tspRelaxedIter inp j m = some m' ∧ InfInv inp (forbid F C) next u v (j + 1)
      (rate inp.flag inp.alpha * a + (1 - rate inp.flag inp.alpha) * b) ((1 - rate inp.flag inp.alpha) * (δ + a) + rate inp.flag inp.alpha * b) m' := by
  have hok := h.all.2.1
  have hlen := h.len
  have hlt : ∀ e < inp.numEdges, src inp.edges e < inp.numNodes ∧ dst inp.edges e < inp.numNodes ∧ src inp.edges e ≠ dst inp.edges e := by
    intro e he
    have := hok _ (List.getElem_mem (show e < inp.edges.length by omega))
    rw [src_dst (by omega)] at this
    exact this
  have hinj : ∀ e < inp.numEdges, ∀ e' < inp.numEdges, src inp.edges e = src inp.edges e' → dst inp.edges e = dst inp.edges e' → e = e' := by
    intro e he e' he' h2 h3
    refine (List.Nodup.getElem_inj_iff h.all.1 (hi := show e < inp.edges.length by omega) (hj := show e' < inp.edges.length by omega)).mp ?_
    rw [src_dst (by omega), src_dst (by omega), h2, h3]
  have hfind : ∀ i < inp.numNodes, ∃ e < inp.numEdges, src inp.edges e = i ∧ dst inp.edges e = next i := by
    intro i hi
    obtain ⟨e, he, h1, h2⟩ := edge_of_mem (h.all.2.2 i hi _ (hd.cover.lt i hi) (Ne.symm (hd.cover.ne i hi)))
    exact ⟨e, by omega, h1, h2⟩
  -- the values that are compared
  have xs_cov : ∀ e < inp.numEdges, dst inp.edges e = next (src inp.edges e) → AtMost (u (src inp.edges e) - b) (m.e2d.data e (src inp.edges e)) := by
    intro e he hn
    rw [hm.e2d_src e he, hn, forbid_cover hd (hlt e he).1, ← hn]
    exact ((hm.cov e he hn).2.add (atMost_fin.mpr le_rfl)).mono (by linarith)
  have xd_cov : ∀ e < inp.numEdges, dst inp.edges e = next (src inp.edges e) → AtMost (v (dst inp.edges e) - b) (m.e2d.data e (dst inp.edges e)) := by
    intro e he hn
    rw [hm.e2d_dst e he, hn, forbid_cover hd (hlt e he).1, ← hn]
    exact ((hm.cov e he hn).1.add (atMost_fin.mpr le_rfl)).mono (by linarith)
  have xs_non : ∀ e < inp.numEdges, dst inp.edges e ≠ next (src inp.edges e) → AtLeast (u (src inp.edges e) + (δ + a)) (m.e2d.data e (src inp.edges e)) := by
    intro e he hn
    rw [hm.e2d_src e he]
    exact ((hm.non e he hn).2.add (forbid_other hd (hlt e he).1 (hlt e he).2.1 (Ne.symm (hlt e he).2.2) hn)).mono (by linarith)
  have xd_non : ∀ e < inp.numEdges, dst inp.edges e ≠ next (src inp.edges e) → AtLeast (v (dst inp.edges e) + (δ + a)) (m.e2d.data e (dst inp.edges e)) := by
    intro e he hn
    rw [hm.e2d_dst e he]
    exact ((hm.non e he hn).1.add (forbid_other hd (hlt e he).1 (hlt e he).2.1 (Ne.symm (hlt e he).2.2) hn)).mono (by linarith)
  have ho : ∀ z < inp.numNodes, (outEdges inp.edges z).Nonempty := by
    intro z hz
    obtain ⟨e, he, h1, -⟩ := hfind z hz
    exact ⟨e, mem_out.mpr ⟨by omega, h1⟩⟩
  have hi : ∀ z < inp.numNodes, (inEdges inp.edges z).Nonempty := by
    intro z hz
    obtain ⟨k, hk, rfl⟩ := cover_surj hd.cover z hz
    obtain ⟨e, he, -, h1⟩ := hfind k hk
    exact ⟨e, mem_in.mpr ⟨by omega, h1⟩⟩
  have hnn : ∀ z < inp.numNodes, ∀ e, e ∈ outEdges inp.edges z ∨ e ∈ inEdges inp.edges z → m.e2d.data e z ≠ nan := by
    rintro z hz e (he | he)
    · obtain ⟨e1, rfl⟩ := mem_out.mp he
      rw [hlen] at e1
      by_cases hn : dst inp.edges e = next (src inp.edges e)
      · exact (xs_cov e e1 hn).ne
      · exact (xs_non e e1 hn).ne
    · obtain ⟨e1, rfl⟩ := mem_in.mp he
      rw [hlen] at e1
      by_cases hn : dst inp.edges e = next (src inp.edges e)
      · exact (xd_cov e e1 hn).ne
      · exact (xd_non e e1 hn).ne
  obtain ⟨D, d1, d2, d3, d4⟩ := degreeUpdate_num hok hlen ho hi hm.e2d_rows hm.e2d_cols hnn hm.dummy_rows hm.dummy_cols
  have hoff : ∀ e < inp.numEdges, ∀ z < inp.numNodes, z ≠ src inp.edges e → z ≠ dst inp.edges e → D.data e z = fin 0 := by
    intro e he z hz h1 h2
    rw [(d4 z hz).2.2 e (fun hh => h1 (mem_out.mp hh).2.symm) (fun hh => h2 (mem_in.mp hh).2.symm)]
    exact hm.dummy_off e he z hz h1 h2
  obtain ⟨⟨U, O⟩, f1, f2, f3, f4, f5, f6, f7, -⟩ := processFiltering_spec (rows := inp.numEdges) (flag := inp.flag) (alpha := inp.alpha) (iter := j)
    (dummy := D) (s := (m.deg, m.degOld)) (n := inp.numNodes) (by omega) (by rw [hm.deg_rows]) (by rw [hm.old_rows]) d3 hm.deg_cols hm.old_cols
  simp only at f2 f3 f4 f5 f6 f7
  rw [hm.deg_rows] at f2
  rw [hm.old_rows] at f4
  obtain ⟨X, x1, x2, x3, x4⟩ := edgeToDegreeRelaxed_num (out := m.e2d) (cost := inp.degCost) hok hlen f2 f3 h.deg.rows h.deg.cols hm.e2d_rows hm.e2d_cols
  have hbound : ∀ z < inp.numNodes, ∀ e < inp.numEdges, ∀ p, AtLeast p (m.deg.data e z) → (inp.flag ∧ inp.alpha ≠ 0 → AtLeast p (m.degOld.data e z)) :=
    fun z hz e he p hp hf => by rw [hm.old hf e he z hz]; exact hp
  -- damping
  have fl : ∀ e < inp.numEdges, ∀ z < inp.numNodes, ∀ q p, AtLeast q (D.data e z) → AtLeast p (m.deg.data e z) →
      AtLeast ((1 - rate inp.flag inp.alpha) * q + rate inp.flag inp.alpha * p) (U.data e z) := by
    intro e he z hz q p h1 h2
    rw [f6 e he z hz]
    by_cases hf : inp.flag ∧ inp.alpha ≠ 0
    · exact h1.filter (by rw [hm.old hf e he z hz]; exact h2) (fun hj => hm.old_zero (Or.inl hj) e he z hz) r0 r1
    · unfold filterVal
      rw [if_neg hf, show rate inp.flag inp.alpha = 0 from if_neg hf]
      exact h1.mono (by linarith)
  have fm : ∀ e < inp.numEdges, ∀ z < inp.numNodes, ∀ q p, AtMost q (D.data e z) → AtMost p (m.deg.data e z) →
      AtMost ((1 - rate inp.flag inp.alpha) * q + rate inp.flag inp.alpha * p) (U.data e z) := by
    intro e he z hz q p h1 h2
    rw [f6 e he z hz]
    by_cases hf : inp.flag ∧ inp.alpha ≠ 0
    · exact h1.filter (by rw [hm.old hf e he z hz]; exact h2) (fun hj => hm.old_zero (Or.inl hj) e he z hz) r0 r1
    · unfold filterVal
      rw [if_neg hf, show rate inp.flag inp.alpha = 0 from if_neg hf]
      exact h1.mono (by linarith)
  refine ⟨{ m with e2d := X, degDummy := D, deg := U, degOld := O }, by
    simp only [tspRelaxedIter, d1, f1, x1, Option.bind_eq_bind, Option.bind_some], ?_⟩
  have hsd : ∀ e, ∀ he : e < inp.numEdges, inp.edges[e]'(by omega) = (src inp.edges e, dst inp.edges e) := fun e he => src_dst (by omega)
  refine ⟨x2, x3, ?_, ?_, d2, d3, hoff, f2, f3, ?_, f4, f5, ?_, ?_, ?_, ?_⟩
  · intro e he
    have := x4 e (by omega) _ (hlt e he).1
    rw [hsd e he] at this
    simp only [if_true] at this
    rw [this, h.deg.ends e he _ (Or.inl rfl)]
  · intro e he
    have := x4 e (by omega) _ (hlt e he).2.1
    rw [hsd e he] at this
    simp only [if_neg (Ne.symm (hlt e he).2.2), if_true] at this
    rw [this, h.deg.ends e he _ (Or.inr rfl)]
  · intro e he z hz h1 h2
    show U.data e z = fin 0
    rw [f6 e he z hz, hoff e he z hz h1 h2]
    by_cases hf : inp.flag ∧ inp.alpha ≠ 0
    · rw [hm.old hf e he z hz, hm.deg_off e he z hz h1 h2, filterVal_zero]
    · unfold filterVal; rw [if_neg hf]
  · rintro (hj | hf) e he z hz
    · omega
    · show O.data e z = fin 0
      rw [f7 e he z hz, if_neg hf, hm.old_zero (Or.inr hf) e he z hz]
  · intro hf e he z hz
    show O.data e z = U.data e z
    rw [f7 e he z hz, if_pos hf, f6 e he z hz]
  · intro e he hn
    obtain ⟨s1, s2, s3⟩ := hlt e he
    constructor
    · obtain ⟨w, w1, w2⟩ := (d4 _ s1).1 e (mem_out.mpr ⟨by omega, rfl⟩)
      obtain ⟨e', he', h1, h2⟩ := hfind _ s1
      have := xs_cov e' he' (by rw [h1, h2])
      rw [h1] at this
      have hw := w1.atMost (s := m.e2d.data e' (src inp.edges e)) ⟨e', mem_out.mpr ⟨by omega, h1⟩, by rintro rfl; exact hn h2, rfl⟩ this
      have := fl e he _ s1 _ _ (w2 ▸ hw.neg) (hm.non e he hn).1
      exact this.mono (by linarith)
    · obtain ⟨w, w1, w2⟩ := (d4 _ s2).2.1 e (mem_in.mpr ⟨by omega, rfl⟩)
      obtain ⟨k, hk, hkn⟩ := cover_surj hd.cover _ s2
      obtain ⟨e', he', h1, h2⟩ := hfind _ hk
      have := xd_cov e' he' (by rw [h1, h2])
      rw [h2, hkn] at this
      have hw := w1.atMost (s := m.e2d.data e' (dst inp.edges e)) ⟨e', mem_in.mpr ⟨by omega, by rw [h2, hkn]⟩, by rintro rfl; exact hn (by rw [h1, h2]), rfl⟩ this
      have := fl e he _ s2 _ _ (w2 ▸ hw.neg) (hm.non e he hn).2
      exact this.mono (by linarith)
  · intro e he hn
    obtain ⟨s1, s2, s3⟩ := hlt e he
    constructor
    · obtain ⟨w, w1, w2⟩ := (d4 _ s1).1 e (mem_out.mpr ⟨by omega, rfl⟩)
      have hw : AtLeast (u (src inp.edges e) + (δ + a)) w := w1.atLeast (by
        rintro s ⟨e', hm', hne, rfl⟩
        obtain ⟨he', h1⟩ := mem_out.mp hm'
        rw [hlen] at he'
        have := xs_non e' he' (fun hh => hne (hinj e' he' e he h1 (by rw [hh, hn, h1])))
        rwa [h1] at this)
      have := fm e he _ s1 _ _ (w2 ▸ hw.neg) (hm.cov e he hn).1
      exact this.mono (by linarith)
    · obtain ⟨w, w1, w2⟩ := (d4 _ s2).2.1 e (mem_in.mpr ⟨by omega, rfl⟩)
      have hw : AtLeast (v (dst inp.edges e) + (δ + a)) w := w1.atLeast (by
        rintro s ⟨e', hm', hne, rfl⟩
        obtain ⟨he', h1⟩ := mem_in.mp hm'
        rw [hlen] at he'
        have := xd_non e' he' (fun hh => hne (hinj e' he' e he (hd.cover.inj _ (hlt e' he').1 _ s1 (by rw [← hh, ← hn, h1])) h1))
        rwa [h1] at this)
      have := fm e he _ s2 _ _ (w2 ▸ hw.neg) (hm.cov e he hn).2
      exact this.mono (by linarith)

end

end Verif.Proofs
