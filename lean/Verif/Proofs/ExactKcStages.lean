import Mathlib.Algebra.Order.BigOperators.Ring.Finset
import Verif.Proofs.ExactKc

/-! The remaining steps of an iteration of the assignment solver compute exactly on small multiples of a unit. -/

namespace Verif.Proofs
open Verif Num Spec Model

variable {r : ℚ → Num} {u : ℚ} {M : ℕ} (hr : KeepsMultiples r u M)

section
include hr

/-- A sum of two rows whose entries are small. -/
theorem exact_addTo {a b dst : Arr Num} {c : ℕ → ℚ} (hc : ∀ i < a.size, c i ≤ M) (h : ∀ i < a.size, Small u (c i) (a.data i + b.data i)) :
    Same (fun o => o.size = dst.size ∧ ∀ i, o.data i = if i < a.size then a.data i + b.data i else dst.data i) (a.addTo b dst)
      (Rounded.addTo r a b dst) := by
  unfold Arr.addTo Rounded.addTo
  split
  · intro o ho
    rw [← ho]
    obtain rfl := Option.some.inj ho
    refine ⟨?_, rfl, fun i => rfl⟩
    simp only [Option.some.injEq, Arr.mk.injEq, true_and]
    funext i
    split
    · next hi => exact (h i hi).rn hr (hc i hi)
    · rfl
  · exact Same.none

/-- Adding up the rows of a table. -/
theorem exact_addRowsL {m : Mat Num} {acc : Arr Num} {b : ℕ → ℕ → ℚ} {z : ℕ → ℚ} (hb : ∀ d < m.rows, ∀ t < m.cols, 0 ≤ b d t)
    (hm : ∀ d < m.rows, ∀ t < m.cols, Small u (b d t) (m.data d t)) (hz : ∀ t < m.cols, Small u (z t) (acc.data t))
    (hM : ∀ t < m.cols, z t + ∑ d ∈ Finset.range m.rows, b d t ≤ M) :
    Same (fun o => o.size = acc.size ∧ ∀ t < m.cols, Small u (z t + ∑ d ∈ Finset.range m.rows, b d t) (o.data t)) (addRowsL m acc)
      (Rounded.addRowsL r m acc) := by
  refine Same.loopUp (fun (k : ℕ) (o : Arr Num) => o.size = acc.size ∧ ∀ t < m.cols, Small u (z t + ∑ d ∈ Finset.range k, b d t) (o.data t))
    ⟨rfl, by simpa using hz⟩ fun k hk o ho => Same.read fun row hrow => ?_
  obtain ⟨-, rfl⟩ := mat_rdRow hrow
  have hs : ∀ t < m.cols, Small u (z t + ∑ d ∈ Finset.range (k + 1), b d t) (m.data k t + o.data t) := fun t ht => by
    rw [Finset.sum_range_succ]
    exact ((hm k hk t ht).add (ho.2 t ht)).mono (le_of_eq (by ring))
  refine (exact_addTo hr (c := fun t => z t + ∑ d ∈ Finset.range (k + 1), b d t) (fun t ht => ?_) hs).mono fun o' ho' => ⟨by rw [ho'.1, ho.1], fun t ht => ?_⟩
  · refine le_trans ?_ (hM t ht)
    have : ∑ d ∈ Finset.range (k + 1), b d t ≤ ∑ d ∈ Finset.range m.rows, b d t :=
      Finset.sum_le_sum_of_subset_of_nonneg (Finset.range_mono (by omega)) fun d hd _ => hb d (Finset.mem_range.mp hd) t ht
    linarith
  · rw [ho'.2 t, if_pos ht]; exact hs t ht

theorem exact_teamToOric {T : ℕ} {ext : Mat Num} {t2o reward : Arr Num} {b : ℕ → ℕ → ℚ} {B X : ℚ} (hT : ext.cols = T)
    (hb : ∀ d < ext.rows, ∀ t < T, 0 ≤ b d t)
    (hm : ∀ d < ext.rows, ∀ t < T, Small u (b d t) (ext.data d t)) (hX : ∀ t < T, ∑ d ∈ Finset.range ext.rows, b d t ≤ X) (hw : ∀ t < T, Small u B (reward.data t))
    (hB : 0 ≤ B) (hM : X + B ≤ M) :
    Same (fun o => ∀ t < T, Small u (X + B) (o.data t)) (teamToOric T ext t2o reward) (Rounded.teamToOric r T ext t2o reward) := by
  subst hT
  refine (exact_addRowsL hr (z := fun _ => 0) hb hm (fun t _ => Small.zero le_rfl) fun t ht => ?_).bind fun s hs => ?_
  · have := hX t ht; linarith
  · have hsum : ∀ t < ext.cols, Small u (X + B) (s.data t + reward.data t) := fun t ht =>
      (((hs.2 t ht).mono (by have := hX t ht; linarith)).add (hw t ht))
    have hsz : s.size = ext.cols := hs.1
    refine (exact_addTo hr (c := fun _ => X + B) (fun _ _ => hM) fun t ht => hsum t (by rw [← hsz]; exact ht)).mono fun o ho t ht => ?_
    rw [ho.2 t, if_pos (by rw [hsz]; exact ht)]; exact hsum t ht

theorem exact_projectToOric {p2e e2o reward : Mat Num} {c : ℚ} (hc : c ≤ M)
    (h : ∀ p < p2e.rows, ∀ t < p2e.cols, Small u c (p2e.data p t + reward.data p t)) :
    Same (fun _ => True) (projectToOric p2e e2o reward) (Rounded.projectToOric r p2e e2o reward) := by
  refine Same.loopUp (fun _ _ => True) trivial fun p hp out _ => Same.read fun x hx => Same.read fun w hw => Same.read fun o ho => ?_
  obtain ⟨-, rfl⟩ := mat_rdRow hx
  obtain ⟨-, rfl⟩ := mat_rdRow hw
  refine (exact_addTo hr (c := fun _ => c) (fun _ _ => hc) fun t ht => h p hp t ht).bind fun row _ => Same.of fun _ _ => trivial

omit hr in
/-- Undamped filtering copies. -/
theorem filterAt_undamped {flag : Bool} {alpha : ℚ} (hd : flag = false ∨ alpha = 0) (iter : ℕ) (d : Mat Num) (e : ℕ) (s : Mat Num × Mat Num) :
    Rounded.filterAt r flag alpha iter d e s = filterAt flag alpha iter d e s := by
  have hno : ¬ (flag = true ∧ alpha ≠ 0) := by
    rintro ⟨h1, h2⟩
    rcases hd with h | h
    · rw [h] at h1; cases h1
    · exact h2 h
  simp only [Rounded.filterAt, filterAt, Rounded.filterRow, filterRow, if_neg hno]

/-! ### Trellises with two states -/

/-- A forward table: state 0 is zero, state 1 is small. -/
def FwdTable (u c : ℚ) (f : Mat Num) : Prop := ∀ i, f.data i 0 = 0 ∧ Small u c (f.data i 1)
/-- A backward table: state 1 is zero, state 0 is small. -/
def BwdTable (u c : ℚ) (f : Mat Num) : Prop := ∀ i, f.data i 1 = 0 ∧ Small u c (f.data i 0)

omit hr in
theorem FwdTable.wr0 {c : ℚ} {f f' : Mat Num} {i : ℕ} (h : FwdTable u c f) (hw : f.wr i 0 0 = some f') : FwdTable u c f' := by
  obtain ⟨-, -, -, e⟩ := mat_wr hw
  intro k; rw [e]; constructor
  · simp only; split
    · rfl
    · exact (h k).1
  · simp only; rw [if_neg (by simp)]; exact (h k).2

omit hr in
theorem FwdTable.wr1 {c : ℚ} {f f' : Mat Num} {i : ℕ} {x : Num} (h : FwdTable u c f) (hx : Small u c x) (hw : f.wr i 1 x = some f') : FwdTable u c f' := by
  obtain ⟨-, -, -, e⟩ := mat_wr hw
  intro k; rw [e]; constructor
  · simp only; rw [if_neg (by simp)]; exact (h k).1
  · simp only; split
    · exact hx
    · exact (h k).2

omit hr in
theorem FwdTable.init {c : ℚ} {f f' : Mat Num} {i : ℕ} (h : FwdTable u c f) (hw : f.wrRow i initFwd2 = some f') : FwdTable u c f' := by
  obtain ⟨-, -, e⟩ := mat_wrRow hw
  intro k; rw [e]; constructor
  · simp only; split
    · rfl
    · exact (h k).1
  · simp only; split
    · exact Small.pinf
    · exact (h k).2

omit hr in
theorem BwdTable.wr1 {c : ℚ} {f f' : Mat Num} {i : ℕ} (h : BwdTable u c f) (hw : f.wr i 1 0 = some f') : BwdTable u c f' := by
  obtain ⟨-, -, -, e⟩ := mat_wr hw
  intro k; rw [e]; constructor
  · simp only; split
    · rfl
    · exact (h k).1
  · simp only; rw [if_neg (by simp)]; exact (h k).2

omit hr in
theorem BwdTable.wr0 {c : ℚ} {f f' : Mat Num} {i : ℕ} {x : Num} (h : BwdTable u c f) (hx : Small u c x) (hw : f.wr i 0 x = some f') : BwdTable u c f' := by
  obtain ⟨-, -, -, e⟩ := mat_wr hw
  intro k; rw [e]; constructor
  · simp only; rw [if_neg (by simp)]; exact (h k).1
  · simp only; split
    · exact hx
    · exact (h k).2

omit hr in
theorem BwdTable.init {c : ℚ} (hc : 0 ≤ c) {f f' : Mat Num} {i : ℕ} (h : BwdTable u c f) (hw : f.wrRow i initBwd2 = some f') : BwdTable u c f' := by
  obtain ⟨-, -, e⟩ := mat_wrRow hw
  intro k; rw [e]; constructor
  · simp only; split
    · rfl
    · exact (h k).1
  · simp only; split
    · exact Small.zero hc
    · exact (h k).2

section oric
variable {E Y B : ℚ} (hE : 0 ≤ E) (hY : 0 ≤ Y) (hB : 0 ≤ B) (hM : E + 2 * Y + B ≤ M) {P T : ℕ} {eq2oric reward : Mat Num} {t2o : Arr Num}
  (he : ∀ p < P, ∀ t < T, Small u E (eq2oric.data p t)) (ht : ∀ t < T, Small u Y (t2o.data t)) (hR : ∀ p < P, ∀ t < T, Small u B (reward.data p t))
include hE hY hB hM he ht hR

theorem exact_oricBody {t : ℕ} (htT : t < T) {st : Mat Num × Mat Num × Mat Num × Mat Num}
    (hs : FwdTable u (E + Y) st.1 ∧ BwdTable u (E + Y) st.2.1 ∧ AllSmall u (E + 2 * Y + B) st.2.2.2) :
    Same (fun st => FwdTable u (E + Y) st.1 ∧ BwdTable u (E + Y) st.2.1 ∧ AllSmall u (E + 2 * Y + B) st.2.2.2) (oricBody P eq2oric t2o reward t st)
      (Rounded.oricBody r P eq2oric t2o reward t st) := by
  obtain ⟨fwd, bwd, oric2eq, eq2proj⟩ := st
  obtain ⟨h1, h2, h3⟩ := hs
  simp only at h1 h2 h3
  have hsum : ∀ {p}, p < P → Small u (E + Y) (0 + eq2oric.data p t + t2o.data t) := fun hp => by
    have := ((Small.zero (u := u) le_rfl).add (he _ hp t htT)).add (ht t htT)
    exact this.mono (by linarith)
  have hsum0 : ∀ {p}, p < P → Small u E (0 + eq2oric.data p t) := fun hp => ((Small.zero (u := u) le_rfl).add (he _ hp t htT)).mono (by linarith)
  refine Same.read fun fwd hf => ?_
  replace h1 := h1.init hf
  refine (Same.loopUp (fun _ => FwdTable u (E + Y)) h1 fun p hp fwd h1 => ?_).bind fun fwd h1 => ?_
  · refine Same.read fun f0 hf0 => Same.read fun fwd' hw => Same.read fun g1 hg1 => Same.read fun g0 hg0 => Same.read fun e hee => Same.read fun m hm => ?_
    rw [(mat_rd hf0).2, (h1 p).1] at hw
    have h1' := h1.wr0 hw
    rw [(mat_rd hg0).2, (h1' p).1, (mat_rd hee).2, (arr_rd hm).2, (hsum0 hp).rn hr (by linarith), (hsum hp).rn hr (by linarith)]
    exact Same.of fun f hf => h1'.wr1 (by rw [(mat_rd hg1).2]; exact (h1' p).2.cmin (hsum hp)) hf
  · refine Same.read fun bwd hb => ?_
    replace h2 := h2.init (by linarith) hb
    refine (Same.loopDown (fun _ => BwdTable u (E + Y)) h2 fun p hp bwd h2 => ?_).bind fun bwd h2 => ?_
    · refine Same.read fun b0 hb0 => Same.read fun b1 hb1 => Same.read fun e hee => Same.read fun m hm => ?_
      rw [(mat_rd hb1).2, (h2 _).1, (mat_rd hee).2, (arr_rd hm).2, (hsum0 hp).rn hr (by linarith), (hsum hp).rn hr (by linarith)]
      refine Same.read fun bwd' hw => Same.read fun c1 hc1 => ?_
      have h2' := h2.wr0 (by rw [(mat_rd hb0).2]; exact (h2 _).2.cmin (hsum hp)) hw
      rw [(mat_rd hc1).2, (h2' _).1]
      exact Same.of fun f hf => h2'.wr1 hf
    · refine (Same.loopUp (fun _ (q : Mat Num × Mat Num) => AllSmall u (E + 2 * Y + B) q.2) h3 fun p hp q h3 => ?_).bind fun q h3 => Same.some ⟨h1, h2, h3⟩
      refine Same.read fun f1 hf1 => Same.read fun b0 hb0 => Same.read fun m hm => ?_
      have hmin : Small u (E + 2 * Y) (m - cmin (cmin f1 b0) 0) := by
        rw [(mat_rd hf1).2, (mat_rd hb0).2, (arr_rd hm).2]
        exact ((ht t htT).sub (((h1 p).2.cmin (h2 _).2).cmin (Small.zero (by linarith)))).mono (by linarith)
      simp only [hmin.rn hr (by linarith)]
      refine Same.read fun o2 ho2 => Same.read fun o ho => Same.read fun c hc => ?_
      have ho' : Small u (E + 2 * Y) o := by
        obtain ⟨-, -, -, e⟩ := mat_wr ho2
        rw [(mat_rd ho).2, e]
        simpa using hmin
      have hsm : Small u (E + 2 * Y + B) (o + c) := ho'.add (by rw [(mat_rd hc).2]; exact hR p hp t htT)
      rw [hsm.rn hr hM]
      exact Same.read fun e he => Same.some (h3.wr hsm he)

theorem exact_oric {o2e e2p : Mat Num} (h : AllSmall u (E + 2 * Y + B) e2p) :
    Same (fun s => AllSmall u (E + 2 * Y + B) s.2) (oricToProjectUpdate P T eq2oric t2o o2e e2p reward)
      (Rounded.oricToProjectUpdate r P T eq2oric t2o o2e e2p reward) := by
  refine (Same.loopUp (fun _ (st : Mat Num × Mat Num × Mat Num × Mat Num) => FwdTable u (E + Y) st.1 ∧ BwdTable u (E + Y) st.2.1 ∧
    AllSmall u (E + 2 * Y + B) st.2.2.2) ⟨fun i => ⟨rfl, Small.zero (by linarith)⟩, fun i => ⟨rfl, Small.zero (by linarith)⟩, h⟩ fun t htT st hs =>
    exact_oricBody hr hE hY hB hM he ht hR htT hs).bind fun st hs => Same.some hs.2.2

end oric

theorem exact_project {Z : ℚ} (hZ : 0 ≤ Z) (hM : Z ≤ M) (T : ℕ) {e2p p2e : Mat Num} (h : AllSmall u Z e2p) :
    Same (fun _ => True) (projectInequalityUpdate T e2p p2e) (Rounded.projectInequalityUpdate r T e2p p2e) := by
  refine (Same.loopUp (fun _ (st : Mat Num × Mat Num × Mat Num) => FwdTable u Z st.1 ∧ BwdTable u Z st.2.1)
    ⟨fun i => ⟨rfl, Small.zero hZ⟩, fun i => ⟨rfl, Small.zero hZ⟩⟩ fun p hp st hs => ?_).bind fun st hs => Same.some trivial
  obtain ⟨fwd, bwd, out⟩ := st
  obtain ⟨h1, h2⟩ := hs
  simp only at h1 h2
  have hsum : ∀ t, Small u Z (0 + e2p.data p t) := fun t => ((Small.zero (u := u) le_rfl).add (h p t)).mono (by linarith)
  refine Same.read fun fwd hf => ?_
  replace h1 := h1.init hf
  refine (Same.loopUp (fun _ => FwdTable u Z) h1 fun t ht fwd h1 => ?_).bind fun fwd h1 => ?_
  · refine Same.read fun f0 hf0 => Same.read fun fwd' hw => Same.read fun g1 hg1 => Same.read fun g0 hg0 => Same.read fun x hx => ?_
    rw [(mat_rd hf0).2, (h1 t).1] at hw
    have h1' := h1.wr0 hw
    rw [(mat_rd hg0).2, (h1' t).1, (mat_rd hx).2, (hsum t).rn hr hM]
    exact Same.of fun f hf => h1'.wr1 (by rw [(mat_rd hg1).2]; exact (h1' t).2.cmin (hsum t)) hf
  · refine Same.read fun bwd hb => ?_
    replace h2 := h2.init hZ hb
    refine (Same.loopDown (fun _ => BwdTable u Z) h2 fun t ht bwd h2 => ?_).bind fun bwd h2 => ?_
    · refine Same.read fun b0 hb0 => Same.read fun b1 hb1 => Same.read fun x hx => ?_
      rw [(mat_rd hb1).2, (h2 _).1, (mat_rd hx).2, (hsum t).rn hr hM]
      refine Same.read fun bwd' hw => Same.read fun c1 hc1 => ?_
      have h2' := h2.wr0 (by rw [(mat_rd hb0).2]; exact (h2 _).2.cmin (hsum t)) hw
      rw [(mat_rd hc1).2, (h2' _).1]
      exact Same.of fun f hf => h2'.wr1 hf
    · exact Same.read fun out _ => Same.some ⟨h1, h2⟩

theorem exact_kcIntrinsic {T : ℕ} {o2e p2e reward : Mat Num} {a b c : ℚ} (hb : 0 ≤ b) (hc : 0 ≤ c) (hM : a + b + c ≤ M) (ho : ∀ p < reward.rows, ∀ t < reward.cols, Small u a (o2e.data p t))
    (hy : ∀ p < reward.rows, ∀ t < reward.cols, Small u b (p2e.data p t)) (hR : ∀ p < reward.rows, ∀ t < reward.cols, Small u c (reward.data p t))
    (out : Arr Num) : Same (fun _ => True) (kcIntrinsic T o2e p2e reward out) (Rounded.kcIntrinsic r T o2e p2e reward out) := by
  refine Same.loopUp (fun _ _ => True) trivial fun p hp out _ => Same.loopUp (fun _ _ => True) trivial fun t ht out _ =>
    Same.read fun o ho' => Same.read fun y hy' => Same.read fun w hw' => ?_
  have k1 := (ho p hp t ht).add (hy p hp t ht)
  have k2 := k1.add (hR p hp t ht)
  rw [(mat_rd ho').2, (mat_rd hy').2, (mat_rd hw').2, k1.rn hr (by linarith), k2.rn hr hM]
  exact Same.of fun _ _ => trivial

theorem exact_teamToKnapsack {D T : ℕ} {nzs : List (List ℕ)} {m ext : Mat Num} {reward oric : Arr Num} {B X C : ℚ} (hX : 0 ≤ X) (hC : 0 ≤ C) (hM : B + X + C ≤ M)
    (hw : ∀ t < reward.size, Small u B (reward.data t)) (hx : ∀ d < ext.rows, ∀ t < ext.cols, Small u X (ext.data d t))
    (ho : ∀ t < oric.size, Small u C (oric.data t)) :
    Same (fun _ => True) (teamToKnapsack D T nzs m reward ext oric) (Rounded.teamToKnapsack r D T nzs m reward ext oric) := by
  refine Same.loopUp (fun _ _ => True) trivial fun d _ m _ => Same.read fun un _ => ?_
  simp only
  split
  all_goals
    refine Same.read fun rest _ => ?_
    refine (Same.loopList (i := 0) (fun _ (_ : Mat Num × List ℕ) => True) trivial fun d' _ _ _ s _ => ?_).bind fun s _ => ?_
    · refine Same.read fun a _ => Same.read fun b _ => Same.read fun inter _ => ?_
      refine (Same.loopList (i := 0) (fun _ (_ : Mat Num × List ℕ) => True) trivial fun l _ _ _ s _ => ?_)
      refine Same.read fun c hc => Same.read fun x hx' => Same.read fun o ho' => ?_
      have k1 := (hw l (arr_rd hc).1).add (hx d' (mat_rd hx').1.1 l (mat_rd hx').1.2)
      have k2 := k1.add (ho l (arr_rd ho').1)
      rw [(arr_rd hc).2, (mat_rd hx').2, (arr_rd ho').2, k1.rn hr (by linarith), k2.rn hr hM]
      exact Same.read fun m _ => Same.read fun un _ => Same.some trivial
    · refine (Same.loopList (i := 0) (fun _ (_ : Mat Num) => True) trivial fun l _ _ _ m _ => ?_)
      refine Same.read fun c hc => Same.read fun o ho' => ?_
      have k2 := (hw l (arr_rd hc).1).add (ho l (arr_rd ho').1)
      rw [(arr_rd hc).2, (arr_rd ho').2, k2.rn hr (by linarith)]
      exact Same.of fun _ _ => trivial

end

end Verif.Proofs
