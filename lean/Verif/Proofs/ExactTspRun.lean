import Verif.Proofs.ExactTsp

/-! The relaxed round of the TSP solver computes exactly on small multiples of a unit. -/

namespace Verif.Proofs
open Verif Num Spec Model

variable {r : ℚ → Num} {u : ℚ} {M : ℕ} (hr : KeepsMultiples r u M)
include hr

/-- Bounds of the messages before iteration `i`. -/
structure RelaxedSmall (u B : ℚ) (inp : TspInputs) (i : ℕ) (m : TspMsgs) : Prop where
  e2d : MatAll (fun _ _ => Small u (i * B + B)) m.e2d
  dummy : MatAll (EndSmall u inp.edges (i * B)) m.degDummy
  deg : MatAll (EndSmall u inp.edges (i * B)) m.deg
  rows : m.deg.rows = inp.numEdges

section
variable {inp : TspInputs} {B : ℚ} (hB : 0 ≤ B) (hd : inp.flag = false ∨ inp.alpha = 0) (hc : MatAll (fun _ _ => Small u B) inp.degCost)
include hB hd hc

theorem exact_relaxedIter {i : ℕ} (hM : (i + 2) * B ≤ M) {m : TspMsgs} (h : RelaxedSmall u B inp i m) :
    Same (RelaxedSmall u B inp (i + 1)) (tspRelaxedIter inp i m) (Rounded.tspRelaxedIter r inp i m) := by
  have hi : (i : ℚ) * B ≤ i * B + B := by linarith
  have h0 : (0 : ℚ) ≤ i * B + B := by positivity
  refine Same.read fun d h1 => ?_
  have k1 := small_degreeUpdate h.e2d h0 (h.dummy.mono fun _ _ _ hx => hx.mono hi) h1
  rw [filtering_undamped hd]
  refine Same.read fun s h2 => ?_
  obtain ⟨k2, k3⟩ := same_copy hd k1 (h.deg.mono fun _ _ _ hx => hx.mono hi) h2
  refine (exact_edgeToDegreeRelaxed hr (by linarith) (k2.mono fun _ _ _ hx => hx.1) hc (h.e2d.mono fun _ _ _ hx => hx.mono (by linarith))).bind
    fun e he => Same.some ?_
  have hcast : ((i + 1 : ℕ) : ℚ) * B = i * B + B := by push_cast; ring
  exact ⟨by rw [hcast]; exact he, by rw [hcast]; exact k1, by rw [hcast]; exact k2, k3.trans h.rows⟩

end

theorem exact_rowSum {edges : List (ℕ × ℕ)} {X : ℚ} (hX : 0 ≤ X) (hM : 2 * X ≤ M) {m : Mat Num} (h : MatAll (EndSmall u edges X) m) {e : ℕ} {c : ℕ × ℕ}
    (hc : edges[e]? = some c) : Same (Small u (2 * X)) (rowSum m e) (Rounded.rowSum r m e) := by
  have key := Same.loopUp (fun j (x : Num) => Small u ((if c.1 < j then X else 0) + if c.2 < j then X else 0) x) (n := m.cols)
    (f := fun j acc => (m.rd e j).bind fun x => some (acc + x)) (g := fun j acc => (m.rd e j).bind fun x => some (Rounded.rn r (acc + x))) (s := (0 : Num))
    (Small.zero (by simp)) fun j hj a ha => Same.read fun x hx => ?_
  · refine Same.mono key fun a ha => ha.mono ?_
    split_ifs <;> linarith
  · have hs := (h.rd hx)
    have hnew : Small u ((if c.1 < j + 1 then X else 0) + if c.2 < j + 1 then X else 0) (a + x) := by
      by_cases h1 : j = c.1 ∨ j = c.2
      · refine (ha.add hs.1).mono ?_
        split_ifs <;> first | linarith | omega
      · have : x = 0 := hs.2 c hc (by tauto) (by tauto)
        have h2 := ha.add (hs.1.mono (le_refl X))
        rw [this] at h2 ⊢
        have h3 := ha.add (Small.zero (u := u) (le_refl (0 : ℚ)))
        refine h3.mono ?_
        split_ifs <;> first | linarith | omega
    rw [hnew.rn hr (by split_ifs <;> linarith)]
    exact Same.some hnew

theorem exact_extrinsic {edges : List (ℕ × ℕ)} {X : ℚ} (hX : 0 ≤ X) (hM : 2 * X ≤ M) {m : Mat Num} (h : MatAll (EndSmall u edges X) m)
    (hl : m.rows ≤ edges.length) {ext : Arr Num} (he : RowAll (fun _ => Small u (2 * X)) ext) :
    Same (RowAll (fun _ => Small u (2 * X))) (tspExtrinsicRelaxed m ext) (Rounded.tspExtrinsicRelaxed r m ext) := by
  refine Same.loopUp (fun _ => RowAll (fun _ => Small u (2 * X))) he fun k hk a ha => ?_
  exact (exact_rowSum hr hX hM h (List.getElem?_eq_getElem (by omega))).bind fun x hx => Same.of fun b hb => ha.wr (P := fun _ => Small u (2 * X)) hx hb

theorem exact_intrinsic {X B : ℚ} (hM : X + B ≤ M) {ext cost intr : Arr Num} (he : RowAll (fun _ => Small u X) ext) (hc : RowAll (fun _ => Small u B) cost) :
    Same (fun _ => True) (tspIntrinsic ext cost intr) (Rounded.tspIntrinsic r ext cost intr) := by
  unfold tspIntrinsic Rounded.tspIntrinsic
  by_cases hs : ext.size ≤ cost.size
  · exact (exact_addTo hr (c := fun _ => X + B) (fun _ _ => hM) fun i hi => (he i hi).add (hc i (by omega))).mono fun _ _ => trivial
  · intro a ha
    rw [Arr.addTo, if_neg (by tauto)] at ha
    cases ha

theorem exact_tspRelaxed {inp : TspInputs} {B : ℕ} (hd : inp.flag = false ∨ inp.alpha = 0) (hc : MatAll (fun _ _ => Small u B) inp.degCost)
    (hw : RowAll (fun _ => Small u B) inp.cost) (hE : inp.numEdges ≤ inp.edges.length) {e2d : Mat Num} (he : MatAll (fun _ _ => Small u B) e2d) {K : ℕ}
    (hM : (2 * K + 1) * B ≤ M) {o : Arr Num × Arr Num} (ho : RowAll (fun _ => Small u (2 * (K * B))) o.1) :
    Same (fun x => RowAll (fun _ => Small u (2 * (K * B))) x.2.1) (tspRelaxed inp K (tspInit inp e2d) o)
      (Rounded.tspRelaxed r inp K (tspInit inp e2d) o) := by
  have hB : (0 : ℚ) ≤ B := by positivity
  have hMq : (2 * K + 1) * (B : ℚ) ≤ M := by exact_mod_cast hM
  have hKB : (0 : ℚ) ≤ K * B := by positivity
  refine (Same.loopUp (RelaxedSmall u B inp) ⟨?_, ?_, ?_, rfl⟩ fun k hk a ha => exact_relaxedIter hr hB hd hc ?_ ha).bind fun m hm => ?_
  · simp only [Nat.cast_zero, zero_mul, zero_add]; exact he
  · exact fun _ _ _ _ => ⟨Small.zero (by simp), fun _ _ _ _ => rfl⟩
  · exact fun _ _ _ _ => ⟨Small.zero (by simp), fun _ _ _ _ => rfl⟩
  · have : (k : ℚ) + 1 ≤ K := by exact_mod_cast hk
    nlinarith
  · refine (exact_extrinsic hr hKB (by linarith) hm.deg (by rw [hm.rows]; exact hE) ho).bind fun ext hext => ?_
    exact (exact_intrinsic hr (by linarith) hext hw).bind fun i _ => Same.some hext

/-- The number of ones among the first entries. -/
def ones (hd : Arr ℕ) : ℕ → ℕ
  | 0 => 0
  | e + 1 => ones hd e + if hd.data e = 1 then 1 else 0

omit hr in
theorem ones_mono (hd : Arr ℕ) {i j : ℕ} (h : i ≤ j) : ones hd i ≤ ones hd j := by
  induction j with
  | zero => rw [show i = 0 by omega]
  | succ j ih =>
    by_cases hij : i = j + 1
    · rw [hij]
    · exact (ih (by omega)).trans (Nat.le_add_right _ _)

theorem exact_hardDecision {B E : ℕ} {thr : Num} {intr cost : Arr Num} {edges : List (ℕ × ℕ)} (hc : RowAll (fun _ => Small u B) cost)
    {sel : List (ℕ × ℕ)} {total : Num} (h : hardDecision E thr intr edges cost = some (sel, total)) (hM : sel.length * B ≤ M) :
    Rounded.hardDecision r E thr intr edges cost = some (sel, total) := by
  have hMq : (sel.length : ℚ) * B ≤ M := by exact_mod_cast hM
  unfold hardDecision at h
  simp only [Option.bind_eq_bind, Option.bind_eq_some_iff] at h
  obtain ⟨hd, h1, sel', h2, total', h3, h4⟩ := h
  obtain ⟨rfl, rfl⟩ := Prod.mk.inj (Option.some.inj h4)
  have hsize : hd.size = E := by
    unfold Arr.copyTo at h1
    split at h1
    · rw [← Option.some.inj h1]; rfl
    · cases h1
  have hcount : sel'.length = ones hd E := by
    refine keepUp (fun e (s : List (ℕ × ℕ)) => s.length = ones hd e) rfl (fun e he a ha => Same.read fun x hx => ?_) h2
    obtain rfl := (arr_rd hx).2
    rw [ones]
    split
    · exact Same.read fun c _ => Same.some (by rw [List.length_append, ha]; rfl)
    · exact Same.some ha
  have hB : (0 : ℚ) ≤ B := by positivity
  have key := Same.loopUp (fun e => Small u (ones hd e * B)) (n := hd.size) (f := fun e acc => (hd.rd e).bind fun h => if h = 1 then (cost.rd e).bind fun c => some (acc + c) else some acc)
    (g := fun e acc => (hd.rd e).bind fun h => if h = 1 then (cost.rd e).bind fun c => some (Rounded.rn r (acc + c)) else some acc) (s := (0 : Num))
    (Small.zero (by simp [ones])) (fun e he a ha => Same.read fun x hx => by
      obtain rfl := (arr_rd hx).2
      rw [hsize] at he
      split
      · next h1 =>
        refine Same.read fun c hcc => ?_
        have e1 : ones hd (e + 1) = ones hd e + 1 := by rw [ones, if_pos h1]
        have h2 := (ha.add (hc.rd hcc)).mono (d := ones hd (e + 1) * B) (by rw [e1]; push_cast; linarith)
        rw [h2.rn hr (le_trans ?_ hMq)]
        · exact Same.some h2
        · rw [hcount]
          have : (ones hd (e + 1) : ℚ) ≤ ones hd E := by exact_mod_cast ones_mono hd (by omega)
          nlinarith
      · next h1 => rw [show ones hd (e + 1) = ones hd e by rw [ones, if_neg h1]; rfl]; exact Same.some ha)
  have h5 := (key total' h3).1
  unfold Rounded.hardDecision
  simp only [Option.bind_eq_bind, h1, h2, Option.bind_some]
  rw [h5]
  rfl

end Verif.Proofs
