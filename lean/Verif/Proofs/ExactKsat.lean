import Verif.Model.RoundedKsat
import Verif.Proofs.Exact

/-! The k-SAT functions compute exactly on small multiples of a unit. -/

namespace Verif.Proofs
open Verif Num Spec Model

variable {r : ℚ → Num} {u : ℚ} {M : ℕ} (hr : KeepsMultiples r u M)
include hr

section clause
variable {m fw bw out : Mat Num} {conx : Mat ℕ} {ty : Mat ℤ} {X : ℚ} (hX : 0 ≤ X) (hsign : ∀ c s z, ty.rd c s = some z → z = 1 ∨ z = -1)
  (hm : ∀ c s v, conx.rd c s = some v → ∀ x, m.rd c v = some x → Small u X x) {k : ℕ} (hM : 2 * k * X ≤ M)
include hX hsign hm hM

theorem exact_ksatLit (hk : 0 < k) (c s : ℕ) : Same (Small u X) (ksatLit m conx ty c s) (Rounded.ksatLit r m conx ty c s) := by
  refine Same.read fun v hv => Same.read fun x hx => Same.read fun z hz => ?_
  have h := (hm c s v hv x hx).sign (hsign c s z hz)
  have h1 : (1 : ℚ) ≤ k := by exact_mod_cast hk
  rw [h.rn hr (by nlinarith)]
  exact Same.some h

/-- Rows up to `s` of the forward table are bounded. -/
def FwdSmall (u X : ℚ) (s : ℕ) (fw : Mat Num) : Prop := ∀ s' ≤ s, ∀ a < 2, Small u (s' * X) (fw.data s' a)

theorem exact_ksatFwdStage (c : ℕ) {s : ℕ} (hs : s < k) (hf : FwdSmall u X s fw) :
    Same (FwdSmall u X (s + 1)) (ksatFwdStage m conx ty c s fw) (Rounded.ksatFwdStage r m conx ty c s fw) := by
  have hs1 : (s : ℚ) + 1 ≤ k := by exact_mod_cast hs
  have h0s : (0 : ℚ) ≤ s := by positivity
  have hle : (s * X + X : ℚ) ≤ M := by nlinarith
  refine Same.read fun f0 h0 => Same.read fun fw' hw => Same.read fun g1 h1 => Same.read fun g0 h2 =>
    (exact_ksatLit hr hX hsign hm hM (by omega) c s).bind fun x hx => ?_
  obtain ⟨-, -, -, e⟩ := mat_wr hw
  have hrow : ∀ s' ≤ s, ∀ a < 2, Small u (s' * X) (fw'.data s' a) := by
    intro s' hs' a ha
    rw [e]
    simp only
    rw [if_neg (by omega)]
    exact hf s' hs' a ha
  have k1 : Small u (s * X) g1 := by rw [(mat_rd h1).2]; exact hrow s le_rfl 1 (by omega)
  have k0 : Small u (s * X) g0 := by rw [(mat_rd h2).2]; exact hrow s le_rfl 0 (by omega)
  have a1 := k1.add ((Small.zero hX).cmin hx)
  have a2 := k0.add hx
  rw [a1.rn hr hle, a2.rn hr hle]
  refine Same.of fun fw2 hw2 => ?_
  obtain ⟨-, -, -, e2⟩ := mat_wr hw2
  intro s' hs' a ha2
  rw [e2]
  simp only
  by_cases h : s' = s + 1 ∧ a = 1
  · rw [if_pos h, h.1]
    refine (a1.cmin a2).mono (le_of_eq ?_)
    push_cast; ring
  · rw [if_neg h]
    by_cases h' : s' = s + 1
    · rw [e]
      simp only
      by_cases ha : a = 0
      · rw [if_pos ⟨h', ha⟩, (mat_rd h0).2, h']
        refine (hf s le_rfl 0 (by omega)).mono ?_
        push_cast; nlinarith
      · omega
    · exact hrow s' (by omega) a ha2

/-- Rows from `s` on of the backward table are bounded. -/
def BwdSmall (u X : ℚ) (k s : ℕ) (bw : Mat Num) : Prop := ∀ s', s ≤ s' → s' ≤ k → ∀ a < 2, Small u ((k - s' : ℚ) * X) (bw.data s' a)

theorem exact_ksatBwdStage (c : ℕ) {s : ℕ} (hs : s < k) (hb : BwdSmall u X k (s + 1) bw) :
    Same (BwdSmall u X k s) (ksatBwdStage k m conx ty c s bw) (Rounded.ksatBwdStage r k m conx ty c s bw) := by
  have hs1 : (s : ℚ) + 1 ≤ k := by exact_mod_cast hs
  have h0s : (0 : ℚ) ≤ s := by positivity
  have hle : ((k - (s + 1 : ℕ) : ℚ) * X + X : ℚ) ≤ M := by push_cast; nlinarith
  have hgr : ((k - (s + 1 : ℕ) : ℚ) * X + X : ℚ) = (k - s : ℚ) * X := by push_cast; ring
  have hmo : ((k - (s + 1 : ℕ) : ℚ) * X : ℚ) ≤ (k - s : ℚ) * X := by push_cast; nlinarith
  have hmx : X ≤ (k - s : ℚ) * X := by nlinarith
  unfold ksatBwdStage Rounded.ksatBwdStage
  have tail : ∀ {x : Num} {bw : Mat Num}, Small u X x → BwdSmall u X k (s + 1) bw → Small u ((k - s : ℚ) * X) (bw.data s 0) →
      Same (BwdSmall u X k s) ((bw.rd (s + 1) 1).bind fun c1 => bw.wr s 1 (cmin c1 (c1 + x)))
        ((bw.rd (s + 1) 1).bind fun c1 => bw.wr s 1 (cmin c1 (Rounded.rn r (c1 + x)))) := by
    intro x bw hx hb h0
    refine Same.read fun c1 h1 => ?_
    have k1 : Small u ((k - (s + 1 : ℕ) : ℚ) * X) c1 := by rw [(mat_rd h1).2]; exact hb (s + 1) le_rfl hs 1 (by omega)
    have a1 := k1.add hx
    rw [a1.rn hr hle]
    refine Same.of fun bw2 hw => ?_
    obtain ⟨-, -, -, e⟩ := mat_wr hw
    intro s' h1 h2 a ha
    rw [e]
    simp only
    by_cases h : s' = s ∧ a = 1
    · rw [if_pos h, h.1]
      exact (k1.mono hmo).cmin (a1.mono hgr.le)
    · rw [if_neg h]
      by_cases h' : s' = s
      · obtain rfl : a = 0 := by omega
        rw [h']; exact h0
      · exact hb s' (by omega) h2 a ha
  have keep : ∀ {bw bw2 : Mat Num} {x : Num}, BwdSmall u X k (s + 1) bw → Small u ((k - s : ℚ) * X) x → bw.wr s 0 x = some bw2 →
      BwdSmall u X k (s + 1) bw2 ∧ Small u ((k - s : ℚ) * X) (bw2.data s 0) := by
    intro bw bw2 x hb hx hw
    obtain ⟨-, -, -, e⟩ := mat_wr hw
    refine ⟨fun s' h1 h2 a ha => ?_, ?_⟩
    · rw [e]
      simp only
      rw [if_neg (by omega)]
      exact hb s' h1 h2 a ha
    · rw [e]
      simpa using hx
  by_cases hk : s + 1 = k
  · simp only [if_pos hk]
    refine (exact_ksatLit hr hX hsign hm hM (by omega) c s).bind fun x hx => Same.read fun bw2 hw => ?_
    obtain ⟨g1, g2⟩ := keep hb (hx.mono hmx) hw
    exact tail hx g1 g2
  · simp only [if_neg hk]
    refine (exact_ksatLit hr hX hsign hm hM (by omega) c s).bind fun x hx => ?_
    refine Same.read fun b0 h0 => Same.read fun b1 h1 => ?_
    have k0 : Small u ((k - (s + 1 : ℕ) : ℚ) * X) b0 := by rw [(mat_rd h0).2]; exact hb (s + 1) le_rfl hs 0 (by omega)
    have k1 : Small u ((k - (s + 1 : ℕ) : ℚ) * X) b1 := by rw [(mat_rd h1).2]; exact hb (s + 1) le_rfl hs 1 (by omega)
    have a1 := k1.add hx
    rw [a1.rn hr hle]
    refine Same.read fun bw2 hw => ?_
    obtain ⟨g1, g2⟩ := keep hb ((k0.mono hmo).cmin (a1.mono hgr.le)) hw
    exact tail hx g1 g2

/-- All entries are bounded. -/
def AllSmall (u c : ℚ) (m : Mat Num) : Prop := ∀ i j, Small u c (m.data i j)

theorem exact_ksatOut (c : ℕ) {s : ℕ} (hs : s < k) (hf : FwdSmall u X k fw) (hb : BwdSmall u X k 0 bw) (ho : AllSmall u (2 * k * X) out) :
    Same (AllSmall u (2 * k * X)) (ksatOut k m conx ty fw bw c s out) (Rounded.ksatOut r k m conx ty fw bw c s out) := by
  have hs1 : (s : ℚ) + 1 ≤ k := by exact_mod_cast hs
  have h0s : (0 : ℚ) ≤ s := by positivity
  have hkX : (0 : ℚ) ≤ k * X := by positivity
  unfold ksatOut Rounded.ksatOut
  have tail : ∀ {sd dd x : Num}, Small u X x → Small u (k * X) sd → Small u ((k - 1 : ℚ) * X) dd →
      Same (AllSmall u (2 * k * X))
        ((conx.rd c s).bind fun v => (ty.rd c s).bind fun z => (out.rd c v).bind fun o =>
          if Num.lt (Num.abs o) (Num.abs ((sd - dd - x) * fin (z : ℚ))) then out.wr c v ((sd - dd - x) * fin (z : ℚ)) else some out)
        ((conx.rd c s).bind fun v => (ty.rd c s).bind fun z => (out.rd c v).bind fun o =>
          if Num.lt (Num.abs o) (Num.abs (Rounded.rn r (Rounded.rn r (Rounded.rn r (sd - dd) - x) * fin (z : ℚ)))) then
            out.wr c v (Rounded.rn r (Rounded.rn r (Rounded.rn r (sd - dd) - x) * fin (z : ℚ))) else some out) := by
    intro sd dd x hx hsd hdd
    have a1 := hsd.sub hdd
    have a2 : Small u (2 * k * X) (sd - dd - x) := (a1.sub hx).mono (by nlinarith)
    refine Same.read fun v hv => Same.read fun z hz => ?_
    have a3 := a2.sign (hsign c s z hz)
    rw [a1.rn hr (by nlinarith), a2.rn hr hM, a3.rn hr hM]
    refine Same.read fun o h => ?_
    split
    · refine Same.of fun out2 hw => ?_
      obtain ⟨-, -, -, e⟩ := mat_wr hw
      intro i j
      rw [e]
      simp only
      split
      · exact a3
      · exact ho i j
    · exact Same.some ho
  refine (exact_ksatLit hr hX hsign hm hM (by omega) c s).bind fun x hx => Same.read fun f0 h0 => Same.read fun f1 h1 => Same.read fun b1 h2 => ?_
  have k0 : Small u (s * X) f0 := by rw [(mat_rd h0).2]; exact hf s hs.le 0 (by omega)
  have k1 : Small u (s * X) f1 := by rw [(mat_rd h1).2]; exact hf s hs.le 1 (by omega)
  have k2 : Small u ((k - (s + 1 : ℕ) : ℚ) * X) b1 := by rw [(mat_rd h2).2]; exact hb (s + 1) (by omega) hs 1 (by omega)
  have e1 : (s * X + (k - (s + 1 : ℕ) : ℚ) * X : ℚ) = (k - 1 : ℚ) * X := by push_cast; ring
  have b01 := (k0.add k2).mono e1.le
  have b11 := (k1.add k2).mono e1.le
  have b01x : Small u (k * X) (f0 + b1 + x) := (b01.add hx).mono (by nlinarith)
  have b1x := k1.add hx
  have b1x1 : Small u (k * X) (f1 + x + b1) := (b1x.add k2).mono (by push_cast; nlinarith)
  have hm1 : ((k - 1 : ℚ) * X) ≤ M := by nlinarith
  have hm2 : (k * X : ℚ) ≤ M := by nlinarith
  rw [b01.rn hr hm1, b01x.rn hr hm2, b1x.rn hr (by nlinarith), b1x1.rn hr hm2]
  have hsolid := b01x.cmin b1x1
  by_cases hk : s + 1 = k
  · simp only [if_pos hk]
    rw [b11.rn hr hm1]
    exact tail hx hsolid b11
  · simp only [if_neg hk]
    refine Same.read fun b0 h3 => ?_
    have k3 : Small u ((k - (s + 1 : ℕ) : ℚ) * X) b0 := by rw [(mat_rd h3).2]; exact hb (s + 1) (by omega) hs 0 (by omega)
    have b00 := (k0.add k3).mono e1.le
    rw [b00.rn hr hm1, b11.rn hr hm1]
    exact tail hx hsolid (b00.cmin b11)

theorem exact_ksatBody (c : ℕ) {s : Mat Num × Mat Num × Mat Num} (ho : AllSmall u (2 * k * X) s.2.2) :
    Same (fun a => AllSmall u (2 * k * X) a.2.2) (ksatBody k m conx ty c s) (Rounded.ksatBody r k m conx ty c s) := by
  refine Same.read fun fw hw => ?_
  refine Same.bind (Same.loopUp (FwdSmall u X) ?_ fun s hs a ha => exact_ksatFwdStage hr hX hsign hm hM c hs ha) fun fw2 hf => ?_
  · obtain ⟨-, -, e⟩ := mat_wrRow hw
    intro s' hs' a ha
    obtain rfl : s' = 0 := by omega
    rw [e]
    simp only [if_true]
    show Small u _ (if a = 0 then 0 else pinf)
    split
    · exact Small.zero (by simp)
    · exact Small.pinf
  refine Same.read fun bw hw => ?_
  refine Same.bind (Same.loopDown (BwdSmall u X k) ?_ fun s hs a ha => exact_ksatBwdStage hr hX hsign hm hM c hs ha) fun bw2 hb => ?_
  · obtain ⟨-, -, e⟩ := mat_wrRow hw
    intro s' hs' hs'' a ha
    obtain rfl : s' = k := by omega
    rw [e]
    simp only [if_true]
    exact Small.zero (by simp)
  refine Same.bind (Same.loopUp (fun _ => AllSmall u (2 * k * X)) ho fun s hs a ha => exact_ksatOut hr hX hsign hm hM c hs hf hb ha) fun o ho => ?_
  exact Same.some ho

theorem exact_ksatToVariableUpdate (n : ℕ) : Same (AllSmall u (2 * k * X)) (ksatToVariableUpdate n k m out conx ty)
    (Rounded.ksatToVariableUpdate r n k m out conx ty) := by
  refine Same.bind (Same.loopUp (fun _ a => AllSmall u (2 * k * X) a.2.2) (fun _ _ => Small.zero (by positivity))
    fun c _ a ha => exact_ksatBody hr hX hsign hm hM c ha) fun a ha => ?_
  exact Same.some ha

end clause

section vars
variable {m : Mat Num} {B X : ℚ} {D : ℕ} (hB : 0 ≤ B) (hX : 0 ≤ X) (hm : ∀ c v x, m.rd c v = some x → Small u X x) (hM : B + (D + 2) * X ≤ M)
include hB hX hm hM

omit hr hX hm hM in
theorem small_usedCosts (n : ℕ) (used : List ℕ) {cost : Arr Num} (hc : ∀ v x, cost.rd v = some x → Small u B x) :
    Same (fun a => ∀ v, Small u B (a.data v)) (usedCosts n used cost) (usedCosts n used cost) := by
  refine Same.loopList (fun _ (a : Arr Num) => ∀ v, Small u B (a.data v)) (i := 0) (fun _ => Small.zero hB) fun v _ _ _ a ha =>
    Same.read fun c h => Same.of fun b hb => ?_
  obtain ⟨-, -, e⟩ := arr_wr hb
  intro v'
  rw [e]
  simp only
  split
  · exact hc v c h
  · exact ha v'

theorem exact_variableSums (n : ℕ) {conns : List (List ℕ)} (hl : ∀ (v : ℕ) (l : List ℕ), conns[v]? = some l → l.length ≤ D + 1) {costs : Arr Num}
    (hc : ∀ v, Small u B (costs.data v)) :
    Same (fun a => ∀ v, Small u (B + (D + 1) * X) (a.data v)) (variableSums n m conns costs) (Rounded.variableSums r n m conns costs) := by
  have hD : (0 : ℚ) ≤ D := by positivity
  have h0 : 0 ≤ B + (D + 1) * X := by positivity
  refine (Same.loopUp (fun i a => (∀ v, Small u (B + (D + 1) * X) (a.data v)) ∧ ∀ v, i ≤ v → a.data v = 0) ⟨fun _ => Small.zero h0, fun _ _ => rfl⟩
    fun i _ a ha => ?_).mono fun a ha => ha.1
  refine Same.read fun l hli => ?_
  have hlen := hl i l hli
  refine Same.bind (P := fun a => Small u ((D + 1) * X) (a.data i) ∧ (∀ v, Small u (B + (D + 1) * X) (a.data v)) ∧ ∀ v, i + 1 ≤ v → a.data v = 0) ?_
    fun b hb => ?_
  · refine Same.mono (P := fun a => Small u (((0 + l.length : ℕ) : ℚ) * X) (a.data i) ∧ (∀ v, v ≠ i → Small u (B + (D + 1) * X) (a.data v)) ∧
      ∀ v, i + 1 ≤ v → a.data v = 0) ?_ ?_
    · refine Same.loopList (fun j (a : Arr Num) => Small u ((j : ℚ) * X) (a.data i) ∧ (∀ v, v ≠ i → Small u (B + (D + 1) * X) (a.data v)) ∧
        ∀ v, i + 1 ≤ v → a.data v = 0) (i := 0) ⟨?_, fun v _ => ha.1 v, fun v hv => ha.2 v (by omega)⟩ fun c _ j hj a ⟨g1, g2, g3⟩ => ?_
      · rw [ha.2 i le_rfl]; exact Small.zero (by simp)
      · refine Same.read fun s hs => Same.read fun x hx => ?_
        have k1 : Small u (j * X) s := by rw [(arr_rd hs).2]; exact g1
        have k2 := k1.add (hm c i x hx)
        have hj1 : (j : ℚ) + 1 ≤ D + 1 := by exact_mod_cast (show j + 1 ≤ D + 1 by omega)
        rw [k2.rn hr (by nlinarith)]
        refine Same.of fun b hb => ?_
        obtain ⟨-, -, e⟩ := arr_wr hb
        rw [e]
        refine ⟨?_, fun v hv => ?_, fun v hv => ?_⟩
        · simp only [if_true]
          refine k2.mono (le_of_eq ?_)
          push_cast; ring
        · simp only [if_neg hv]; exact g2 v hv
        · simp only [if_neg (show v ≠ i by omega)]; exact g3 v hv
    · rintro a ⟨h1, h2, h3⟩
      have hl1 : ((0 + l.length : ℕ) : ℚ) ≤ D + 1 := by rw [Nat.zero_add]; exact_mod_cast hlen
      have h4 : Small u ((D + 1) * X) (a.data i) := h1.mono (mul_le_mul_of_nonneg_right hl1 hX)
      refine ⟨h4, fun v => ?_, h3⟩
      by_cases hv : v = i
      · rw [hv]; exact h4.mono (by linarith)
      · exact h2 v hv
  · refine Same.read fun s hs => Same.read fun c hcc => ?_
    have k1 : Small u ((D + 1) * X) s := by rw [(arr_rd hs).2]; exact hb.1
    have k2 : Small u B c := by rw [(arr_rd hcc).2]; exact hc i
    have k3 : Small u (B + (D + 1) * X) (s + c) := (k1.add k2).mono (by linarith)
    rw [k3.rn hr (by nlinarith)]
    refine Same.of fun d hd => ?_
    obtain ⟨-, -, e⟩ := arr_wr hd
    rw [e]
    refine ⟨fun v => ?_, fun v hv => ?_⟩
    · simp only
      split
      · exact k3
      · exact hb.2.1 v
    · simp only [if_neg (show v ≠ i by omega)]; exact hb.2.2 v hv

theorem exact_variableOut {conns : List (List ℕ)} {sums : Arr Num} (hs : ∀ v, Small u (B + (D + 1) * X) (sums.data v)) (v : ℕ) {out : Mat Num}
    (ho : AllSmall u (B + (D + 2) * X) out) :
    Same (AllSmall u (B + (D + 2) * X)) (variableOut sums m conns v out) (Rounded.variableOut r sums m conns v out) := by
  refine Same.read fun l _ => Same.loopList (fun _ => AllSmall u (B + (D + 2) * X)) (i := 0) ho fun c _ _ _ a ha => ?_
  refine Same.read fun o _ => Same.read fun s h1 => Same.read fun x h2 => ?_
  have k1 : Small u (B + (D + 1) * X) s := by rw [(arr_rd h1).2]; exact hs v
  have k2 : Small u (B + (D + 2) * X) (s - x) := (k1.sub (hm c v x h2)).mono (by linarith)
  rw [k2.rn hr hM]
  split
  · refine Same.of fun b hb => ?_
    obtain ⟨-, -, -, e⟩ := mat_wr hb
    intro i j
    rw [e]
    simp only
    split
    · exact k2
    · exact ha i j
  · exact Same.some ha

theorem exact_variableToKsat (n : ℕ) (used : List ℕ) {conns : List (List ℕ)} (hl : ∀ (v : ℕ) (l : List ℕ), conns[v]? = some l → l.length ≤ D + 1)
    {cost : Arr Num} (hc : ∀ v x, cost.rd v = some x → Small u B x) (V : Mat Num) :
    Same (AllSmall u (B + (D + 2) * X)) (variableToKsat n m V used cost conns) (Rounded.variableToKsat r n m V used cost conns) := by
  refine (small_usedCosts hB n used hc).bind fun costs hcs => (exact_variableSums hr hB hX hm hM n hl hcs).bind fun sums hs => ?_
  refine Same.loopList (fun _ => AllSmall u (B + (D + 2) * X)) (i := 0) (fun _ _ => Small.zero (by positivity)) fun v _ _ _ a ha => ?_
  exact exact_variableOut hr hB hX hm hM hs v ha

end vars

omit hr in
theorem filtering_undamped {flag : Bool} {alpha : ℚ} (hd : flag = false ∨ alpha = 0) (rows iter : ℕ) (d : Mat Num) (s : Mat Num × Mat Num) :
    Rounded.processFiltering r rows flag alpha iter d s = processFiltering rows flag alpha iter d s := by
  have hno : ¬ (flag = true ∧ alpha ≠ 0) := by
    rintro ⟨h1, h2⟩
    rcases hd with h | h
    · rw [h] at h1; cases h1
    · exact h2 h
  unfold Rounded.processFiltering processFiltering
  congr 1
  funext e s
  simp only [Rounded.filterAt, filterAt, Rounded.filterRow, filterRow, if_neg hno]

/-- One iteration. -/
theorem exact_ksatIter {inp : KsatInputs} (hd : inp.flag = false ∨ inp.alpha = 0) {B X : ℚ} {D : ℕ} (hB : 0 ≤ B) (hX : 0 ≤ X)
    (hsign : ∀ c s z, inp.conxType.rd c s = some z → z = 1 ∨ z = -1) (hM1 : 2 * inp.k * X ≤ M) (hM2 : B + (D + 2) * X ≤ M)
    (hl : ∀ (v : ℕ) (l : List ℕ), inp.conns[v]? = some l → l.length ≤ D + 1) (hc : ∀ v x, inp.cost.rd v = some x → Small u B x) {j : ℕ}
    {s s' : KsatState} (hm : ∀ c i v, inp.conx.rd c i = some v → ∀ x, s.v2k.rd c v = some x → Small u X x) (h : ksatIter inp j s = some s')
    (hk : AllSmall u (2 * inp.k * X) s'.dummy → ∀ c v x, s'.k2v.rd c v = some x → Small u X x) :
    Rounded.ksatIter r inp j s = some s' ∧ AllSmall u (B + (D + 2) * X) s'.v2k := by
  obtain ⟨d, h1, h⟩ := Option.bind_eq_some_iff.mp h
  obtain ⟨⟨k2v, old⟩, h2, h⟩ := Option.bind_eq_some_iff.mp h
  obtain ⟨v2k, h3, h⟩ := Option.bind_eq_some_iff.mp h
  obtain rfl := Option.some.inj h
  obtain ⟨g1, g2⟩ := exact_ksatToVariableUpdate hr hX hsign hm hM1 _ d h1
  obtain ⟨g3, g4⟩ := exact_variableToKsat hr hB hX (hk g2) hM2 _ _ hl hc _ v2k h3
  refine ⟨?_, g4⟩
  simp only [Rounded.ksatIter, g1, filtering_undamped hd, h2, g3, Option.bind_eq_bind, Option.bind_some]

end Verif.Proofs
