import Verif.Spec.Assume
import Verif.Proofs.Filter
import Verif.Proofs.KsatConstraint

/-! # Infinite values in the k-SAT updates: values, and the update of clauses with two literals -/

namespace Verif.Proofs
open Verif Num Spec Model

/-- An infinity. -/
def IsInf (x : Num) : Prop := x = pinf ∨ x = ninf

theorem isInf_fin {q : ℚ} : ¬ IsInf (fin q) := by simp [IsInf]
theorem isInf_zero : ¬ IsInf (0 : Num) := isInf_fin

theorem Agrees.fin (b : Bool) (q : ℚ) : Agrees b (fin q) := by simp [Agrees]
theorem Agrees.zero (b : Bool) : Agrees b (0 : Num) := Agrees.fin b 0

theorem agrees_add {b : Bool} {x y : Num} (hx : Agrees b x) (hy : Agrees b y) :
    Agrees b (x + y) ∧ (IsInf (x + y) ↔ IsInf x ∨ IsInf y) := by
  obtain ⟨h1, h2, h3⟩ := hx
  obtain ⟨g1, g2, g3⟩ := hy
  have e1 : pinf + ninf = nan := rfl
  have e2 : ninf + pinf = nan := rfl
  have e3 : ninf + ninf = ninf := rfl
  cases x <;> cases y <;> simp_all [Agrees, IsInf]

theorem agrees_sub_fin {b : Bool} {x : Num} (hx : Agrees b x) (q : ℚ) :
    Agrees b (x - fin q) ∧ (IsInf (x - fin q) ↔ IsInf x) := by
  have h := agrees_add hx (Agrees.fin b (-q))
  have e : x - fin q = x + fin (-q) := rfl
  rw [e]
  exact ⟨h.1, h.2.trans (or_iff_left isInf_fin)⟩

theorem sub_self_inf {b : Bool} {x y : Num} (hx : Agrees b x) (hy : Agrees b y) (ix : IsInf x) (iy : IsInf y) : x - y = nan := by
  obtain ⟨h1, h2, h3⟩ := hx
  obtain ⟨g1, g2, g3⟩ := hy
  rcases ix with rfl | rfl <;> rcases iy with rfl | rfl <;> simp_all <;> rfl

theorem Agrees.fin_of_not {b : Bool} {x : Num} (hx : Agrees b x) (h : ¬ IsInf x) : ∃ q, x = .fin q := by
  cases x with
  | nan => exact absurd rfl hx.1
  | ninf => exact absurd (Or.inr rfl) h
  | pinf => exact absurd (Or.inl rfl) h
  | fin q => exact ⟨q, rfl⟩

theorem agrees_scale {b : Bool} {x : Num} (hx : Agrees b x) {q : ℚ} (hq : 0 < q) :
    Agrees b (x * fin q) ∧ (IsInf (x * fin q) ↔ IsInf x) := by
  have e1 : pinf * fin q = pinf := by
    show infMul pinf q = pinf
    simp [infMul, hq, hq.ne']
  have e2 : ninf * fin q = ninf := by
    show infMul ninf q = ninf
    simp [infMul, hq, hq.ne']
  cases x with
  | nan => exact absurd rfl hx.1
  | ninf => rw [e2]; exact ⟨hx, Iff.rfl⟩
  | pinf => rw [e1]; exact ⟨hx, Iff.rfl⟩
  | fin p => rw [fin_mul]; exact ⟨Agrees.fin b _, iff_of_false isInf_fin isInf_fin⟩

theorem agrees_filter {b : Bool} {d o : Num} (hd : Agrees b d) (ho : Agrees b o) {flag : Bool} {alpha : ℚ} (h0 : 0 ≤ alpha)
    (h1 : alpha < 1) (j : ℕ) :
    Agrees b (filterVal flag alpha j d o) ∧ (IsInf d → IsInf (filterVal flag alpha j d o)) ∧
      (IsInf (filterVal flag alpha j d o) → IsInf d ∨ (flag = true ∧ alpha ≠ 0) ∧ IsInf o) := by
  unfold filterVal
  split_ifs with hf hj
  · have hs := agrees_scale hd (q := 1 - alpha) (by linarith)
    exact ⟨hs.1, hs.2.mpr, fun h => Or.inl (hs.2.mp h)⟩
  · have hs := agrees_scale hd (q := 1 - alpha) (by linarith)
    have hp : 0 < alpha := lt_of_le_of_ne h0 (Ne.symm hf.2)
    have ht := agrees_scale ho hp
    have ha := agrees_add hs.1 ht.1
    exact ⟨ha.1, fun h => ha.2.mpr (Or.inl (hs.2.mpr h)), fun h => (ha.2.mp h).imp hs.2.mp fun h => ⟨hf, ht.2.mp h⟩⟩
  · exact ⟨hd, id, Or.inl⟩

/-- The value left by a write that happens only if the new value is larger in magnitude than the old one. -/
def kept (o x : Num) : Num := if lt (abs o) (abs x) then x else o

/-- A message, with zero in place of NaN. -/
def clean (x : Num) : Num := if x = nan then 0 else x

theorem kept_zero (x : Num) : kept 0 x = clean x := by
  cases x with
  | fin q =>
    show (if lt (abs (fin 0)) (abs (fin q)) then fin q else 0) = clean (fin q)
    rw [abs_fin, abs_fin, lt_fin, abs_zero]
    by_cases h : q = 0
    · subst h; simp [clean]; rfl
    · simp [h, clean]
  | _ => rfl

theorem kept_clean (x : Num) : kept (clean x) x = clean x := by
  cases x with
  | fin q => simp [kept, clean]
  | _ => rfl

theorem lt_self (x : Num) : lt x x = false := by cases x <;> simp [lt]

/-- The literal values of a clause with two literals: message to the first one. -/
def msgFst (y z : Num) : Num :=
  cmin (0 + cmin 0 (0 + z) + y) (pinf + y + cmin 0 (0 + z)) - cmin (0 + z) (pinf + cmin 0 (0 + z)) - y

/-- The message to the second literal, `z` being the value of the first one. -/
def msgSnd (y z : Num) : Num :=
  cmin (0 + 0 + y) (cmin (pinf + cmin 0 z) (0 + z) + y + 0) - (cmin (pinf + cmin 0 z) (0 + z) + 0) - y

theorem msgFst_cases {y z : Num} (hy : y ≠ nan) (hz : z ≠ nan) :
    (∃ q, clean (msgFst y z) = fin q) ∧ ¬ (z = pinf ∧ ¬ IsInf y) ∨ (clean (msgFst y z) = ninf ∧ z = pinf ∧ ¬ IsInf y) := by
  cases y with
  | nan => exact absurd rfl hy
  | fin a => cases z with
    | nan => exact absurd rfl hz
    | fin c =>
      left
      refine ⟨?_, by simp⟩
      simp only [msgFst, zero_def, fin_add, cmin_fin, pinf_add_fin, cmin_fin_pinf, fin_sub, clean, reduceCtorEq, if_false]
      exact ⟨_, rfl⟩
    | ninf => left; exact ⟨⟨0, rfl⟩, by simp⟩
    | pinf => right; exact ⟨rfl, rfl, isInf_fin⟩
  | ninf => cases z with
    | nan => exact absurd rfl hz
    | fin c =>
      left
      refine ⟨⟨0, ?_⟩, by simp⟩
      simp only [msgFst, zero_def, fin_add, cmin_fin, pinf_add_fin, cmin_fin_pinf]
      rfl
    | ninf => left; exact ⟨⟨0, rfl⟩, by simp⟩
    | pinf => left; exact ⟨⟨0, rfl⟩, by simp [IsInf]⟩
  | pinf => cases z with
    | nan => exact absurd rfl hz
    | fin c =>
      left
      refine ⟨⟨0, ?_⟩, by simp⟩
      simp only [msgFst, zero_def, fin_add, cmin_fin, pinf_add_fin, cmin_fin_pinf]
      rfl
    | ninf => left; exact ⟨⟨0, rfl⟩, by simp⟩
    | pinf => left; exact ⟨⟨0, rfl⟩, by simp [IsInf]⟩

theorem msgSnd_cases {y z : Num} (hy : y ≠ nan) (hz : z ≠ nan) :
    (∃ q, clean (msgSnd y z) = fin q) ∧ ¬ (z = pinf ∧ ¬ IsInf y) ∨ (clean (msgSnd y z) = ninf ∧ z = pinf ∧ ¬ IsInf y) := by
  cases y with
  | nan => exact absurd rfl hy
  | fin a => cases z with
    | nan => exact absurd rfl hz
    | fin c =>
      left
      refine ⟨?_, by simp⟩
      simp only [msgSnd, zero_def, fin_add, cmin_fin, pinf_add_fin, cmin_pinf_fin, fin_sub, clean, reduceCtorEq, if_false]
      exact ⟨_, rfl⟩
    | ninf => left; exact ⟨⟨0, rfl⟩, by simp⟩
    | pinf => right; exact ⟨rfl, rfl, isInf_fin⟩
  | ninf => cases z with
    | nan => exact absurd rfl hz
    | fin c =>
      left
      refine ⟨⟨0, ?_⟩, by simp⟩
      simp only [msgSnd, zero_def, fin_add, cmin_fin, pinf_add_fin, cmin_pinf_fin]
      rfl
    | ninf => left; exact ⟨⟨0, rfl⟩, by simp⟩
    | pinf => left; exact ⟨⟨0, rfl⟩, by simp [IsInf]⟩
  | pinf => cases z with
    | nan => exact absurd rfl hz
    | fin c =>
      left
      refine ⟨⟨0, ?_⟩, by simp⟩
      simp only [msgSnd, zero_def, fin_add, cmin_fin, pinf_add_fin, cmin_pinf_fin]
      rfl
    | ninf => left; exact ⟨⟨0, rfl⟩, by simp⟩
    | pinf => left; exact ⟨⟨0, rfl⟩, by simp [IsInf]⟩

/-- One clause with two literals of values `y`, `z`: what is written. -/
theorem ksatBody_two {C n c : ℕ} {V : Mat Num} {conx : Mat ℕ} {ty : Mat ℤ} (hc : c < C) (ht : ClauseTables C 2 n conx ty)
    {y z : Num} (hy : ksatLit V conx ty c 0 = some y) (hz : ksatLit V conx ty c 1 = some z) {f b out : Mat Num}
    (fr : f.rows = 3) (fc : f.cols = 2) (br : b.rows = 3) (bc : b.cols = 2) (or : out.rows = C) (oc : out.cols = n)
    (h0 : ∀ j, out.data c j = 0) :
    ∃ f' b' out', ksatBody 2 V conx ty c (f, b, out) = some (f', b', out') ∧ f'.rows = 3 ∧ f'.cols = 2 ∧ b'.rows = 3 ∧
      b'.cols = 2 ∧ out'.rows = C ∧ out'.cols = n ∧ (∀ c' ≠ c, ∀ j, out'.data c' j = out.data c' j) ∧
      out'.data c (conx.data c 0) = clean (msgFst y z * fin (ty.data c 0 : ℚ)) ∧
      out'.data c (conx.data c 1) = clean (msgSnd z y * fin (ty.data c 1 : ℚ)) ∧
      ∀ j, j ≠ conx.data c 0 → j ≠ conx.data c 1 → out'.data c j = 0 := by
  have l0 := ht.conx_lt c hc 0 (by omega)
  have l1 := ht.conx_lt c hc 1 (by omega)
  have hne : conx.data c 1 ≠ conx.data c 0 := fun h => absurd (ht.conx_inj c hc 1 (by omega) 0 (by omega) h) (by omega)
  have kw : ∀ (o : Mat Num) (v : ℕ) (x : Num), o.rows = C → o.cols = n → v < n →
      (if lt (abs (o.data c v)) (abs x) then o.wr c v x else some o) =
        some ⟨C, n, fun c' j => if c' = c ∧ j = v then kept (o.data c v) x else o.data c' j⟩ := by
    intro o v x hr hcc hv
    obtain ⟨r, k, d⟩ := o
    simp only at hr hcc
    subst hr hcc
    unfold kept
    split_ifs with h
    · rw [Mat.wr_of_lt hc hv]
    · congr 2
      funext c' j
      split_ifs with h'
      · rw [h'.1, h'.2]
      · rfl
  obtain ⟨f', hf, fr', fc', f00, f01, f10, f11⟩ : ∃ f', ((f.wrRow 0 initFwd2).bind fun f => loopUp 2 (ksatFwdStage V conx ty c) f) = some f' ∧
      f'.rows = 3 ∧ f'.cols = 2 ∧ f'.data 0 0 = 0 ∧ f'.data 0 1 = pinf ∧ f'.data 1 0 = 0 ∧
      f'.data 1 1 = cmin (pinf + cmin 0 y) (0 + y) := by
    simp [loopUp, ksatFwdStage, hy, hz, Mat.rd, Mat.wr, Mat.wrRow, fr, fc, initFwd2]
  obtain ⟨b', hb, br', bc', b20, b21, b10, b11⟩ : ∃ b', ((b.wrRow 2 initBwd2).bind fun b => loopDown 2 (ksatBwdStage 2 V conx ty c) b) = some b' ∧
      b'.rows = 3 ∧ b'.cols = 2 ∧ b'.data 2 0 = 0 ∧ b'.data 2 1 = 0 ∧ b'.data 1 0 = z ∧
      b'.data 1 1 = cmin 0 (0 + z) := by
    simp [loopDown, ksatBwdStage, hy, hz, Mat.rd, Mat.wr, Mat.wrRow, br, bc, initBwd2]
  have c0 : conx.rd c 0 = some (conx.data c 0) := Mat.rd_of_lt (by rw [ht.conx_rows]; exact hc) (by rw [ht.conx_cols]; omega)
  have c1 : conx.rd c 1 = some (conx.data c 1) := Mat.rd_of_lt (by rw [ht.conx_rows]; exact hc) (by rw [ht.conx_cols]; omega)
  have t0 : ty.rd c 0 = some (ty.data c 0) := Mat.rd_of_lt (by rw [ht.ty_rows]; exact hc) (by rw [ht.ty_cols]; omega)
  have t1 : ty.rd c 1 = some (ty.data c 1) := Mat.rd_of_lt (by rw [ht.ty_rows]; exact hc) (by rw [ht.ty_cols]; omega)
  have rf : ∀ i j, i < 3 → j < 2 → f'.rd i j = some (f'.data i j) := fun i j hi hj => Mat.rd_of_lt (by omega) (by omega)
  have rb : ∀ i j, i < 3 → j < 2 → b'.rd i j = some (b'.data i j) := fun i j hi hj => Mat.rd_of_lt (by omega) (by omega)
  have o1 : ksatOut 2 V conx ty f' b' c 0 out = some ⟨C, n, fun c' j => if c' = c ∧ j = conx.data c 0 then
      kept (out.data c (conx.data c 0)) (msgFst y z * fin (ty.data c 0 : ℚ)) else out.data c' j⟩ := by
    rw [← kw out _ _ or oc l0]
    have ro : out.rd c (conx.data c 0) = some (out.data c (conx.data c 0)) := Mat.rd_of_lt (by omega) (by omega)
    simp only [ksatOut, hy, rf 0 0 (by omega) (by omega), rf 0 1 (by omega) (by omega), rb 1 0 (by omega) (by omega),
      rb 1 1 (by omega) (by omega), c0, t0, ro, Option.bind_eq_bind, Option.bind_some, zero_add, f00, f01, b10, b11,
      show ¬ (1 = 2) by omega, if_false, msgFst]
    rfl
  have o2 : ∀ o : Mat Num, o.rows = C → o.cols = n → ksatOut 2 V conx ty f' b' c 1 o =
      some ⟨C, n, fun c' j => if c' = c ∧ j = conx.data c 1 then
      kept (o.data c (conx.data c 1)) (msgSnd z y * fin (ty.data c 1 : ℚ)) else o.data c' j⟩ := by
    intro o or oc
    rw [← kw o _ _ or oc l1]
    have ro : o.rd c (conx.data c 1) = some (o.data c (conx.data c 1)) := Mat.rd_of_lt (by omega) (by omega)
    simp only [ksatOut, hz, rf 1 0 (by omega) (by omega), rf 1 1 (by omega) (by omega), rb (1 + 1) 1 (by omega) (by omega),
      c1, t1, ro, Option.bind_eq_bind, Option.bind_some, f10, f11, b21, if_true, msgSnd]
    rfl
  have hl : loopUp 2 (ksatOut 2 V conx ty f' b' c) out = (ksatOut 2 V conx ty f' b' c 0 out).bind (ksatOut 2 V conx ty f' b' c 1) := rfl
  have hbody : ksatBody 2 V conx ty c (f, b, out) = (loopUp 2 (ksatOut 2 V conx ty f' b' c) out).bind fun o => some (f', b', o) := by
    simp only [ksatBody, Option.bind_eq_bind]
    have e1 : ∀ (g : Mat Num → Option (Mat Num × Mat Num × Mat Num)),
        ((f.wrRow 0 initFwd2).bind fun f => (loopUp 2 (ksatFwdStage V conx ty c) f).bind g) = g f' := by
      intro g
      rw [← Option.bind_assoc, hf]; rfl
    have e2 : ∀ (g : Mat Num → Option (Mat Num × Mat Num × Mat Num)),
        ((b.wrRow 2 initBwd2).bind fun b => (loopDown 2 (ksatBwdStage 2 V conx ty c) b).bind g) = g b' := by
      intro g
      rw [← Option.bind_assoc, hb]; rfl
    rw [e1, e2]
  rw [hl, o1, Option.bind_some, o2 _ rfl rfl, Option.bind_some] at hbody
  refine ⟨f', b', _, hbody, fr', fc', br', bc', rfl, rfl, ?_, ?_, ?_, ?_⟩
  · intro c' hc' j
    simp [hc']
  · simp only [true_and, hne.symm, if_false, if_true, h0, kept_zero]
  · simp only [true_and, hne, if_false, if_true, h0, kept_zero]
  · intro j hj0 hj1
    simp [hj0, hj1, h0]

theorem clean_mul_sign {L : Num} {t : ℤ} (ht : t = 1 ∨ t = -1) : clean (L * fin (t : ℚ)) = clean L * fin (t : ℚ) := by
  have e3 : fin 0 * fin ((-1 : ℤ) : ℚ) = fin 0 := by simp
  have e4 : fin 0 * fin ((1 : ℤ) : ℚ) = fin 0 := by simp
  rcases ht with rfl | rfl
  · cases L with
    | nan => exact e4.symm
    | fin q => rfl
    | ninf => decide +kernel
    | pinf => decide +kernel
  · cases L with
    | nan => exact e3.symm
    | fin q => rfl
    | ninf => decide +kernel
    | pinf => decide +kernel

/-- The update of clauses with two literals: each message is finite, or it is the infinity that makes its literal true,
and the latter exactly if the other literal's value is plus infinity and its own value is finite. -/
theorem ksatUpdate_two {C n : ℕ} {V old : Mat Num} {conx : Mat ℕ} {ty : Mat ℤ} (ht : ClauseTables C 2 n conx ty)
    (vr : V.rows = C) (vc : V.cols = n) (hV : ∀ c < C, ∀ s < 2, V.data c (conx.data c s) ≠ nan) (hr : old.rows = C) (hcc : old.cols = n) :
    ∃ out, ksatToVariableUpdate C 2 V old conx ty = some out ∧ out.rows = C ∧ out.cols = n ∧ ∀ c < C,
      (∀ s < 2, ((∃ q, out.data c (conx.data c s) = fin q) ∧
          ¬ (V.data c (conx.data c (1 - s)) * fin (ty.data c (1 - s) : ℚ) = pinf ∧ ¬ IsInf (V.data c (conx.data c s)))) ∨
        (out.data c (conx.data c s) = ninf * fin (ty.data c s : ℚ) ∧
          V.data c (conx.data c (1 - s)) * fin (ty.data c (1 - s) : ℚ) = pinf ∧ ¬ IsInf (V.data c (conx.data c s)))) ∧
      ∀ j, (∀ s < 2, conx.data c s ≠ j) → out.data c j = 0 := by
  have hinf : ∀ {x : Num} {t : ℤ}, t = 1 ∨ t = -1 → (IsInf (x * fin (t : ℚ)) ↔ IsInf x) ∧ (x ≠ nan → x * fin (t : ℚ) ≠ nan) := by
    intro x t h
    have e1 : pinf * fin ((1 : ℤ) : ℚ) = pinf := by decide +kernel
    have e2 : pinf * fin ((-1 : ℤ) : ℚ) = ninf := by decide +kernel
    have e3 : ninf * fin ((1 : ℤ) : ℚ) = ninf := by decide +kernel
    have e4 : ninf * fin ((-1 : ℤ) : ℚ) = pinf := by decide +kernel
    have e5 : ∀ y, nan * y = nan := fun y => by cases y <;> rfl
    rcases h with rfl | rfl
    · cases x with
      | fin q => rw [fin_mul]; simp [IsInf]
      | nan => rw [e5]; simp
      | ninf => rw [e3]; simp
      | pinf => rw [e1]; simp
    · cases x with
      | fin q => rw [fin_mul]; simp [IsInf]
      | nan => rw [e5]; simp
      | ninf => rw [e4]; simp [IsInf]
      | pinf => rw [e2]; simp [IsInf]
  obtain ⟨⟨f, b, out⟩, hst, -, -, -, -, hor, hoc, hod, -⟩ :=
    loopUp_inv (n := C) (body := ksatBody 2 V conx ty)
      (s := (Mat.fill (2 + 1) 2 0, Mat.fill (2 + 1) 2 0, Mat.fill old.rows old.cols 0))
      (fun i st => st.1.rows = 3 ∧ st.1.cols = 2 ∧ st.2.1.rows = 3 ∧ st.2.1.cols = 2 ∧
        st.2.2.rows = C ∧ st.2.2.cols = n ∧
        (∀ c < i, (∀ s < 2, ((∃ q, st.2.2.data c (conx.data c s) = fin q) ∧
          ¬ (V.data c (conx.data c (1 - s)) * fin (ty.data c (1 - s) : ℚ) = pinf ∧ ¬ IsInf (V.data c (conx.data c s)))) ∨
        (st.2.2.data c (conx.data c s) = ninf * fin (ty.data c s : ℚ) ∧
          V.data c (conx.data c (1 - s)) * fin (ty.data c (1 - s) : ℚ) = pinf ∧ ¬ IsInf (V.data c (conx.data c s)))) ∧
          ∀ j, (∀ s < 2, conx.data c s ≠ j) → st.2.2.data c j = 0) ∧
        ∀ c, i ≤ c → ∀ j, st.2.2.data c j = 0)
      ⟨rfl, rfl, rfl, rfl, hr, hcc, fun c hc => absurd hc (by omega), fun _ _ _ => rfl⟩
      (by
        rintro i hi ⟨f, b, out⟩ ⟨fr, fc, br, bc, or, oc, od, oz⟩
        simp only at fr fc br bc or oc od oz
        have lit : ∀ s < 2, ksatLit V conx ty i s = some (V.data i (conx.data i s) * fin (ty.data i s : ℚ)) := by
          intro s hs
          have l := ht.conx_lt i hi s hs
          have r1 : conx.rd i s = some (conx.data i s) := Mat.rd_of_lt (by rw [ht.conx_rows]; exact hi) (by rw [ht.conx_cols]; omega)
          have r2 : ty.rd i s = some (ty.data i s) := Mat.rd_of_lt (by rw [ht.ty_rows]; exact hi) (by rw [ht.ty_cols]; omega)
          have r3 : V.rd i (conx.data i s) = some (V.data i (conx.data i s)) := Mat.rd_of_lt (by omega) (by omega)
          simp only [ksatLit, r1, r2, r3, Option.bind_eq_bind, Option.bind_some]
        obtain ⟨f', b', out', h1, g1, g2, g3, g4, g5, g6, g7, g8, g9, g10⟩ :=
          ksatBody_two hi ht (lit 0 (by omega)) (lit 1 (by omega)) fr fc br bc or oc (oz i (le_refl _))
        refine ⟨(f', b', out'), h1, g1, g2, g3, g4, g5, g6, ?_, ?_⟩
        · intro c hc
          by_cases hci : c = i
          · subst hci
            have s0 := ht.sign c hi 0 (by omega)
            have s1 := ht.sign c hi 1 (by omega)
            have n0 := (hinf (x := V.data c (conx.data c 0)) s0).2 (hV c hi 0 (by omega))
            have n1 := (hinf (x := V.data c (conx.data c 1)) s1).2 (hV c hi 1 (by omega))
            have i0 := (hinf (x := V.data c (conx.data c 0)) s0).1
            have i1 := (hinf (x := V.data c (conx.data c 1)) s1).1
            rw [clean_mul_sign s0] at g8
            rw [clean_mul_sign s1] at g9
            refine ⟨?_, fun j hj => g10 j (Ne.symm (hj 0 (by omega))) (Ne.symm (hj 1 (by omega)))⟩
            intro s hs
            dsimp only
            rcases (show s = 0 ∨ s = 1 by omega) with rfl | rfl
            · rw [g8, show 1 - 0 = 1 from rfl, ← i0]
              rcases msgFst_cases n0 n1 with ⟨⟨q, hq⟩, h⟩ | ⟨h, h'⟩
              · left
                rw [hq]
                exact ⟨⟨_, fin_mul _ _⟩, h⟩
              · right
                rw [h]
                exact ⟨rfl, h'⟩
            · rw [g9, show 1 - 1 = 0 from rfl, ← i1]
              rcases msgSnd_cases n1 n0 with ⟨⟨q, hq⟩, h⟩ | ⟨h, h'⟩
              · left
                rw [hq]
                exact ⟨⟨_, fin_mul _ _⟩, h⟩
              · right
                rw [h]
                exact ⟨rfl, h'⟩
          · have hlt : c < i := by omega
            have := od c hlt
            simp only [g7 c hci]
            exact this
        · intro c hc j
          simp only
          rw [g7 c (by omega) j]
          exact oz c (by omega) j)
  refine ⟨out, ?_, hor, hoc, hod⟩
  simp only [ksatToVariableUpdate, Option.bind_eq_bind, hst, Option.bind_some]

end Verif.Proofs
