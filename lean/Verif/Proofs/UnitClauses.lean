import Verif.Proofs.AssumeVar
import Verif.Proofs.KsatCall

/-! # Runs on clauses with one literal -/

namespace Verif.Proofs
open Verif Num Spec Model Properties

/-- The message of a clause whose only literal has sign `t`: the infinity that makes the literal true. -/
def force (t : ℤ) : Num := if t = 1 then ninf else pinf

/-- Minus infinity, or not a number. -/
def Down (x : Num) : Prop := x = ninf ∨ x = nan
/-- Plus infinity, or not a number. -/
def Up (x : Num) : Prop := x = pinf ∨ x = nan

theorem down_add {a : Num} (h : Down a) (y : Num) : Down (a + y) := by
  rcases h with rfl | rfl
  · cases y
    · exact Or.inr rfl
    · exact Or.inl rfl
    · exact Or.inl rfl
    · exact Or.inr rfl
  · exact Or.inr (by cases y <;> rfl)

theorem add_ninf (a : Num) : Down (a + ninf) := by
  cases a
  · exact Or.inr rfl
  · exact Or.inl rfl
  · exact Or.inl rfl
  · exact Or.inr rfl

theorem up_add {a : Num} (h : Up a) (y : Num) : Up (a + y) := by
  rcases h with rfl | rfl
  · cases y
    · exact Or.inr rfl
    · exact Or.inr rfl
    · exact Or.inl rfl
    · exact Or.inl rfl
  · exact Or.inr (by cases y <;> rfl)

theorem add_pinf (a : Num) : Up (a + pinf) := by
  cases a
  · exact Or.inr rfl
  · exact Or.inr rfl
  · exact Or.inl rfl
  · exact Or.inl rfl

theorem down_foldl {g : ℕ → Num} {l : List ℕ} {a : Num} (h : Down a ∨ ∃ c ∈ l, g c = ninf) : Down (l.foldl (fun s c => s + g c) a) := by
  induction l generalizing a with
  | nil => simpa using h
  | cons c l ih =>
    refine ih ?_
    rcases h with h | ⟨d, hd, e⟩
    · exact Or.inl (down_add h _)
    · rcases List.mem_cons.mp hd with rfl | hd
      · left; beta_reduce; rw [e]; exact add_ninf a
      · exact Or.inr ⟨d, hd, e⟩

theorem up_foldl {g : ℕ → Num} {l : List ℕ} {a : Num} (h : Up a ∨ ∃ c ∈ l, g c = pinf) : Up (l.foldl (fun s c => s + g c) a) := by
  induction l generalizing a with
  | nil => simpa using h
  | cons c l ih =>
    refine ih ?_
    rcases h with h | ⟨d, hd, e⟩
    · exact Or.inl (up_add h _)
    · rcases List.mem_cons.mp hd with rfl | hd
      · left; beta_reduce; rw [e]; exact add_pinf a
      · exact Or.inr ⟨d, hd, e⟩

theorem down_sub {x : Num} (h : Down x) : x - ninf = nan := by rcases h with rfl | rfl <;> rfl
theorem up_sub {x : Num} (h : Up x) : x - pinf = nan := by rcases h with rfl | rfl <;> rfl

theorem force_inf (t : ℤ) : IsInf (force t) := by
  unfold force IsInf
  split <;> simp

theorem ninf_mul_sign {t : ℤ} (ht : t = 1 ∨ t = -1) : ninf * fin (t : ℚ) = force t := by
  rcases ht with rfl | rfl <;> decide +kernel

/-- One clause with one literal of finite value: what is written. -/
theorem ksatBody_one {C n c : ℕ} {V : Mat Num} {conx : Mat ℕ} {ty : Mat ℤ} (hc : c < C) (ht : ClauseTables C 1 n conx ty)
    {q : ℚ} (hy : ksatLit V conx ty c 0 = some (fin q)) {f b out : Mat Num}
    (fr : f.rows = 2) (fc : f.cols = 2) (br : b.rows = 2) (bc : b.cols = 2) (or : out.rows = C) (oc : out.cols = n)
    (h0 : ∀ j, out.data c j = 0) :
    ∃ f' b' out', ksatBody 1 V conx ty c (f, b, out) = some (f', b', out') ∧ f'.rows = 2 ∧ f'.cols = 2 ∧ b'.rows = 2 ∧
      b'.cols = 2 ∧ out'.rows = C ∧ out'.cols = n ∧
      ∀ c' j, out'.data c' j = if c' = c ∧ j = conx.data c 0 then force (ty.data c 0) else out.data c' j := by
  have l0 := ht.conx_lt c hc 0 (by omega)
  obtain ⟨f', hf, fr', fc', f00, f01⟩ : ∃ f', ((f.wrRow 0 initFwd2).bind fun f => loopUp 1 (ksatFwdStage V conx ty c) f) = some f' ∧
      f'.rows = 2 ∧ f'.cols = 2 ∧ f'.data 0 0 = 0 ∧ f'.data 0 1 = pinf := by
    simp [loopUp, ksatFwdStage, hy, Mat.rd, Mat.wr, Mat.wrRow, fr, fc, initFwd2]
  obtain ⟨b', hb, br', bc', b11⟩ : ∃ b', ((b.wrRow 1 initBwd2).bind fun b => loopDown 1 (ksatBwdStage 1 V conx ty c) b) = some b' ∧
      b'.rows = 2 ∧ b'.cols = 2 ∧ b'.data 1 1 = 0 := by
    simp [loopDown, ksatBwdStage, hy, Mat.rd, Mat.wr, Mat.wrRow, br, bc, initBwd2]
  have c0 : conx.rd c 0 = some (conx.data c 0) := Mat.rd_of_lt (by rw [ht.conx_rows]; exact hc) (by rw [ht.conx_cols]; omega)
  have t0 : ty.rd c 0 = some (ty.data c 0) := Mat.rd_of_lt (by rw [ht.ty_rows]; exact hc) (by rw [ht.ty_cols]; omega)
  have ro : out.rd c (conx.data c 0) = some (out.data c (conx.data c 0)) := Mat.rd_of_lt (by omega) (by omega)
  have hval : (cmin (0 + 0 + fin q) (pinf + fin q + 0) - (pinf + 0) - fin q) * fin (ty.data c 0 : ℚ) = force (ty.data c 0) := by
    rw [← ninf_mul_sign (ht.sign c hc 0 (by omega))]
    congr 1
  have o1 : ksatOut 1 V conx ty f' b' c 0 out = some ⟨C, n, fun c' j => if c' = c ∧ j = conx.data c 0 then
      force (ty.data c 0) else out.data c' j⟩ := by
    have hlt : lt (abs (0 : Num)) (abs (force (ty.data c 0))) = true := by
      unfold force
      split <;> rfl
    simp only [ksatOut, hy, Mat.rd_of_lt (show 0 < f'.rows by omega) (show 0 < f'.cols by omega),
      Mat.rd_of_lt (show 0 < f'.rows by omega) (show 1 < f'.cols by omega),
      Mat.rd_of_lt (show 0 + 1 < b'.rows by omega) (show 1 < b'.cols by omega), c0, t0, ro, Option.bind_eq_bind, Option.bind_some,
      f00, f01, b11, if_true, h0, zero_add, hval, hlt, Mat.wr_of_lt (show c < out.rows by omega) (show conx.data c 0 < out.cols by omega), or, oc]
  have hl : loopUp 1 (ksatOut 1 V conx ty f' b' c) out = ksatOut 1 V conx ty f' b' c 0 out := rfl
  have hbody : ksatBody 1 V conx ty c (f, b, out) = (loopUp 1 (ksatOut 1 V conx ty f' b' c) out).bind fun o => some (f', b', o) := by
    simp only [ksatBody, Option.bind_eq_bind]
    have e1 : ∀ (g : Mat Num → Option (Mat Num × Mat Num × Mat Num)),
        ((f.wrRow 0 initFwd2).bind fun f => (loopUp 1 (ksatFwdStage V conx ty c) f).bind g) = g f' := by
      intro g
      rw [← Option.bind_assoc, hf]; rfl
    have e2 : ∀ (g : Mat Num → Option (Mat Num × Mat Num × Mat Num)),
        ((b.wrRow 1 initBwd2).bind fun b => (loopDown 1 (ksatBwdStage 1 V conx ty c) b).bind g) = g b' := by
      intro g
      rw [← Option.bind_assoc, hb]; rfl
    rw [e1, e2]
  rw [hl, o1, Option.bind_some] at hbody
  exact ⟨f', b', _, hbody, fr', fc', br', bc', rfl, rfl, fun _ _ => rfl⟩

/-- The update of clauses with one literal, when the incoming messages are finite. -/
theorem ksatUpdate_one {C n : ℕ} {V old : Mat Num} {conx : Mat ℕ} {ty : Mat ℤ} (ht : ClauseTables C 1 n conx ty)
    (vr : V.rows = C) (vc : V.cols = n) (hV : ∀ c < C, ∃ q, V.data c (conx.data c 0) = fin q) (hr : old.rows = C) (hcc : old.cols = n) :
    ∃ out, ksatToVariableUpdate C 1 V old conx ty = some out ∧ out.rows = C ∧ out.cols = n ∧
      ∀ c < C, ∀ j, out.data c j = if j = conx.data c 0 then force (ty.data c 0) else 0 := by
  obtain ⟨⟨f, b, out⟩, hst, -, -, -, -, hor, hoc, hod, -⟩ :=
    loopUp_inv (n := C) (body := ksatBody 1 V conx ty)
      (s := (Mat.fill (1 + 1) 2 0, Mat.fill (1 + 1) 2 0, Mat.fill old.rows old.cols 0))
      (fun i st => st.1.rows = 2 ∧ st.1.cols = 2 ∧ st.2.1.rows = 2 ∧ st.2.1.cols = 2 ∧
        st.2.2.rows = C ∧ st.2.2.cols = n ∧
        (∀ c < i, ∀ j, st.2.2.data c j = if j = conx.data c 0 then force (ty.data c 0) else 0) ∧
        ∀ c, i ≤ c → ∀ j, st.2.2.data c j = 0)
      ⟨rfl, rfl, rfl, rfl, hr, hcc, fun c hc => absurd hc (by omega), fun _ _ _ => rfl⟩
      (by
        rintro i hi ⟨f, b, out⟩ ⟨fr, fc, br, bc, or, oc, od, oz⟩
        simp only at fr fc br bc or oc od oz
        obtain ⟨q, hq⟩ := hV i hi
        have lit : ksatLit V conx ty i 0 = some (fin (q * (ty.data i 0 : ℚ))) := by
          have l := ht.conx_lt i hi 0 (by omega)
          have r1 : conx.rd i 0 = some (conx.data i 0) := Mat.rd_of_lt (by rw [ht.conx_rows]; exact hi) (by rw [ht.conx_cols]; omega)
          have r2 : ty.rd i 0 = some (ty.data i 0) := Mat.rd_of_lt (by rw [ht.ty_rows]; exact hi) (by rw [ht.ty_cols]; omega)
          have r3 : V.rd i (conx.data i 0) = some (V.data i (conx.data i 0)) := Mat.rd_of_lt (by omega) (by omega)
          simp only [ksatLit, r1, r2, r3, hq, Option.bind_eq_bind, Option.bind_some, fin_mul]
        obtain ⟨f', b', out', h1, g1, g2, g3, g4, g5, g6, g7⟩ := ksatBody_one hi ht lit fr fc br bc or oc (oz i (le_refl _))
        refine ⟨(f', b', out'), h1, g1, g2, g3, g4, g5, g6, fun c hc j => ?_, fun c hc j => ?_⟩
        · show out'.data c j = _
          rw [g7]
          by_cases hci : c = i
          · subst hci
            simp [oz c (le_refl _)]
          · rw [if_neg (fun h => hci h.1), od c (by omega)]
        · show out'.data c j = _
          rw [g7, if_neg (fun h => by omega), oz c (by omega)])
  refine ⟨out, ?_, hor, hoc, hod⟩
  simp only [ksatToVariableUpdate, Option.bind_eq_bind, hst, Option.bind_some]

theorem inf_scale {x : Num} (hx : IsInf x) {q : ℚ} (hq : 0 < q) : x * fin q = x := by
  rcases hx with rfl | rfl
  · show infMul pinf q = pinf
    simp [infMul, hq, hq.ne']
  · show infMul ninf q = ninf
    simp [infMul, hq, hq.ne']

/-- Damping keeps an infinity that does not change. -/
theorem filterVal_inf {flag : Bool} {alpha : ℚ} (ha : flag = true → 0 ≤ alpha ∧ alpha < 1) (j : ℕ) {d o : Num} (hd : IsInf d)
    (ho : flag = true ∧ alpha ≠ 0 → j ≠ 0 → o = d) : filterVal flag alpha j d o = d := by
  unfold filterVal
  split_ifs with hf hj
  · exact inf_scale hd (by linarith [(ha hf.1).2])
  · rw [ho hf hj, inf_scale hd (by linarith [(ha hf.1).2]), inf_scale hd (lt_of_le_of_ne (ha hf.1).1 (Ne.symm hf.2))]
    rcases hd with rfl | rfl <;> rfl
  · rfl

theorem filterVal_zeros {flag : Bool} {alpha : ℚ} (j : ℕ) : filterVal flag alpha j 0 0 = 0 := by
  unfold filterVal
  split_ifs
  · show fin (0 * (1 - alpha)) = fin 0
    rw [zero_mul]
  · show fin (0 * (1 - alpha) + 0 * alpha) = fin 0
    rw [zero_mul, zero_mul, add_zero]
  · rfl

section run
variable {inp : KsatInputs} (hk : inp.k = 1) (ht : ClauseTables inp.numConstraints 1 inp.numVars inp.conx inp.conxType)
  (hco : ConnectionsOk inp.numConstraints 1 inp.numVars inp.conx inp.used inp.conns) (hcs : inp.cost.size = inp.numVars)
  (ha : inp.flag = true → 0 ≤ inp.alpha ∧ inp.alpha < 1)

/-- What holds before iteration `j`. -/
structure UnitInv (inp : KsatInputs) (j : ℕ) (st : KsatState) : Prop where
  vr : st.v2k.rows = inp.numConstraints
  vc : st.v2k.cols = inp.numVars
  dr : st.dummy.rows = inp.numConstraints
  dc : st.dummy.cols = inp.numVars
  kr : st.k2v.rows = inp.numConstraints
  kc : st.k2v.cols = inp.numVars
  or : st.old.rows = inp.numConstraints
  oc : st.old.cols = inp.numVars
  fin : ∀ c < inp.numConstraints, ∃ q, st.v2k.data c (inp.conx.data c 0) = fin q
  out : j ≠ 0 → ∀ c < inp.numConstraints, ∀ v < inp.numVars,
    st.k2v.data c v = if v = inp.conx.data c 0 then force (inp.conxType.data c 0) else 0
  mem : j ≠ 0 → inp.flag = true ∧ inp.alpha ≠ 0 → ∀ c < inp.numConstraints, ∀ v < inp.numVars, st.old.data c v = st.k2v.data c v
  off : ∀ c < inp.numConstraints, ∀ v < inp.numVars, v ≠ inp.conx.data c 0 → st.old.data c v = 0

include hk ht hco hcs ha in
theorem unit_step {j : ℕ} {st : KsatState} (h : UnitInv inp j st) : ∃ st', ksatIter inp j st = some st' ∧ UnitInv inp (j + 1) st' := by
  obtain ⟨d, d1, dr, dc, d2⟩ := ksatUpdate_one (V := st.v2k) ht h.vr h.vc h.fin h.dr h.dc
  obtain ⟨⟨K, O⟩, f1, f2, f3, f4, f5, f6, f7, -⟩ := processFiltering_spec (rows := inp.numConstraints) (flag := inp.flag)
    (alpha := inp.alpha) (iter := j) (n := inp.numVars) (dummy := d) (s := (st.k2v, st.old)) (by omega)
    (by rw [h.kr]) (by rw [h.or]) dc h.kc h.oc
  simp only at f2 f3 f4 f5 f6 f7
  have kr : K.rows = inp.numConstraints := by rw [f2, h.kr]
  have or : O.rows = inp.numConstraints := by rw [f4, h.or]
  have hK : ∀ c < inp.numConstraints, ∀ v < inp.numVars, K.data c v = if v = inp.conx.data c 0 then force (inp.conxType.data c 0) else 0 := by
    intro c hc v hv
    rw [f6 c hc v hv, d2 c hc]
    by_cases e : v = inp.conx.data c 0
    · rw [if_pos e]
      refine filterVal_inf ha j (force_inf _) fun hf hj => ?_
      rw [h.mem hj hf c hc v hv, h.out hj c hc v hv, if_pos e]
    · rw [if_neg e, h.off c hc v hv e, filterVal_zeros]
  obtain ⟨V, v1, v2, v3, v4⟩ := variableToKsat_num (K := K) (V := st.v2k) kr f3 h.vr h.vc hco.used_lt hco.length (fun l hl c hc => by
    obtain ⟨i, hi, rfl⟩ := List.mem_iff_getElem.mp hl
    have := (hco.mem i (by rw [← hco.length]; exact hi) c).mp (by rw [List.getD_eq_getElem?_getD, List.getElem?_eq_getElem hi]; exact hc)
    exact Finset.mem_range.mp (Finset.mem_filter.mp this).1) hcs
  refine ⟨⟨V, d, K, O⟩, ?_, v2, v3, dr, dc, kr, f3, or, f5, fun c hc => ?_, fun _ => hK, fun _ hf c hc v hv => ?_, fun c hc v hv e => ?_⟩
  · simp only [ksatIter, hk, d1, f1, v1, Option.bind_eq_bind, Option.bind_some]
  · refine ⟨0, ?_⟩
    show V.data c (inp.conx.data c 0) = _
    have hv := ht.conx_lt c hc 0 (by omega)
    rw [v4]
    split_ifs with hm
    · have hKc : K.data c (inp.conx.data c 0) = force (inp.conxType.data c 0) := by rw [hK c hc _ hv, if_pos rfl]
      have key : sumTo K (inp.conns.getD (inp.conx.data c 0) []) (inp.conx.data c 0) + inp.cost.data (inp.conx.data c 0) - K.data c (inp.conx.data c 0) = nan := by
        unfold force at hKc
        split at hKc
        · rw [hKc]
          exact down_sub (down_add (down_foldl (Or.inr ⟨c, hm.2, hKc⟩)) _)
        · rw [hKc]
          exact up_sub (up_add (up_foldl (Or.inr ⟨c, hm.2, hKc⟩)) _)
      rw [key]; rfl
    · rfl
  · show O.data c v = K.data c v
    rw [f7 c hc v hv, if_pos hf, f6 c hc v hv]
  · show O.data c v = 0
    rw [f7 c hc v hv, d2 c hc, if_neg e, h.off c hc v hv e, filterVal_zeros]
    simp

include hk ht hco hcs ha in
theorem unit_run {V : Mat Num} (vr : V.rows = inp.numConstraints) (vc : V.cols = inp.numVars)
    (hV : ∀ c < inp.numConstraints, ∃ q, V.data c (inp.conx.data c 0) = fin q) (K : ℕ) :
    ∃ out, ksatSolve inp V (K + 1) = some out ∧ out.size = inp.numVars ∧ ∀ v < inp.numVars, out.data v =
      (List.range inp.numConstraints).foldl (fun s c => s + if v = inp.conx.data c 0 then force (inp.conxType.data c 0) else 0) 0 := by
  obtain ⟨st, h1, h2⟩ := loopUp_inv (n := K + 1) (body := ksatIter inp) (s := ksatInit inp V) (UnitInv inp)
    ⟨vr, vc, rfl, rfl, rfl, rfl, rfl, rfl, hV, fun h => absurd rfl h, fun h => absurd rfl h, fun _ _ _ _ _ => rfl⟩
    (fun j _ st h => unit_step hk ht hco hcs ha h)
  obtain ⟨out, o1, o2, o3⟩ := ksatExtrinsic_num (K := st.k2v) h2.kr h2.kc (out := Arr.fill inp.numVars 0) rfl
  refine ⟨out, ?_, o2, fun v hv => ?_⟩
  · simp only [ksatSolve, ksatIterate, h1, ksatInit] at *
    simp only [o1, Option.bind_eq_bind, Option.bind_some]
  · rw [o3 v hv]
    have e : ∀ (l : List ℕ), (∀ c ∈ l, c < inp.numConstraints) → ∀ a : Num, l.foldl (fun s c => s + st.k2v.data c v) a =
        l.foldl (fun s c => s + if v = inp.conx.data c 0 then force (inp.conxType.data c 0) else 0) a := by
      intro l
      induction l with
      | nil => intro _ _; rfl
      | cons c l ih =>
        intro hl a
        rw [List.foldl_cons, List.foldl_cons, h2.out (by omega) c (hl c (by simp)) v hv, ih fun d hd => hl d (List.mem_cons_of_mem _ hd)]
    exact e _ (fun c hc => List.mem_range.mp hc) _

end run

/-- The part of `run_impa` around the native solver. -/
theorem beliefs_of_solve {n C k : ℕ} {used : List ℕ} {conns : List (List ℕ)} {cx : ℕ → ℕ → ℕ} {ty : ℕ → ℕ → ℤ} {w : ℕ → Num}
    {flag : Bool} {alpha : ℚ} {N : ℕ} (hu : ∀ v ∈ used, v < n) {f : KsatFlat} (hf : ksatFlatten (pythonFormula n C k used conns cx ty w) = some f)
    {inp : KsatInputs} {A : Mat Num} (hd : ksatDecode n C used.length k flag alpha f = some (inp, A)) {out : Arr Num} {g : ℕ → Num}
    (ho : ksatSolve inp A N = some out) (hs : out.size = n) (hg : ∀ v < n, out.data v = g v) :
    ksatBeliefs N flag alpha (pythonFormula n C k used conns cx ty w) = some (listOf n (fun v => g v + if v ∈ used then w v else 0)) := by
  have e1 : out.toList = listOf n g := by
    rw [Arr.toList, hs]
    exact List.map_congr_left fun v hv' => hg v (List.mem_range.mp hv')
  obtain ⟨u, u1, u2, u3⟩ := loopList_inv_idx (l := used) (body := fun v (u : Arr Num) => do
      let c ← (listOf n w)[v]?
      u.wr v c) (s := Arr.fill n 0)
    (fun i u => u.size = n ∧ ∀ v, u.data v = if v ∈ used.take i then w v else 0) ⟨rfl, fun v => by simp [Arr.fill]⟩
    (by
      rintro i hi u ⟨b1, b2⟩
      have hlt := hu _ (List.getElem_mem hi)
      rw [Proofs.listOf_getElem? hlt]
      simp only [Option.bind_eq_bind, Option.bind_some]
      rw [Arr.wr_of_lt (by omega)]
      refine ⟨_, rfl, b1, fun v => ?_⟩
      show (if v = used[i] then _ else _) = _
      have hm : v ∈ used.take (i + 1) ↔ v ∈ used.take i ∨ v = used[i] := by
        rw [List.take_succ_eq_append_getElem hi, List.mem_append, List.mem_singleton]
      by_cases e : v = used[i]
      · rw [if_pos e, if_pos (hm.mpr (Or.inr e)), e]
      · rw [if_neg e, b2 v]
        simp only [hm, e, or_false])
  rw [List.take_length] at u3
  have e2 : ksatWrapper N n C used.length k flag alpha f (List.replicate n 0) = some out.toList := by
    simp only [ksatWrapper, hd, ho, Option.bind_eq_bind, Option.bind_some]
    rw [Proofs.slice_all (by rw [e1, Proofs.listOf_length])]
    simp only [Option.bind_some]
    rw [if_pos (by rw [e1, Proofs.listOf_length, List.length_replicate]),
      List.drop_eq_nil_of_le (by rw [e1, Proofs.listOf_length, List.length_replicate]), List.append_nil]
  have e3 : (pythonFormula n C k used conns cx ty w).used = used := rfl
  have e4 : (pythonFormula n C k used conns cx ty w).cost = listOf n w := rfl
  have e5 : (pythonFormula n C k used conns cx ty w).numVars = n := rfl
  have e6 : (pythonFormula n C k used conns cx ty w).numConstraints = C := rfl
  have e7 : (pythonFormula n C k used conns cx ty w).k = k := rfl
  simp only [Option.bind_eq_bind] at u1
  simp only [ksatBeliefs, hf, e3, e4, e5, e6, e7, e2, u1, Option.bind_eq_bind, Option.bind_some]
  rw [if_pos (by rw [e1, Proofs.listOf_length, u2]), e1]
  congr 1
  refine List.ext_getElem (by simp [listOf, Arr.toList, u2]) fun v h1 h2 => ?_
  simp only [listOf, Arr.toList, List.getElem_zipWith, List.getElem_map, List.getElem_range, u3]

/-- Beliefs on formulas whose clauses have one literal, as sums of the clause messages. -/
theorem unit_beliefs {n : ℕ} {t : KsatTables} (hf : KFormula n 1 t.clauses t.used t.conns) (w : ℕ → ℚ) {flag : Bool} {alpha : ℚ}
    (ha : flag = true → 0 ≤ alpha ∧ alpha < 1) (K : ℕ) :
    ksatBeliefs (K + 1) flag alpha (ksatObject n 1 t (listOf n (fun v => fin (w v)))) = some (listOf n (fun v =>
      (List.range t.clauses.length).foldl (fun s c => s + if v = litVar t c 0 then force (litSign t c 0) else 0) 0 +
        if v ∈ t.used then fin (w v) else 0)) := by
  rw [object_eq hf]
  have hco := connections_ok hf
  obtain ⟨f, inp, A, h0, h1, g1, g2, g3, g4, g5, g6, g7, g8, g9, g10, g11, g12, g13, g14⟩ :=
    C24_decoded (cx := litVar t) (ty := litSign t) (w := fun v => fin (w v)) flag alpha (fun c hc s hs => lit_lt hf hc hs) hco.length
      (used := t.used) (fun v hv' hne => by
        obtain ⟨c, hc⟩ := List.exists_mem_of_ne_nil _ hne
        have := (hco.mem v hv' c).mp hc
        simp only [occurrences, Finset.mem_filter, Finset.mem_range] at this
        exact hco.used_mem c this.1 v this.2)
  have htab : ClauseTables inp.numConstraints 1 inp.numVars inp.conx inp.conxType := by
    rw [g1, g2]
    refine ⟨g8.1, g8.2.1, g9.1, g9.2.1, fun c hc s hs => ?_, fun c hc s hs s' hs' e => by omega, fun c hc s hs => ?_⟩
    · rw [g8.2.2 c hc s hs]; exact lit_lt hf hc hs
    · rw [g9.2.2 c hc s hs]; exact lit_sign hf hc hs
  have hcv : ∀ c < t.clauses.length, clauseVars 1 (inp.conx.data c) = clauseVars 1 (litVar t c) := by
    intro c hc
    exact Finset.image_congr fun s hs => g8.2.2 c hc s (Finset.mem_range.mp hs)
  have hcon : ConnectionsOk inp.numConstraints 1 inp.numVars inp.conx inp.used inp.conns := by
    rw [g1, g2, g6, g7]
    refine ⟨hco.used_lt, fun c hc v hvm => hco.used_mem c hc v (by rw [hcv c hc] at hvm; exact hvm), hco.length, hco.nodup, fun v hv' c => ?_⟩
    rw [show occurrences t.clauses.length 1 inp.conx v = occurrences t.clauses.length 1 ⟨t.clauses.length, 1, litVar t⟩ v from
      Finset.filter_congr fun c hc => by rw [hcv c (Finset.mem_range.mp hc)]]
    exact hco.mem v hv' c
  obtain ⟨out, o1, o2, o3⟩ := unit_run g3 htab hcon (by omega) (by rw [g4, g5]; exact ha) (V := A) (by omega) (by omega) (fun c hc => by
    rw [g2] at hc
    have hlt := lit_lt hf hc (s := 0) (by omega)
    rw [g8.2.2 c hc 0 (by omega), g14 c hc _ hlt, if_pos ⟨0, by omega, rfl⟩]
    exact ⟨_, rfl⟩) K
  rw [g1] at o2 o3
  refine beliefs_of_solve hco.used_lt h0 h1 o1 o2 fun v hv => ?_
  rw [o3 v hv, g2]
  have e : ∀ (l : List ℕ), (∀ c ∈ l, c < t.clauses.length) → ∀ a : Num,
      l.foldl (fun s c => s + if v = inp.conx.data c 0 then force (inp.conxType.data c 0) else 0) a =
      l.foldl (fun s c => s + if v = litVar t c 0 then force (litSign t c 0) else 0) a := by
    intro l
    induction l with
    | nil => intro _ _; rfl
    | cons c l ih =>
      intro hl a
      rw [List.foldl_cons, List.foldl_cons, g8.2.2 c (hl c (by simp)) 0 (by omega), g9.2.2 c (hl c (by simp)) 0 (by omega),
        ih fun d hd => hl d (List.mem_cons_of_mem _ hd)]
  exact e _ (fun c hc => List.mem_range.mp hc) _

theorem down_up {x : Num} (h : Down x) (h' : Up x) : x = nan := by
  rcases h with rfl | rfl
  · rcases h' with h | h <;> cases h
  · rfl

/-- Sum of the clause messages to a variable. -/
theorem unit_sum {n : ℕ} {t : KsatTables} (hf : KFormula n 1 t.clauses t.used t.conns) (v : ℕ) :
    (List.range t.clauses.length).foldl (fun s c => s + if v = litVar t c 0 then force (litSign t c 0) else 0) 0 =
      if [(v, 1)] ∈ t.clauses then if [(v, -1)] ∈ t.clauses then nan else ninf else if [(v, -1)] ∈ t.clauses then pinf else 0 := by
  have hmem : ∀ c < t.clauses.length, [(litVar t c 0, litSign t c 0)] ∈ t.clauses := by
    intro c hc
    have hm := getD_mem hf hc
    have hl := lit_mem hf hc (s := 0) (by omega)
    obtain ⟨l, e⟩ := List.length_eq_one_iff.mp (hf.clause _ hm).1
    rw [e] at hm hl
    rwa [List.mem_singleton.mp hl]
  have hex : ∀ s : ℤ, [(v, s)] ∈ t.clauses → ∃ c ∈ List.range t.clauses.length, v = litVar t c 0 ∧ litSign t c 0 = s := by
    intro s h
    obtain ⟨c, hc, e⟩ := List.getElem_of_mem h
    refine ⟨c, List.mem_range.mpr hc, ?_⟩
    simp [litVar, litSign, List.getD_eq_getElem?_getD, hc, e]
  set g : ℕ → Num := fun c => if v = litVar t c 0 then force (litSign t c 0) else 0 with hg
  have hpos : [(v, 1)] ∈ t.clauses → Down ((List.range t.clauses.length).foldl (fun s c => s + g c) 0) := by
    intro h
    obtain ⟨c, hc, e1, e2⟩ := hex 1 h
    refine down_foldl (Or.inr ⟨c, hc, ?_⟩)
    simp only [hg, if_pos e1, e2, force, if_true]
  have hneg : [(v, -1)] ∈ t.clauses → Up ((List.range t.clauses.length).foldl (fun s c => s + g c) 0) := by
    intro h
    obtain ⟨c, hc, e1, e2⟩ := hex (-1) h
    refine up_foldl (Or.inr ⟨c, hc, ?_⟩)
    simp only [hg, if_pos e1, e2, force]
    decide
  have a0 : ∀ b, Agrees b (0 : Num) := fun b => ⟨(by intro h; cases h), (by intro h; cases h), (by intro h; cases h)⟩
  have atrue : [(v, -1)] ∉ t.clauses → ∀ c ∈ List.range t.clauses.length, Agrees true (g c) := by
    intro h c hc
    simp only [hg]
    split_ifs with e
    · have hc' := List.mem_range.mp hc
      rcases lit_sign hf hc' (s := 0) (by omega) with e' | e'
      · rw [e']; exact ⟨by decide, by decide, by decide⟩
      · have := hmem c hc'
        rw [← e, e'] at this
        exact absurd this h
    · exact a0 _
  have afalse : [(v, 1)] ∉ t.clauses → ∀ c ∈ List.range t.clauses.length, Agrees false (g c) := by
    intro h c hc
    simp only [hg]
    split_ifs with e
    · have hc' := List.mem_range.mp hc
      rcases lit_sign hf hc' (s := 0) (by omega) with e' | e'
      · have := hmem c hc'
        rw [← e, e'] at this
        exact absurd this h
      · rw [e']; exact ⟨by decide, by decide, by decide⟩
    · exact a0 _
  split_ifs with h1 h2 h2
  · exact down_up (hpos h1) (hneg h2)
  · exact (hpos h1).resolve_right (agrees_foldl (atrue h2) (a0 _)).1.1
  · exact (hneg h2).resolve_right (agrees_foldl (afalse h1) (a0 _)).1.1
  · have hz : ∀ c ∈ List.range t.clauses.length, g c = 0 := by
      intro c hc
      simp only [hg]
      split_ifs with e
      · have hc' := List.mem_range.mp hc
        have := hmem c hc'
        rw [← e] at this
        rcases lit_sign hf hc' (s := 0) (by omega) with e' | e' <;> rw [e'] at this
        · exact absurd this h1
        · exact absurd this h2
      · rfl
    have : ∀ l : List ℕ, (∀ c ∈ l, g c = 0) → l.foldl (fun s c => s + g c) 0 = 0 := by
      intro l
      induction l with
      | nil => intro _; rfl
      | cons c l ih =>
        intro h
        rw [List.foldl_cons, h c (by simp), show (0 : Num) + 0 = 0 from by decide +kernel]
        exact ih fun d hd => h d (List.mem_cons_of_mem _ hd)
    exact this _ hz

end Verif.Proofs
