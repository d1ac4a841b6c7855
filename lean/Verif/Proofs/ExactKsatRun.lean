import Verif.Proofs.ExactKsat
import Verif.Proofs.Growth
import Verif.Proofs.ParamKsatCall

/-! Whole k-SAT runs compute exactly as long as the messages are small multiples of a unit. -/

namespace Verif.Proofs
open Verif Num Spec Model Properties

variable {r : ℚ → Num} {u : ℚ} {M : ℕ}

theorem Small.sharpen (hu : 0 < u) {c d q : ℚ} (h : Small u c (fin q)) (hq : |q| ≤ d * u) : Small u d (fin q) := by
  intro p hp
  obtain rfl := Num.fin.inj hp
  obtain ⟨z, h1, -⟩ := h q rfl
  refine ⟨z, h1, ?_⟩
  rw [h1, abs_mul, abs_of_pos hu] at hq
  exact le_of_mul_le_mul_right hq hu

theorem Small.abs_le (hu : 0 < u) {c q : ℚ} (h : Small u c (fin q)) : |q| ≤ c * u := by
  obtain ⟨z, h1, h2⟩ := h q rfl
  rw [h1, abs_mul, abs_of_pos hu]
  exact mul_le_mul_of_nonneg_right h2 hu.le

theorem Small.val {c : ℚ} (hc : 0 ≤ c) {a : Num} (h : Small u c a) : Small u c (fin a.val) := by
  cases a with
  | fin q => exact h
  | _ => exact Small.zero hc

section run
variable {inp : KsatInputs} {w : ℕ → ℚ} (hr : KeepsMultiples r u M) (hu : 0 < u)
  (ht : ClauseTables inp.numConstraints inp.k inp.numVars inp.conx inp.conxType)
  (hco : ConnectionsOk inp.numConstraints inp.k inp.numVars inp.conx inp.used inp.conns) (hw : inp.cost.Is inp.numVars w) (hk : 2 ≤ inp.k)
  (hd : inp.flag = false ∨ inp.alpha = 0) {V : Mat Num} {x0 : ℕ → ℕ → ℚ} (hV : V.Is inp.numConstraints inp.numVars x0) {B : ℚ} (hB : 0 ≤ B)
  (hwB : ∀ v < inp.numVars, Small u B (fin (w v))) (hxB : ∀ c < inp.numConstraints, ∀ v < inp.numVars, Small u B (fin (x0 c v))) {D : ℕ}
  (hD : ∀ v < inp.numVars, (occurrences inp.numConstraints inp.k inp.conx v).card ≤ D + 1) {K : ℕ}
  {X : ℚ} (hX0 : 0 ≤ X) (hM1 : 2 * inp.k * X ≤ M) (hM2 : B + (D + 2) * X ≤ M) {x y : ℕ → ℕ → ℕ → ℚ}
  (htr : IsKsatTrace inp.numConstraints inp.k inp.numVars inp.conx inp.conxType w inp.flag inp.alpha x0 x y)
  (hX : ∀ j ≤ K, ∀ c < inp.numConstraints, ∀ v ∈ clauseVars inp.k (inp.conx.data c), |x j c v| ≤ X * u)
include hr hu ht hco hw hk hd hV hB hwB hxB hD hX0 hM1 hM2 htr hX

/-- If the messages of the exact run stay small, the rounded run is exact. -/
theorem exact_ksatSolve : ∀ out, ksatSolve inp V (K + 1) = some out →
    Rounded.ksatSolve r inp V (K + 1) = some out ∧ ∀ v < inp.numVars, Small u ((D + 1) * X) (out.data v) := by
  obtain ⟨st, s0, hst⟩ := loop_trace (body := ksatIter inp) (s0 := ksatInit inp V) (KsatInv inp) (KsatStep inp w)
    ⟨hV.self, ⟨rfl, rfl, fun _ _ _ _ => rfl⟩, rfl, rfl, rfl, rfl, fun h => absurd rfl h⟩
    (fun j s h => ksatIter_step ht hco hw hk h)
  have hvn : ∀ c < inp.numConstraints, ∀ v ∈ clauseVars inp.k (inp.conx.data c), v < inp.numVars :=
    fun c hc v hv => hco.used_lt v (hco.used_mem c hc v hv)
  have hdamp : ∀ c < inp.numConstraints, ∀ v < inp.numVars, ∀ j,
      (st (j + 1)).k2v.val c v = damped inp.flag inp.alpha (fun i => (st (i + 1)).dummy.val c v) j := by
    intro c hc v hv j
    refine damped_of_step (d := fun j => (st (j + 1)).k2v.val c v) (r := fun i => (st (i + 1)).dummy.val c v) ?_ ?_ j
    · intro p
      have := (hst 0).2.2.damp c hc v hv
      simp only [dampStep] at this ⊢
      simpa using this
    · intro j; exact (hst (j + 1)).2.2.damp c hc v hv
  have hst' : IsKsatTrace inp.numConstraints inp.k inp.numVars inp.conx inp.conxType w inp.flag inp.alpha x0
      (fun j c v => (st j).v2k.val c v) (fun j c v => (st (j + 1)).dummy.val c v) := by
    refine ⟨?_, ?_, ?_⟩
    · intro c hc v hv; simp only [s0]; exact hV.val hc hv
    · intro j c hc v hv; exact (hst j).2.2.raw c hc v hv
    · intro j c hc v hv
      rw [(hst j).2.2.out c hc v hv]
      congr 1
      refine Finset.sum_congr rfl fun c' hc' => ?_
      exact hdamp c' (Finset.mem_range.mp (Finset.mem_filter.mp (Finset.mem_of_mem_erase hc')).1) v (hvn c hc v hv) j
  have hbd : ∀ j ≤ K, ∀ c < inp.numConstraints, ∀ v ∈ clauseVars inp.k (inp.conx.data c), |(st j).v2k.val c v| ≤ X * u := by
    intro j hj c hc v hv
    rw [((ksatTrace_unique ht hst' htr j) c hc v hv).1]
    exact hX j hj c hc v hv
  have hsign : ∀ c s z, inp.conxType.rd c s = some z → z = 1 ∨ z = -1 := by
    intro c s z hz
    obtain ⟨⟨h1, h2⟩, rfl⟩ := mat_rd hz
    exact ht.sign c (by rw [← ht.ty_rows]; exact h1) s (by rw [← ht.ty_cols]; exact h2)
  have hocc : ∀ v < inp.numVars, (inp.conns.getD v []).toFinset = occurrences inp.numConstraints inp.k inp.conx v := by
    intro v hv
    ext c'; rw [List.mem_toFinset, hco.mem v hv]
  have hl : ∀ (v : ℕ) (l : List ℕ), inp.conns[v]? = some l → l.length ≤ D + 1 := by
    intro v l hl
    have hv : v < inp.numVars := by
      rw [← hco.length]
      by_contra hn
      rw [List.getElem?_eq_none (by omega)] at hl
      cases hl
    have e : inp.conns.getD v [] = l := by rw [List.getD_eq_getElem?_getD, hl]; rfl
    have hnd := hco.nodup l (List.mem_of_getElem? hl)
    rw [← List.toFinset_card_of_nodup hnd, ← e, hocc v hv]
    exact hD v hv
  have hcost : ∀ v x, inp.cost.rd v = some x → Small u B x := by
    intro v x hx
    obtain ⟨h1, rfl⟩ := arr_rd hx
    rw [hw.1] at h1
    rw [hw.2 v h1]
    exact hwB v h1
  -- the messages of all clauses, given those of the variables
  have hmsg : ∀ j, ∀ c < inp.numConstraints, (∀ v ∈ clauseVars inp.k (inp.conx.data c), |(st j).v2k.val c v| ≤ X * u) →
      ∀ v < inp.numVars, |(st (j + 1)).dummy.val c v| ≤ X * u := by
    intro j c hc hx v hv
    by_cases h : v ∈ clauseVars inp.k (inp.conx.data c)
    · obtain ⟨s, hs, rfl⟩ := Finset.mem_image.mp h
      obtain ⟨i, hi, -, -, e⟩ := clause_closed (ht.conx_inj c hc) (ht.sign c hc) hk (Finset.mem_range.mp hs) ((hst j).2.2.raw c hc _ h)
      have hi' := hx (inp.conx.data c i) (Finset.mem_image.mpr ⟨i, Finset.mem_range.mpr hi, rfl⟩)
      have hmin : ∀ y : ℚ, |min (-y) 0| ≤ |y| := fun y => by
        rcases le_total (-y) 0 with h | h
        · rw [min_eq_left h, abs_neg]
        · rw [min_eq_right h]; simp
      rw [e]
      rcases ht.sign c hc s (Finset.mem_range.mp hs) with e1 | e1 <;> rcases ht.sign c hc i hi with e2 | e2 <;> rw [e1, e2] <;> push_cast <;>
        simp only [mul_one, mul_neg, abs_neg] <;> refine (hmin _).trans ?_ <;> simpa using hi'
    · rw [(hst j).2.2.off c hc v hv h, abs_zero]
      exact mul_nonneg (hX0) hu.le
  have hk2v : ∀ j, (∀ c < inp.numConstraints, ∀ v ∈ clauseVars inp.k (inp.conx.data c), |(st j).v2k.val c v| ≤ X * u) →
      AllSmall u (2 * inp.k * X) (st (j + 1)).dummy → ∀ c < inp.numConstraints, ∀ v < inp.numVars,
      Small u (X) ((st (j + 1)).k2v.data c v) := by
    intro j hx hall c hc v hv
    have e1 := (hst (j + 1)).2.1.k2v.2.2 c hc v hv
    have e2 : (st (j + 1)).k2v.val c v = (st (j + 1)).dummy.val c v := by
      rw [(hst j).2.2.damp c hc v hv, dampStep, if_neg]
      rintro ⟨h1, h2⟩
      rcases hd with h | h
      · rw [h] at h1; cases h1
      · exact h2 h
    rw [e1, e2]
    exact (Small.val (mul_nonneg (by positivity) (hX0)) (hall c v)).sharpen hu (hmsg j c hc (hx c hc) v hv)
  have hrd : ∀ {m : Mat Num} {X : ℚ}, m.rows = inp.numConstraints → m.cols = inp.numVars →
      (∀ c < inp.numConstraints, ∀ v < inp.numVars, Small u X (m.data c v)) → ∀ c v x, m.rd c v = some x → Small u X x := by
    intro m X h1 h2 h c v x hx
    obtain ⟨⟨h3, h4⟩, rfl⟩ := mat_rd hx
    exact h c (by rw [← h1]; exact h3) v (by rw [← h2]; exact h4)
  -- variables and clauses by turns
  have hstep : ∀ j ≤ K, (∀ c < inp.numConstraints, ∀ v ∈ clauseVars inp.k (inp.conx.data c), Small u (X) ((st j).v2k.data c v)) →
      Rounded.ksatIter r inp j (st j) = some (st (j + 1)) ∧
      (∀ c < inp.numConstraints, ∀ v < inp.numVars, Small u (X) ((st (j + 1)).k2v.data c v)) ∧
      (j + 1 ≤ K → ∀ c < inp.numConstraints, ∀ v ∈ clauseVars inp.k (inp.conx.data c), Small u X ((st (j + 1)).v2k.data c v)) := by
    intro j hj hx
    have hx' : ∀ c < inp.numConstraints, ∀ v ∈ clauseVars inp.k (inp.conx.data c), |(st j).v2k.val c v| ≤ X * u := by
      intro c hc v hv
      have := hx c hc v hv
      rw [(hst j).2.1.v2k.2.2 c hc v (hvn c hc v hv)] at this
      exact this.abs_le hu
    have hit : ksatIter inp j (st j) = some (st (j + 1)) := by
      have := (hst (j + 1)).1
      simp only [loopUp, (hst j).1] at this
      exact this
    have hm : ∀ c i v, inp.conx.rd c i = some v → ∀ x, (st j).v2k.rd c v = some x → Small u (X) x := by
      intro c i v hv x hxx
      obtain ⟨⟨a1, a2⟩, rfl⟩ := mat_rd hv
      rw [ht.conx_rows] at a1
      rw [ht.conx_cols] at a2
      obtain ⟨-, rfl⟩ := mat_rd hxx
      exact hx c a1 _ (Finset.mem_image.mpr ⟨i, Finset.mem_range.mpr a2, rfl⟩)
    have hdum : AllSmall u (2 * inp.k * X) (st (j + 1)).dummy := by
      obtain ⟨d, h1, h⟩ := Option.bind_eq_some_iff.mp hit
      obtain ⟨⟨k2v, old⟩, h2, h⟩ := Option.bind_eq_some_iff.mp h
      obtain ⟨v2k, h3, h⟩ := Option.bind_eq_some_iff.mp h
      rw [← Option.some.inj h]
      exact (exact_ksatToVariableUpdate hr (hX0) hsign hm hM1 _ d h1).2
    have hk2 := hk2v j hx' hdum
    obtain ⟨g1, g2⟩ := exact_ksatIter hr hd hB (hX0) hsign hM1 hM2 hl hcost hm hit
      (fun _ => hrd (hst (j + 1)).2.1.k2v.1 (hst (j + 1)).2.1.k2v.2.1 hk2)
    refine ⟨g1, hk2, fun hj' c hc v hv => ?_⟩
    have hv' := hvn c hc v hv
    have e := (hst (j + 1)).2.1.v2k.2.2 c hc v hv'
    have h1 := g2 c v
    rw [e] at h1 ⊢
    exact h1.sharpen hu (hbd (j + 1) hj' c hc v hv)
  have hloop : ∀ j ≤ K + 1, loopUp j (Rounded.ksatIter r inp) (ksatInit inp V) = some (st j) ∧
      (j ≤ K → ∀ c < inp.numConstraints, ∀ v ∈ clauseVars inp.k (inp.conx.data c), Small u X ((st j).v2k.data c v)) := by
    intro j hj
    induction j with
    | zero =>
      refine ⟨by rw [s0]; rfl, fun _ c hc v hv => ?_⟩
      have e : (st 0).v2k = V := by rw [s0]; rfl
      have h1 := hbd 0 (by omega) c hc v hv
      rw [e, hV.val hc (hvn c hc v hv)] at h1
      rw [e, hV.2.2 c hc v (hvn c hc v hv)]
      exact (hxB c hc v (hvn c hc v hv)).sharpen hu h1
    | succ j ih =>
      obtain ⟨i1, i2⟩ := ih (by omega)
      obtain ⟨g1, -, g3⟩ := hstep j (by omega) (i2 (by omega))
      exact ⟨by simp only [loopUp, i1]; exact g1, g3⟩
  obtain ⟨hl1, hl2⟩ := hloop K (by omega)
  obtain ⟨-, hk2, -⟩ := hstep K le_rfl (hl2 le_rfl)
  have hrun := (hloop (K + 1) le_rfl).1
  have hoff : ∀ c < inp.numConstraints, ∀ v < inp.numVars, v ∉ clauseVars inp.k (inp.conx.data c) → (st (K + 1)).k2v.data c v = 0 := by
    intro c hc v hv h
    rw [(hst (K + 1)).2.1.k2v.2.2 c hc v hv, (hst K).2.2.damp c hc v hv, dampStep, if_neg, (hst K).2.2.off c hc v hv h]
    · rfl
    · rintro ⟨h1, h2⟩
      rcases hd with h | h
      · rw [h] at h1; cases h1
      · exact h2 h
  have hext : Same (fun out => ∀ v < inp.numVars, Small u ((D + 1) * X) (out.data v))
      (ksatExtrinsic inp.numVars inp.numConstraints (st (K + 1)).k2v (Arr.fill inp.numVars 0))
      (Rounded.ksatExtrinsic r inp.numVars inp.numConstraints (st (K + 1)).k2v (Arr.fill inp.numVars 0)) := by
    have h0 : 0 ≤ (D + 1) * X := mul_nonneg (by positivity) (hX0)
    refine (Same.loopUp (fun i (a : Arr Num) => (∀ v < inp.numVars, Small u ((D + 1) * X) (a.data v)) ∧ ∀ v, i ≤ v → a.data v = 0)
      ⟨fun _ _ => Small.zero h0, fun _ _ => rfl⟩ fun i hi a ha => ?_).mono fun a ha => ha.1
    let cnt : ℕ → ℕ := fun j => ((Finset.range j).filter (fun c => i ∈ clauseVars inp.k (inp.conx.data c))).card
    have hcnt : ∀ j ≤ inp.numConstraints, (cnt j : ℚ) * X ≤ (D + 1) * X := by
      intro j hj
      refine mul_le_mul_of_nonneg_right ?_ (hX0)
      have h1 : cnt j ≤ (occurrences inp.numConstraints inp.k inp.conx i).card :=
        Finset.card_le_card (Finset.filter_subset_filter _ fun c hc => by rw [Finset.mem_range] at hc ⊢; omega)
      exact_mod_cast h1.trans (hD i hi)
    refine (Same.loopUp (fun j (a : Arr Num) => Small u (cnt j * X) (a.data i) ∧
        (∀ v < inp.numVars, v ≠ i → Small u ((D + 1) * X) (a.data v)) ∧ ∀ v, i + 1 ≤ v → a.data v = 0)
      ⟨?_, fun v hv _ => ha.1 v hv, fun v hv => ha.2 v (by omega)⟩ fun j hj a ⟨g1, g2, g3⟩ => ?_).mono ?_
    · rw [ha.2 i le_rfl]
      exact Small.zero (by simp [cnt])
    · refine Same.read fun o h1 => Same.read fun x h2 => ?_
      obtain ⟨-, rfl⟩ := arr_rd h1
      obtain ⟨-, rfl⟩ := mat_rd h2
      have hsum : Small u (cnt (j + 1) * X) (a.data i + (st (K + 1)).k2v.data j i) := by
        by_cases h : i ∈ clauseVars inp.k (inp.conx.data j)
        · have e : cnt (j + 1) = cnt j + 1 := by
            simp only [cnt]
            rw [Finset.range_add_one, Finset.filter_insert, if_pos h, Finset.card_insert_of_notMem (by simp)]
          rw [e]
          refine (g1.add (hk2 j hj i hi)).mono (le_of_eq ?_)
          push_cast; ring
        · have e : cnt (j + 1) = cnt j := by
            simp only [cnt]
            rw [Finset.range_add_one, Finset.filter_insert, if_neg h]
          rw [e, hoff j hj i hi h]
          exact (g1.add (Small.zero (le_refl 0))).mono (le_of_eq (add_zero _))
      rw [hsum.rn hr ((hcnt (j + 1) hj).trans ?_)]
      · refine Same.of fun b hb => ?_
        obtain ⟨-, -, e⟩ := arr_wr hb
        rw [e]
        refine ⟨by simpa using hsum, fun v hv hne => ?_, fun v hv => ?_⟩
        · simp only [if_neg hne]; exact g2 v hv hne
        · simp only [if_neg (show v ≠ i by omega)]; exact g3 v hv
      · have := hX0
        linarith
    · rintro a ⟨g1, g2, g3⟩
      refine ⟨fun v hv => ?_, g3⟩
      by_cases h : v = i
      · rw [h]; exact g1.mono (hcnt _ le_rfl)
      · exact g2 v hv h
  intro out hout
  have e : ksatSolve inp V (K + 1) = ksatExtrinsic inp.numVars inp.numConstraints (st (K + 1)).k2v (Arr.fill inp.numVars 0) := by
    simp only [ksatSolve, ksatIterate, (hst (K + 1)).1, Option.bind_eq_bind, Option.bind_some, Option.bind_assoc, Option.bind_fun_some]
  rw [e] at hout
  simp only [Rounded.ksatSolve, hrun, Option.bind_eq_bind, Option.bind_some]
  exact hext out hout

end run

theorem zipWith_congr_mem {f g : Num → Num → Num} : ∀ {L L' : List Num}, (∀ x ∈ L, ∀ y ∈ L', f x y = g x y) → List.zipWith f L L' = List.zipWith g L L'
  | [], _, _ => rfl
  | _ :: _, [], _ => rfl
  | x :: L, y :: L', h => by
    rw [List.zipWith_cons_cons, List.zipWith_cons_cons, h x (by simp) y (by simp),
      zipWith_congr_mem fun x hx y hy => h x (List.mem_cons_of_mem _ hx) y (List.mem_cons_of_mem _ hy)]

section beliefs
variable {n k : ℕ} {t : KsatTables} (hf : KFormula n k t.clauses t.used t.conns) (hk : 2 ≤ k) {w : ℕ → ℚ} {flag : Bool} {alpha : ℚ}
  (hr : KeepsMultiples r u M) (hu : 0 < u) (hd : flag = false ∨ alpha = 0) {B : ℚ} (hB : 0 ≤ B) (hwB : ∀ v < n, Small u B (fin (w v))) {D : ℕ}
  (hD : ∀ v ∈ t.used, ((Finset.range t.clauses.length).filter (fun c => v ∈ varsOf t.clauses c)).card ≤ D + 1) {K : ℕ}
  {X : ℚ} (hX0 : 0 ≤ X) (hM1 : 2 * k * X ≤ M) (hM2 : B + (D + 2) * X ≤ M) {x y : ℕ → ℕ → ℕ → ℚ}
  (htr : IsKsatTrace t.clauses.length k n ⟨t.clauses.length, k, litVar t⟩ ⟨t.clauses.length, k, litSign t⟩ w flag alpha
        (fun c v => if ∃ s < k, litVar t c s = v then w v else 0) x y)
  (hX : ∀ j ≤ K, ∀ c < t.clauses.length, ∀ v ∈ clauseVars k (litVar t c), |x j c v| ≤ X * u)
include hf hk hr hu hd hB hwB hD hX0 hM1 hM2 htr hX

theorem exact_ksatBeliefs : ∀ L, ksatBeliefs (K + 1) flag alpha (ksatObject n k t (listOf n (fun v => fin (w v)))) = some L →
    Rounded.ksatBeliefs r (K + 1) flag alpha (ksatObject n k t (listOf n (fun v => fin (w v)))) = some L := by
  have hco := connections_ok hf
  have hocc : ∀ v < n, (t.conns.map (List.map Prod.fst)).getD v [] ≠ [] → v ∈ t.used := by
    intro v hv' hne
    obtain ⟨c, hc⟩ := List.exists_mem_of_ne_nil _ hne
    have := (hco.mem v hv' c).mp hc
    simp only [occurrences, Finset.mem_filter, Finset.mem_range] at this
    exact hco.used_mem c this.1 v this.2
  obtain ⟨f, inp, A, h0, h1, g1, g2, g3, g4, g5, g6, g7, g8, g9, g10, g11, g12, g13, g14⟩ :=
    C24_decoded (cx := litVar t) (ty := litSign t) (w := fun v => fin (w v)) flag alpha (fun c hc s hs => lit_lt hf hc hs) hco.length hocc
  have hcv : ∀ c < t.clauses.length, clauseVars k (inp.conx.data c) = clauseVars k (litVar t c) := by
    intro c hc
    exact Finset.image_congr fun s hs => g8.2.2 c hc s (Finset.mem_range.mp hs)
  have hoccE : ∀ v, occurrences t.clauses.length k inp.conx v = occurrences t.clauses.length k ⟨t.clauses.length, k, litVar t⟩ v := by
    intro v
    refine Finset.filter_congr fun c hc => ?_
    rw [hcv c (Finset.mem_range.mp hc)]
  have htab : ClauseTables inp.numConstraints inp.k inp.numVars inp.conx inp.conxType := by
    rw [g1, g2, g3]
    refine ⟨g8.1, g8.2.1, g9.1, g9.2.1, fun c hc s hs => ?_, fun c hc s hs s' hs' e => ?_, fun c hc s hs => ?_⟩
    · rw [g8.2.2 c hc s hs]; exact lit_lt hf hc hs
    · rw [g8.2.2 c hc s hs, g8.2.2 c hc s' hs'] at e; exact lit_inj hf hc s hs s' hs' e
    · rw [g9.2.2 c hc s hs]; exact lit_sign hf hc hs
  have hcon : ConnectionsOk inp.numConstraints inp.k inp.numVars inp.conx inp.used inp.conns := by
    rw [g1, g2, g3, g6, g7]
    exact ⟨hco.used_lt, fun c hc v hvm => hco.used_mem c hc v (by rw [hcv c hc] at hvm; exact hvm), hco.length, hco.nodup,
      fun v hv' c => by rw [hoccE]; exact hco.mem v hv' c⟩
  have hw : inp.cost.Is inp.numVars w := ⟨by omega, fun v hv' => g11 v (by omega)⟩
  have hA : A.Is inp.numConstraints inp.numVars (fun c v => if ∃ s < k, litVar t c s = v then w v else 0) := by
    refine ⟨by omega, by omega, fun c hc v hv' => ?_⟩
    rw [g14 c (by omega) v (by omega)]
    show _ = fin (if ∃ s < k, litVar t c s = v then w v else 0)
    by_cases h : ∃ s < k, litVar t c s = v
    · rw [if_pos h, if_pos h]
    · rw [if_neg h, if_neg h]; rfl
  have hDi : ∀ v < inp.numVars, (occurrences inp.numConstraints inp.k inp.conx v).card ≤ D + 1 := by
    intro v _
    rw [g2, g3, hoccE]
    have e : occurrences t.clauses.length k ⟨t.clauses.length, k, litVar t⟩ v = (Finset.range t.clauses.length).filter (fun c => v ∈ varsOf t.clauses c) :=
      Finset.filter_congr fun c hc => by rw [clauseVars_eq hf (Finset.mem_range.mp hc)]
    rw [e]
    by_cases hv : v ∈ t.used
    · exact hD v hv
    · rw [Finset.card_eq_zero.mpr]
      · omega
      · refine Finset.eq_empty_of_forall_notMem fun c hc => hv ?_
        obtain ⟨h1, h2⟩ := Finset.mem_filter.mp hc
        exact vars_used hf (Finset.mem_range.mp h1) h2
  have htrI : IsKsatTrace inp.numConstraints inp.k inp.numVars inp.conx inp.conxType w inp.flag inp.alpha
      (fun c v => if ∃ s < k, litVar t c s = v then w v else 0) x y := by
    rw [g1, g2, g3, g4, g5]
    refine ⟨htr.init, fun j c hc v hv => ?_, fun j c hc v hv => ?_⟩
    · rw [hcv c hc] at hv ⊢
      have e : ClauseSat k (inp.conx.data c) (inp.conxType.data c) = ClauseSat k (litVar t c) (litSign t c) := by
        funext S
        refine propext ⟨?_, ?_⟩ <;> rintro ⟨i, hi, h⟩ <;> refine ⟨i, hi, ?_⟩ <;>
          simpa only [g8.2.2 c hc i hi, g9.2.2 c hc i hi] using h
      rw [e]
      exact htr.clause j c hc v hv
    · rw [hoccE]
      exact htr.var j c hc v (by rw [← hcv c hc]; exact hv)
  have hsolve := exact_ksatSolve (r := r) hr hu htab hcon hw (by rw [g3]; exact hk) (by rw [g4, g5]; exact hd) hA hB (by rw [g1]; exact hwB)
    (fun c _ v hv => by
      split
      · exact hwB v (by rw [← g1]; exact hv)
      · exact Small.zero hB) hDi (K := K) hX0 (by rw [g3]; exact hM1) hM2 htrI
    (by rw [g2, g3]; exact fun j hj c hc v hv => hX j hj c hc v (by rw [← hcv c hc]; exact hv))
  have hwrap : Same (fun L => ∀ x ∈ L, Small u ((D + 1) * X) x)
      (ksatWrapper (K + 1) n t.clauses.length t.used.length k flag alpha f (List.replicate n 0))
      (Rounded.ksatWrapper r (K + 1) n t.clauses.length t.used.length k flag alpha f (List.replicate n 0)) := by
    simp only [ksatWrapper, Rounded.ksatWrapper, h1, Option.bind_eq_bind, Option.bind_some]
    refine Same.bind (P := fun out : Arr Num => ∀ v < n, Small u ((D + 1) * X) (out.data v)) (fun out ho => ?_) fun out ho => ?_
    · rw [← g1]; exact hsolve out ho
    refine Same.read fun L hL => ?_
    have hmem : ∀ x ∈ L, Small u ((D + 1) * X) x := by
      unfold slice at hL
      split at hL
      · next hn =>
        rw [← Option.some.inj hL]
        intro x hx
        simp only [List.drop_zero] at hx
        obtain ⟨i, hi, rfl⟩ := List.mem_iff_getElem.mp hx
        have hi' : i < n := by
          have := hi
          rw [List.length_take] at this
          omega
        simp only [List.getElem_take, Arr.toList, List.getElem_map, List.getElem_range]
        exact ho i hi'
      · cases hL
    refine Same.of fun L' hL' => ?_
    split at hL'
    · rw [← Option.some.inj hL']
      intro x hx
      rcases List.mem_append.mp hx with hx | hx
      · exact hmem x hx
      · have := List.eq_of_mem_replicate (List.mem_of_mem_drop hx)
        rw [this]
        exact Small.zero (mul_nonneg (by positivity) hX0)
    · cases hL'
  rw [object_eq hf]
  simp only [ksatBeliefs, Rounded.ksatBeliefs, h0, Option.bind_eq_bind, Option.bind_some]
  refine fun L hL => (show Same (fun _ => True) _ _ from hwrap.bind fun ext he => ?_) L hL |>.1
  refine Same.bind (P := fun a : Arr Num => ∀ v, Small u B (a.data v)) ?_ fun used hus => ?_
  · refine Same.loopList (fun _ (a : Arr Num) => ∀ v, Small u B (a.data v)) (i := 0) (fun _ => Small.zero hB) fun v _ _ _ a ha => ?_
    refine Same.read fun c hc => Same.of fun b hb => ?_
    obtain ⟨-, -, e⟩ := arr_wr hb
    have hc' : Small u B c := by
      have hc : (listOf n (fun v => fin (w v)))[v]? = some c := hc
      by_cases hv : v < n
      · rw [listOf_getElem? hv] at hc
        rw [← Option.some.inj hc]
        exact hwB v hv
      · rw [List.getElem?_eq_none (by simp [listOf]; omega)] at hc
        cases hc
    intro v'
    rw [e]
    simp only
    split
    · exact hc'
    · exact ha v'
  · split
    · have e : List.zipWith (fun x y => Rounded.rn r (x + y)) ext used.toList = List.zipWith (fun x y => x + y) ext used.toList := by
        refine zipWith_congr_mem fun x hx y hy => ?_
        obtain ⟨v, -, rfl⟩ := List.mem_map.mp hy
        exact ((he x hx).add (hus v)).rn hr (by linarith)
      rw [e]
      exact Same.some trivial
    · exact Same.none

end beliefs

/-- Messages grow at most by the number of other clauses in each iteration. -/
theorem trace_level {n k : ℕ} {t : KsatTables} (hf : KFormula n k t.clauses t.used t.conns) (hk : 2 ≤ k) {w : ℕ → ℚ} {flag : Bool} {alpha : ℚ}
    (hd : flag = false ∨ alpha = 0) {x y : ℕ → ℕ → ℕ → ℚ}
    (htr : IsKsatTrace t.clauses.length k n ⟨t.clauses.length, k, litVar t⟩ ⟨t.clauses.length, k, litSign t⟩ w flag alpha
        (fun c v => if ∃ s < k, litVar t c s = v then w v else 0) x y) {b : ℚ} (hwb : ∀ v < n, |w v| ≤ b) {D : ℕ}
    (hD : ∀ v ∈ t.used, ((Finset.range t.clauses.length).filter (fun c => v ∈ varsOf t.clauses c)).card ≤ D + 1) (j : ℕ) :
    ∀ c < t.clauses.length, ∀ v ∈ clauseVars k (litVar t c), |x j c v| ≤ level b D j := by
  induction j with
  | zero =>
    intro c hc v hv
    have hu : v ∈ t.used := vars_used hf hc (by rw [← clauseVars_eq hf hc]; exact hv)
    rw [htr.init c hc v (hf.tables.used_lt v hu), if_pos (by simpa [clauseVars] using hv)]
    simpa [level] using hwb v (hf.tables.used_lt v hu)
  | succ j ih =>
    intro c hc v hv
    have hu : v ∈ t.used := vars_used hf hc (by rw [← clauseVars_eq hf hc]; exact hv)
    have hb : 0 ≤ b := (abs_nonneg _).trans (hwb v (hf.tables.used_lt v hu))
    rw [htr.var j c hc v hv, level_succ]
    refine (abs_add_le _ _).trans (add_le_add (hwb v (hf.tables.used_lt v hu)) ?_)
    have hcm : c ∈ occurrences t.clauses.length k ⟨t.clauses.length, k, litVar t⟩ v := Finset.mem_filter.mpr ⟨Finset.mem_range.mpr hc, hv⟩
    have hcard : ((occurrences t.clauses.length k ⟨t.clauses.length, k, litVar t⟩ v).erase c).card ≤ D := by
      rw [Finset.card_erase_of_mem hcm]
      have e : occurrences t.clauses.length k ⟨t.clauses.length, k, litVar t⟩ v = (Finset.range t.clauses.length).filter (fun c => v ∈ varsOf t.clauses c) :=
        Finset.filter_congr fun c hc => by rw [clauseVars_eq hf (Finset.mem_range.mp hc)]
      rw [e]
      have := hD v hu
      omega
    refine (Finset.abs_sum_le_sum_abs _ _).trans ((Finset.sum_le_card_nsmul _ _ (level b D j) fun c' hc' => ?_).trans ?_)
    · obtain ⟨h1, h2⟩ := Finset.mem_filter.mp (Finset.mem_of_mem_erase hc')
      have h1 := Finset.mem_range.mp h1
      have hno : damped flag alpha (fun i => y i c' v) j = y j c' v := by
        unfold damped
        rw [if_neg]
        rintro ⟨h1, h2⟩
        rcases hd with h | h
        · rw [h] at h1; simp at h1
        · exact h2 h
      rw [hno]
      have hm := htr.clause j c' h1 v h2
      obtain ⟨s, hs, rfl⟩ := Finset.mem_image.mp h2
      obtain ⟨i, hi, -, -, e⟩ := clause_closed (lit_inj hf h1) (fun _ hs => lit_sign hf h1 hs) hk (Finset.mem_range.mp hs) hm
      have hi' := ih c' h1 (litVar t c' i) (Finset.mem_image.mpr ⟨i, Finset.mem_range.mpr hi, rfl⟩)
      have hmin : ∀ y : ℚ, |min (-y) 0| ≤ |y| := fun y => by
        rcases le_total (-y) 0 with h | h
        · rw [min_eq_left h, abs_neg]
        · rw [min_eq_right h]; simp
      rw [e]
      rcases lit_sign hf h1 (Finset.mem_range.mp hs) with e1 | e1 <;> rcases lit_sign hf h1 hi with e2 | e2 <;> rw [e1, e2] <;> push_cast <;>
        simp only [mul_one, mul_neg, abs_neg] <;> refine (hmin _).trans ?_ <;> simpa using hi'
    · rw [nsmul_eq_mul]
      exact mul_le_mul_of_nonneg_right (by exact_mod_cast hcard) (level_nonneg hb D j)

theorem level_mono {b : ℚ} (hb : 0 ≤ b) (D : ℕ) {j K : ℕ} (hj : j ≤ K) : level b D j ≤ level b D K := by
  refine mul_le_mul_of_nonneg_left (Finset.sum_le_sum_of_subset_of_nonneg ?_ fun _ _ _ => by positivity) hb
  intro i hi
  rw [Finset.mem_range] at hi ⊢
  omega


end Verif.Proofs
