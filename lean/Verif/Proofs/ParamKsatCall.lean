import Verif.Proofs.Accuracy
import Verif.Proofs.Grid
import Verif.Proofs.KsatCall
import Verif.Proofs.ParamKsat
import Mathlib.Data.List.GetD

/-! A k-SAT call with rounding. -/

namespace Verif.Proofs
open Verif Num Filter Topology Model Spec Properties

variable {ι : Type} {l : Filter ι} {r : ι → ℚ → Num} {R : Num → (ι → Num) → Prop}

theorem picks_keep {G : ℚ → Prop} : Picks (Keep G) := by
  intro a b x y h h' _
  refine ⟨fun q hq => ?_, by filter_upwards [h.2, h'.2] with r h1 h2; rw [h1, h2]⟩
  unfold pick at hq
  split at hq
  · exact h'.1 q hq
  · exact h.1 q hq

/-- A family that takes its values from two families with the same limit. -/
theorem Lim.either {a : Num} {b c d : ι → Num} (h : Lim l a b) (h' : Lim l a c) (hd : ∀ i, d i = b i ∨ d i = c i) : Lim l a d := by
  classical
  cases a with
  | fin q =>
    obtain ⟨p, h1, h2⟩ := h
    obtain ⟨p', h1', h2'⟩ := h'
    refine ⟨fun i => if d i = b i then p i else p' i, ?_, h2.if' h2'⟩
    filter_upwards [h1, h1'] with i e1 e2
    by_cases hi : d i = b i
    · rw [if_pos hi, hi, e1]
    · rw [if_neg hi, (hd i).resolve_left hi, e2]
  | _ =>
    show ∀ᶠ i in l, d i = _
    filter_upwards [h, h'] with i e1 e2
    rcases hd i with e | e
    · rw [e, e1]
    · rw [e, e2]

theorem picks_lim : Picks (Lim l) := by
  intro a b x y h h' hz
  have hself : ∀ a : Num, pick a a = a := fun a => by unfold pick; split <;> rfl
  by_cases hax : a = x
  · subst hax
    rw [hself]
    exact h.either h' fun i => by unfold pick; split; · exact Or.inr rfl
                                  · exact Or.inl rfl
  · have h0 : a = 0 := hz.resolve_right hax
    have hlt := Lim.lt h.abs h'.abs (fun q hq hq' => by
      rw [h0] at hq
      have e : (0 : ℚ) = q := by simpa [Num.abs, zero_def] using hq
      rw [← e] at hq'
      apply hax
      cases x with
      | fin p => rw [h0]
                 have : |p| = 0 := by simpa [Num.abs] using hq'
                 rw [abs_eq_zero.mp this]; rfl
      | _ => cases hq')
    unfold pick
    by_cases hl : Num.lt (Num.abs a) (Num.abs x) = true
    · rw [if_pos hl]
      refine h'.congr ?_
      filter_upwards [hlt] with i e; rw [e, if_pos hl]
    · rw [if_neg hl]
      refine h.congr ?_
      filter_upwards [hlt] with i e; rw [e, if_neg hl]

/-- Lists of eventually the same length, related entry by entry. -/
structure RelL (l : Filter ι) (R : Num → (ι → Num) → Prop) (L : List Num) (L' : ι → List Num) : Prop where
  length : ∀ᶠ i in l, (L' i).length = L.length
  data : ∀ k < L.length, R (L.getD k 0) (fun i => (L' i).getD k 0)

section
variable (hR : Calc l r R) {a : Arr Num} {b : ι → Arr Num} {L M : List Num} {L' M' : ι → List Num}
include hR

theorem RelArr.toList (h : RelArr l R a b) : RelL l R a.toList (fun i => (b i).toList) := by
  refine ⟨by filter_upwards [h.size] with i e; simp [Arr.toList, e], fun k hk => ?_⟩
  have hk : k < a.size := by simpa [Arr.toList] using hk
  have e : ∀ c : Arr Num, k < c.size → c.toList.getD k 0 = c.data k := by
    intro c hc
    rw [List.getD_eq_getElem _ _ (by simpa [Arr.toList] using hc)]
    simp [Arr.toList]
  rw [e a hk]
  refine hR.congr (h.data k hk) ?_
  filter_upwards [h.size] with i ei
  rw [e _ (by rw [ei]; exact hk)]

theorem RelL.zipAdd (h : RelL l R L L') (h' : RelL l R M M') :
    RelL l R (List.zipWith (· + ·) L M) (fun i => List.zipWith (fun x y => Rounded.rn (r i) (x + y)) (L' i) (M' i)) := by
  refine ⟨by filter_upwards [h.length, h'.length] with i e1 e2; simp [e1, e2], fun k hk => ?_⟩
  have hk' : k < L.length ∧ k < M.length := by simpa using hk
  rw [List.getD_eq_getElem _ _ hk, List.getElem_zipWith]
  have h1 := h.data k hk'.1
  have h2 := h'.data k hk'.2
  rw [List.getD_eq_getElem _ _ hk'.1] at h1
  rw [List.getD_eq_getElem _ _ hk'.2] at h2
  refine hR.congr (hR.add h1 h2) ?_
  filter_upwards [h.length, h'.length] with i e1 e2
  rw [List.getD_eq_getElem (List.zipWith _ (L' i) (M' i)) _ (by simp [e1, e2, hk']), List.getElem_zipWith, List.getD_eq_getElem _ _ (by rw [e1]; exact hk'.1),
    List.getD_eq_getElem _ _ (by rw [e2]; exact hk'.2)]

end

section
variable {n k : ℕ} {t : KsatTables} (hf : KFormula n k t.clauses t.used t.conns)
include hf

/-- What the native solver receives, for given costs. -/
theorem ksat_decoded (flag : Bool) (alpha : ℚ) (w : ℕ → Num) : ∃ f inp a, ksatFlatten (ksatObject n k t (listOf n w)) = some f ∧
    ksatDecode n t.clauses.length t.used.length k flag alpha f = some (inp, a) ∧
    inp.numVars = n ∧ inp.numConstraints = t.clauses.length ∧ inp.k = k ∧ inp.flag = flag ∧ inp.alpha = alpha ∧ inp.used = t.used ∧
    inp.conns = t.conns.map (List.map Prod.fst) ∧
    (∀ c s, inp.conx.rd c s = if c < t.clauses.length ∧ s < k then some (litVar t c s) else none) ∧
    (∀ c s, inp.conxType.rd c s = if c < t.clauses.length ∧ s < k then some (litSign t c s) else none) ∧
    inp.cost.size = n ∧ (∀ v < n, inp.cost.data v = w v) ∧
    a.rows = t.clauses.length ∧ a.cols = n ∧ ∀ c < t.clauses.length, ∀ v < n, a.data c v = if ∃ s < k, litVar t c s = v then w v else 0 := by
  have hco := connections_ok hf
  have hocc : ∀ v < n, (t.conns.map (List.map Prod.fst)).getD v [] ≠ [] → v ∈ t.used := by
    intro v hv' hne
    obtain ⟨c, hc⟩ := List.exists_mem_of_ne_nil _ hne
    have := (hco.mem v hv' c).mp hc
    simp only [occurrences, Finset.mem_filter, Finset.mem_range] at this
    exact hco.used_mem c this.1 v this.2
  obtain ⟨f, inp, A, h0, h1, g1, g2, g3, g4, g5, g6, g7, g8, g9, g10⟩ :=
    C24_decoded (cx := litVar t) (ty := litSign t) (w := w) flag alpha (fun c hc s hs => lit_lt hf hc hs) hco.length hocc
  have hrd : ∀ {α : Type} {m : Mat α} {f : ℕ → ℕ → α}, m.rows = t.clauses.length → m.cols = k → (∀ c < t.clauses.length, ∀ s < k, m.data c s = f c s) →
      ∀ c s, m.rd c s = if c < t.clauses.length ∧ s < k then some (f c s) else none := by
    intro α m f e1 e2 e3 c s
    unfold Mat.rd
    rw [e1, e2]
    by_cases hcs : c < t.clauses.length ∧ s < k
    · rw [if_pos hcs, if_pos hcs, e3 c hcs.1 s hcs.2]
    · rw [if_neg hcs, if_neg hcs]
  rw [object_eq hf]
  exact ⟨f, inp, A, h0, h1, g1, g2, g3, g4, g5, g6, g7, hrd g8.1 g8.2.1 g8.2.2, hrd g9.1 g9.2.1 g9.2.2, g10⟩

variable (hR : Calc l r R) (hp : Picks R) {flag : Bool} {alpha : ℚ} (hd : Damps r R flag alpha)
include hR hp hd

/-- The beliefs with rounding. -/
theorem rel_ksatBeliefs (numIter : ℕ) {w : ℕ → Num} {W : ι → ℕ → Num} (hw : ∀ v < n, R (w v) (fun i => W i v)) :
    RelO l (RelL l R) (ksatBeliefs numIter flag alpha (ksatObject n k t (listOf n w)))
      (fun i => Rounded.ksatBeliefs (r i) numIter flag alpha (ksatObject n k t (listOf n (W i)))) := by
  obtain ⟨f, inp, A, e1, e2, a1, a2, a3, a4, a5, a6, a7, a8, a9, a10, a11, a12, a13, a14⟩ := ksat_decoded hf flag alpha w
  choose f' inp' A' e1' e2' b1 b2 b3 b4 b5 b6 b7 b8 b9 b10 b11 b12 b13 b14 using fun i => ksat_decoded hf flag alpha (W i)
  have hJ : RelKsat l R inp inp' := by
    refine ⟨fun i => by rw [a1, b1], fun i => by rw [a2, b2], fun i => by rw [a3, b3], fun i => by rw [a4, b4], fun i => by rw [a5, b5],
      fun i => by rw [a6, b6], fun i => by rw [a7, b7], ⟨fun i c s => by rw [a8, b8], fun i c s => by rw [a9, b9], fun c s z hz => ?_,
      fun c s s' v h1 h2 => ?_⟩, ⟨Eventually.of_forall fun i => by rw [a10, b10], fun v hv => ?_⟩⟩
    · rw [a9] at hz
      split at hz
      · next h => rw [← Option.some.inj hz]; exact lit_sign hf h.1 h.2
      · cases hz
    · rw [a8] at h1 h2
      split at h1
      · next g1 =>
        split at h2
        · next g2 =>
          exact lit_inj hf g1.1 s g1.2 s' g2.2 (by rw [Option.some.inj h1, Option.some.inj h2])
        · cases h2
      · cases h1
    · rw [a10] at hv
      rw [a11 v hv]
      simp only [b11 _ v hv]
      exact hw v hv
  have hA : RelMat l R A A' := by
    refine ⟨Eventually.of_forall fun i => by rw [a12, b12], Eventually.of_forall fun i => by rw [a13, b13], fun c hc v hv => ?_⟩
    rw [a12] at hc
    rw [a13] at hv
    rw [a14 c hc v hv]
    simp only [b14 _ c hc v hv]
    by_cases h : ∃ s < k, litVar t c s = v
    · simp only [if_pos h]; exact hw v hv
    · simp only [if_neg h]; exact hR.zero
  have hwrap : RelO l (RelL l R) (ksatWrapper numIter n t.clauses.length t.used.length k flag alpha f (List.replicate n 0))
      (fun i => Rounded.ksatWrapper (r i) numIter n t.clauses.length t.used.length k flag alpha (f' i) (List.replicate n 0)) := by
    simp only [ksatWrapper, Rounded.ksatWrapper, e2, e2', Option.bind_eq_bind, Option.bind_some]
    refine (rel_ksatSolve hR hp hJ (by rw [a4, a5]; exact hd) numIter hA).bind fun x y _ hxy => ?_
    have hL := hxy.toList hR
    intro L hL'
    obtain ⟨s, hs, hL'⟩ := Option.bind_eq_some_iff.mp hL'
    have hsl : ∀ L : List Num, slice L 0 n = if n ≤ L.length then some (L.take n) else none := by
      intro L
      simp [slice]
    rw [hsl] at hs
    split at hs
    · next hn =>
      obtain rfl := Option.some.inj hs
      have hlen : (x.toList.take n).length = n := by simp [hn]
      rw [if_pos (by simp), hlen] at hL'
      have hL' := Option.some.inj hL'
      have hL2 : L = x.toList.take n := by rw [← hL']; simp
      refine ⟨fun i => (y i).toList.take n, ?_, ⟨?_, fun v hv => ?_⟩⟩
      · filter_upwards [hL.length] with i ei
        rw [hsl, if_pos (by rw [ei]; exact hn)]
        simp only [Option.bind_some]
        rw [if_pos (by simp)]
        simp [ei, hn]
      · filter_upwards [hL.length] with i ei
        rw [hL2]; simp [ei]
      · rw [hL2, hlen] at hv
        have := hL.data v (by omega)
        rw [hL2]
        simp only [List.getD_eq_getElem?_getD, List.getElem?_take, if_pos hv] at this ⊢
        exact this
    · cases hs
  simp only [ksatBeliefs, Rounded.ksatBeliefs, e1, e1', Option.bind_eq_bind, Option.bind_some]
  refine hwrap.bind fun L L' _ hL => ?_
  refine RelO.bind (R := RelArr l R) (RelO.loopList (RelArr.fill hR.zero _) fun v _ a b hab => ?_) fun u u' _ hu => ?_
  · show RelO l (RelArr l R) (((listOf n w)[v]?).bind _) (fun i => ((listOf n (W i))[v]?).bind _)
    by_cases hv : v < n
    · simp only [listOf_getElem? hv, Option.bind_some]
      exact hab.wr v (hw v hv)
    · rw [List.getElem?_eq_none (by simp [listOf]; omega)]
      exact RelO.none
  · by_cases hs : L.length = u.size
    · rw [if_pos hs]
      refine RelO.congr (RelO.some (RelL.zipAdd hR hL (hu.toList hR))) ?_
      filter_upwards [hL.length, hu.size] with i g1 g2
      rw [if_pos (by rw [g1, g2]; exact hs)]
    · rw [if_neg hs]; exact RelO.none

end

/-- A rounding together with costs. -/
abbrev RoundedVars : Type := (ℚ → Num) × (ℕ → ℚ)

def RoundedVars.Close (n : ℕ) (w : ℕ → ℚ) (i : RoundedVars) (M ε : ℚ) : Prop := Accurate i.1 M ε ∧ ∀ v < n, |w v - i.2 v| ≤ ε

theorem RoundedVars.Close.mono {n : ℕ} {w : ℕ → ℚ} {i : RoundedVars} {M ε M' ε' : ℚ} (h : i.Close n w M ε) (hM : M' ≤ M) (hε : ε ≤ ε') :
    i.Close n w M' ε' :=
  ⟨Accurate.mono h.1 hM hε, fun v hv => (h.2 v hv).trans hε⟩

/-- Towards exact arithmetic and the costs `w`. -/
def varsFilter (n : ℕ) (w : ℕ → ℚ) : Filter RoundedVars where
  sets := {S | ∃ M ε : ℚ, 0 < ε ∧ ∀ i : RoundedVars, i.Close n w M ε → i ∈ S}
  univ_sets := ⟨0, 1, one_pos, fun _ _ => trivial⟩
  sets_of_superset := by
    rintro S T ⟨M, ε, h1, h2⟩ hS
    exact ⟨M, ε, h1, fun i hi => hS (h2 i hi)⟩
  inter_sets := by
    rintro S T ⟨M, ε, h1, h2⟩ ⟨M', ε', h1', h2'⟩
    exact ⟨max M M', min ε ε', lt_min h1 h1', fun i hi =>
      ⟨h2 i (hi.mono (le_max_left _ _) (min_le_left _ _)), h2' i (hi.mono (le_max_right _ _) (min_le_right _ _))⟩⟩

theorem fine_vars (n : ℕ) (w : ℕ → ℚ) : Fine (varsFilter n w) (fun i => i.1) := fun M ε hε => ⟨M, ε, hε, fun _ hi => hi.1⟩

theorem lim_vars {n : ℕ} {w : ℕ → ℚ} {v : ℕ} (hv : v < n) : Lim (varsFilter n w) (fin (w v)) (fun i => fin (i.2 v)) := by
  refine ⟨_, Eventually.of_forall fun _ => rfl, Metric.tendsto_nhds.mpr fun ε hε => ?_⟩
  obtain ⟨ε', h1, h2⟩ := exists_rat_btwn hε
  refine ⟨0, ε', by exact_mod_cast h1, fun i hi => ?_⟩
  show dist _ _ < ε
  rw [dist_comm, Rat.dist_eq]
  refine lt_of_le_of_lt ?_ h2
  exact_mod_cast hi.2 v hv

/-- The part of the call after the beliefs depends only on the hard decisions. -/
theorem rounded_ksatCall {n k numIter : ℕ} {flag : Bool} {alpha : ℚ} {thr : Num} {order order' : List ℕ → List ℕ} {post : Bool} {pp : ℕ} {sol : List Bool}
    {t : KsatTables} {cost cost' b b' : List Num} {res : KsatResult} {ρ : ℚ → Num}
    (h : ksatCall n k numIter flag alpha thr order order' post pp sol t cost = some res)
    (hb : ksatBeliefs numIter flag alpha (ksatObject n k t cost) = some b)
    (hb' : Rounded.ksatBeliefs ρ numIter flag alpha (ksatObject n k t cost') = some b') (hh : hardDecisions thr b' = hardDecisions thr b) :
    Rounded.ksatCall ρ n k numIter flag alpha thr order order' post pp sol t cost' = some { res with beliefs := b' } := by
  unfold ksatCall at h
  unfold Rounded.ksatCall
  rw [hb] at h
  rw [hb']
  simp only [Option.bind_eq_bind, Option.bind_some, decideAndPost, hh] at h ⊢
  obtain ⟨first, a1, h⟩ := Option.bind_eq_some_iff.mp h
  rw [a1] at h ⊢
  simp only [Option.bind_some] at h ⊢
  obtain ⟨st, a2, h⟩ := Option.bind_eq_some_iff.mp h
  rw [a2]
  simp only [Option.bind_some] at h ⊢
  obtain ⟨sim, a3, h⟩ := Option.bind_eq_some_iff.mp h
  rw [a3]
  simp only [Option.bind_some, Option.some.injEq] at h ⊢
  rw [← h]

end Verif.Proofs
