import Verif.Proofs.CoverBound
import Verif.Proofs.Unmixed
import Verif.Spec.Relaxation

/-! Messages of a run on a formula without mixed variables, compared with a cheapest fractional solution. -/

namespace Verif.Proofs
open Verif Num Spec Model Properties

/-- How far the literal of a variable is true. -/
def signDegree (g : ℕ → ℤ) (X : ℕ → ℚ) (v : ℕ) : ℚ := if g v = 1 then X v else 1 - X v

theorem signDegree_twice (g : ℕ → ℤ) (X : ℕ → ℚ) : signDegree g (signDegree g X) = X := by
  funext v
  unfold signDegree
  split <;> simp

/-- The assignment that makes the literals of the variables in `S` true. -/
def signFlip (g : ℕ → ℤ) (U S : Finset ℕ) : Finset ℕ := U.filter (fun v => v ∈ S ↔ g v = 1)

theorem signFlip_twice (g : ℕ → ℤ) {U S : Finset ℕ} (h : S ⊆ U) : signFlip g U (signFlip g U S) = S := by
  ext v
  simp only [signFlip, Finset.mem_filter]
  constructor
  · rintro ⟨h1, h2⟩
    by_cases e : g v = 1
    · exact ((h2.mpr e).2.mpr e)
    · by_contra h3
      exact e (h2.mp ⟨h1, ⟨fun h4 => absurd h4 h3, fun h4 => absurd h4 e⟩⟩)
  · intro h1
    exact ⟨h h1, ⟨fun h2 => h2.2.mp h1, fun h2 => ⟨h h1, ⟨fun _ => h2, fun _ => h1⟩⟩⟩⟩

theorem signFlip_cost {g : ℕ → ℤ} {U S : Finset ℕ} (h : S ⊆ U) (hg1 : ∀ v ∈ U, g v = 1 ∨ g v = -1) (w : ℕ → ℚ) :
    cost w (signFlip g U S) = ∑ v ∈ S, w v * g v + ∑ v ∈ U, if g v = 1 then 0 else w v := by
  have e1 : ∑ v ∈ S, w v * g v = ∑ v ∈ U, if v ∈ S then w v * g v else 0 := by
    rw [← Finset.sum_filter]
    congr 1
    ext v
    simp only [Finset.mem_filter]
    exact ⟨fun h1 => ⟨h h1, h1⟩, fun h1 => h1.2⟩
  rw [e1, cost, signFlip, Finset.sum_filter, ← Finset.sum_add_distrib]
  refine Finset.sum_congr rfl fun v hv => ?_
  by_cases hS : v ∈ S
  · rcases hg1 v hv with e | e <;> simp [hS, e]
  · rcases hg1 v hv with e | e <;> simp [hS, e]

section
variable {n k : ℕ} {t : KsatTables} (hf : KFormula n k t.clauses t.used t.conns) {g : ℕ → ℤ} (hg : Unmixed t.clauses g)
include hf hg

theorem clause_degree {c : ℕ} (hc : c < t.clauses.length) (X : ℕ → ℚ) :
    ((t.clauses.getD c []).map (litDegree X)).sum = ∑ v ∈ clauseVars k (litVar t c), signDegree g X v := by
  rw [clauseVars_eq hf hc, varsOf, List.sum_toFinset _ (hf.clause _ (getD_mem hf hc)).2.1, List.map_map]
  congr 1
  refine List.map_congr_left fun l hl => ?_
  simp only [Function.comp, litDegree, signDegree, hg _ (getD_mem hf hc) l hl]

theorem fractional_iff (X : ℕ → ℚ) : FractionalSolution t.clauses t.used.toFinset X ↔
    FracCover t.clauses.length (fun c => clauseVars k (litVar t c)) t.used.toFinset (signDegree g X) := by
  refine and_congr (forall₂_congr fun v _ => ?_) ⟨fun h c hc => ?_, fun h cl hcl => ?_⟩
  · unfold signDegree
    split
    · rfl
    · constructor <;> rintro ⟨h1, h2⟩ <;> constructor <;> linarith
  · rw [← clause_degree hf hg hc]
    exact h _ (getD_mem hf hc)
  · obtain ⟨c, hc, rfl⟩ := List.getElem_of_mem hcl
    have := h c hc
    rw [← clause_degree hf hg hc, List.getD_eq_getElem?_getD, List.getElem?_eq_getElem hc] at this
    exact this

omit hf hg in
theorem fractional_cost {U : Finset ℕ} (hg1 : ∀ v ∈ U, g v = 1 ∨ g v = -1) (w X : ℕ → ℚ) :
    ∑ v ∈ U, w v * X v = ∑ v ∈ U, w v * g v * signDegree g X v + ∑ v ∈ U, if g v = 1 then 0 else w v := by
  rw [← Finset.sum_add_distrib]
  refine Finset.sum_congr rfl fun v hv => ?_
  unfold signDegree
  rcases hg1 v hv with e | e
  · simp [e]
  · simp [e]
    ring

omit hg in
theorem clause_ok (hk : 2 ≤ k) : ∀ c < t.clauses.length, (clauseVars k (litVar t c)).Nonempty ∧ clauseVars k (litVar t c) ⊆ t.used.toFinset := fun c hc =>
  ⟨⟨litVar t c 0, Finset.mem_image.mpr ⟨0, Finset.mem_range.mpr (by omega), rfl⟩⟩, fun v hv => List.mem_toFinset.mpr (vars_used hf hc (by rwa [← clauseVars_eq hf hc]))⟩

theorem fractional_exists (hk : 2 ≤ k) (hg1 : ∀ v ∈ t.used.toFinset, g v = 1 ∨ g v = -1) (w : ℕ → ℚ) : ∃ X, CheapestFractional t.clauses t.used.toFinset w X := by
  obtain ⟨L, h1, h2⟩ := cover_exists (clause_ok hf hk) (fun v => w v * g v)
  refine ⟨signDegree g L, (fractional_iff hf hg _).mpr (by rwa [signDegree_twice]), fun X' hX' => ?_⟩
  rw [fractional_cost hg1, fractional_cost hg1 w X', signDegree_twice]
  have := h2 _ ((fractional_iff hf hg _).mp hX')
  linarith

theorem fractional_certificate (hk : 2 ≤ k) (hg1 : ∀ v ∈ t.used.toFinset, g v = 1 ∨ g v = -1) {w X : ℕ → ℚ} (h : CheapestFractional t.clauses t.used.toFinset w X) :
    ∃ y, Certificate t.clauses.length (fun c => clauseVars k (litVar t c)) t.used.toFinset (fun v => w v * g v) (signDegree g X) y := by
  refine cover_certificate (clause_ok hf hk) _ ((fractional_iff hf hg _).mp h.1) fun L' hL' => ?_
  have := h.2 (signDegree g L') ((fractional_iff hf hg _).mpr (by rwa [signDegree_twice]))
  rw [fractional_cost hg1, fractional_cost hg1 w (signDegree g L'), signDegree_twice] at this
  linarith

theorem flip_satisfies {S : Finset ℕ} : Satisfies t.clauses (signFlip g t.used.toFinset S) ↔ ∀ c < t.clauses.length, ∃ v ∈ clauseVars k (litVar t c), v ∈ S := by
  simp only [Satisfies, violated, List.filter_eq_nil_iff, List.mem_range, decide_eq_true_eq]
  refine forall₂_congr fun c hc => ?_
  push Not
  constructor
  · rintro ⟨l, hl, hl'⟩
    have e := hg _ (getD_mem hf hc) l hl
    have hu := hf.tables.used_mem _ (getD_mem hf hc) l hl
    refine ⟨l.1, by rw [clauseVars_eq hf hc, varsOf, List.mem_toFinset]; exact List.mem_map.mpr ⟨l, hl, rfl⟩, ?_⟩
    rcases hl' with ⟨h1, h2⟩ | ⟨h1, h2⟩
    · have h3 := of_decide_eq_true h2
      exact (Finset.mem_filter.mp h3).2.mpr (by rw [← e]; exact h1)
    · have h3 := of_decide_eq_false h2
      by_contra h4
      refine h3 (Finset.mem_filter.mpr ⟨List.mem_toFinset.mpr hu, ⟨fun h5 => absurd h5 h4, fun h5 => ?_⟩⟩)
      rw [← e, h1] at h5
      exact absurd h5 (by decide)
  · rintro ⟨v, hv, hS⟩
    rw [clauseVars_eq hf hc, varsOf, List.mem_toFinset] at hv
    obtain ⟨l, hl, rfl⟩ := List.mem_map.mp hv
    have e := hg _ (getD_mem hf hc) l hl
    have hu := hf.tables.used_mem _ (getD_mem hf hc) l hl
    refine ⟨l, hl, ?_⟩
    rcases (hf.clause _ (getD_mem hf hc)).2.2 l hl with e1 | e1
    · exact .inl ⟨e1, decide_eq_true (Finset.mem_filter.mpr ⟨List.mem_toFinset.mpr hu, ⟨fun _ => by rw [← e]; exact e1, fun _ => hS⟩⟩)⟩
    · refine .inr ⟨e1, decide_eq_false fun h3 => ?_⟩
      have := (Finset.mem_filter.mp h3).2.mp hS
      rw [← e, e1] at this
      exact absurd this (by decide)

/-- Assignments are the fractional solutions with values 0 and 1. -/
theorem indicator_fractional {T : Finset ℕ} (hT : T ⊆ t.used.toFinset) (hsat : Satisfies t.clauses T) :
    FractionalSolution t.clauses t.used.toFinset (fun v => if v ∈ T then 1 else 0) := by
  rw [fractional_iff hf hg]
  have hdeg : ∀ v, 0 ≤ signDegree g (fun v => if v ∈ T then 1 else 0) v ∧ signDegree g (fun v => if v ∈ T then 1 else 0) v ≤ 1 := by
    intro v
    unfold signDegree
    beta_reduce
    split <;> split <;> norm_num
  refine ⟨fun v _ => hdeg v, fun c hc => ?_⟩
  rw [← signFlip_twice g hT, flip_satisfies hf hg] at hsat
  obtain ⟨v, hv, hS⟩ := hsat c hc
  have e : signDegree g (fun v => if v ∈ T then 1 else 0) v = 1 := by
    have h1 := (Finset.mem_filter.mp hS).2
    unfold signDegree
    by_cases h2 : g v = 1
    · simp [h2, h1.mpr h2]
    · have : v ∉ T := fun h3 => h2 (h1.mp h3)
      simp [h2, this]
  exact e.ge.trans <| Finset.single_le_sum (f := signDegree g (fun v => if v ∈ T then 1 else 0)) (fun v _ => (hdeg v).1) hv

end

section
variable {n k : ℕ} {t : KsatTables} (hf : KFormula n k t.clauses t.used t.conns) (hk : 2 ≤ k) {g : ℕ → ℤ} (hg : Unmixed t.clauses g) {w : ℕ → ℚ}
  {flag : Bool} {alpha : ℚ} {x r : ℕ → ℕ → ℕ → ℚ}
  (h : IsKsatTrace t.clauses.length k n ⟨t.clauses.length, k, litVar t⟩ ⟨t.clauses.length, k, litSign t⟩ w flag alpha
        (fun c v => if ∃ s < k, litVar t c s = v then w v else 0) x r) (hu : flag = false ∨ alpha = 0) {L y : ℕ → ℚ}
  (hy : Certificate t.clauses.length (fun c => clauseVars k (litVar t c)) t.used.toFinset (fun v => w v * g v) L y)
include hf hk hg h hy

/-- What a clause asks, compared with its price. -/
theorem relax_clause (j : ℕ) (hx : ∀ c < t.clauses.length, ∀ u ∈ clauseVars k (litVar t c), (Even j → L u < 1 → y c ≤ x j c u * g u) ∧
      (¬ Even j → 0 < L u → x j c u * g u ≤ y c)) {c v : ℕ} (hc : c < t.clauses.length) (hv : v ∈ clauseVars k (litVar t c)) :
    (Even j → 0 < L v → r j c v * g v ≤ -y c) ∧ (¬ Even j → L v < 1 → -y c ≤ r j c v * g v) := by
  obtain ⟨u, hu', hne, hmin, e⟩ := unmixed_closed hf hk hg h j hc hv
  constructor
  · intro he hpos
    rcases eq_or_lt_of_le (hy.nonneg c hc) with e0 | hy0
    · rw [← e0, neg_zero]
      exact unmixed_nonpos hf hk hg h j hc hv
    · have := (hx c hc u hu').1 he (cert_others _ hy hc (clause_ok hf hk c hc).2 hy0 hv hu' hne hpos)
      rw [e]
      exact (min_le_left _ _).trans (neg_le_neg this)
  · intro he hlt
    obtain ⟨u', hu1, hne1, hpos⟩ := cert_other _ hy hc hv hlt
    have h1 := (hx c hc u' hu1).2 he hpos
    have h2 := hmin u' hu1 hne1
    rw [e]
    exact le_min (by linarith) (by linarith [hy.nonneg c hc])

include hu

theorem relax_messages (j : ℕ) : ∀ c < t.clauses.length, ∀ u ∈ clauseVars k (litVar t c), (Even j → L u < 1 → y c ≤ x j c u * g u) ∧
      (¬ Even j → 0 < L u → x j c u * g u ≤ y c) := by
  have hused : ∀ c < t.clauses.length, ∀ u ∈ clauseVars k (litVar t c), u ∈ t.used.toFinset := fun c hc u hu => (clause_ok hf hk c hc).2 hu
  have hmem : ∀ c < t.clauses.length, ∀ u ∈ clauseVars k (litVar t c), c ∈ clausesOf t.clauses.length (fun c => clauseVars k (litVar t c)) u := fun c hc u hu =>
    Finset.mem_filter.mpr ⟨Finset.mem_range.mpr hc, hu⟩
  induction j with
  | zero =>
    intro c hc u hu'
    refine ⟨fun _ hlt => ?_, fun he => absurd (by decide) he⟩
    rw [unmixed_init hf h hc hu']
    refine le_trans ?_ (hy.below u (hused c hc u hu') hlt)
    exact Finset.single_le_sum (f := y) (fun c hc => hy.nonneg c (Finset.mem_range.mp (Finset.mem_filter.mp hc).1)) (hmem c hc u hu')
  | succ j ih =>
    intro c hc u hu'
    rw [unmixed_var h j hc hu']
    simp only [undamped_eq hu]
    have hsum : y c + ∑ c' ∈ (occurrences t.clauses.length k ⟨t.clauses.length, k, litVar t⟩ u).erase c, y c' =
        ∑ c ∈ clausesOf t.clauses.length (fun c => clauseVars k (litVar t c)) u, y c := Finset.add_sum_erase _ _ (hmem c hc u hu')
    constructor
    · intro he hlt
      have ho : ¬ Even j := fun h' => Nat.even_add_one.mp he h'
      have h1 : ∑ c' ∈ (occurrences t.clauses.length k ⟨t.clauses.length, k, litVar t⟩ u).erase c, -y c' ≤
          ∑ c' ∈ (occurrences t.clauses.length k ⟨t.clauses.length, k, litVar t⟩ u).erase c, r j c' u * g u := by
        refine Finset.sum_le_sum fun c' hc' => ?_
        obtain ⟨h2, h3⟩ := occ_vars (Finset.mem_of_mem_erase hc')
        exact (relax_clause hf hk hg h hy j ih h2 h3).2 ho hlt
      rw [Finset.sum_neg_distrib] at h1
      have := hy.below u (hused c hc u hu') hlt
      linarith
    · intro he hpos
      have ho : Even j := by
        by_contra h'
        exact he (Nat.even_add_one.mpr h')
      have h1 : ∑ c' ∈ (occurrences t.clauses.length k ⟨t.clauses.length, k, litVar t⟩ u).erase c, r j c' u * g u ≤
          ∑ c' ∈ (occurrences t.clauses.length k ⟨t.clauses.length, k, litVar t⟩ u).erase c, -y c' := by
        refine Finset.sum_le_sum fun c' hc' => ?_
        obtain ⟨h2, h3⟩ := occ_vars (Finset.mem_of_mem_erase hc')
        exact (relax_clause hf hk hg h hy j ih h2 h3).1 ho hpos
      rw [Finset.sum_neg_distrib] at h1
      have := hy.above u (hused c hc u hu') hpos
      linarith

/-- The sign of a belief, compared with the fractional solution. -/
theorem relax_belief (K : ℕ) {v : ℕ} (hv : v ∈ t.used) :
    (Even K → 0 < L v → ((∑ c ∈ occurrences t.clauses.length k ⟨t.clauses.length, k, litVar t⟩ v, damped flag alpha (fun i => r i c v) K) + w v) * g v ≤ 0) ∧
    (¬ Even K → L v < 1 → 0 ≤ ((∑ c ∈ occurrences t.clauses.length k ⟨t.clauses.length, k, litVar t⟩ v, damped flag alpha (fun i => r i c v) K) + w v) * g v) := by
  have hx := relax_messages hf hk hg h hu hy K
  simp only [undamped_eq hu, add_mul, Finset.sum_mul]
  constructor
  · intro he hpos
    have h1 : ∑ c ∈ occurrences t.clauses.length k ⟨t.clauses.length, k, litVar t⟩ v, r K c v * g v ≤
        ∑ c ∈ occurrences t.clauses.length k ⟨t.clauses.length, k, litVar t⟩ v, -y c := by
      refine Finset.sum_le_sum fun c hc => ?_
      obtain ⟨h2, h3⟩ := occ_vars hc
      exact (relax_clause hf hk hg h hy K hx h2 h3).1 he hpos
    rw [Finset.sum_neg_distrib] at h1
    have h4 : w v * g v ≤ ∑ c ∈ occurrences t.clauses.length k ⟨t.clauses.length, k, litVar t⟩ v, y c := hy.above v (List.mem_toFinset.mpr hv) hpos
    linarith
  · intro he hlt
    have h1 : ∑ c ∈ occurrences t.clauses.length k ⟨t.clauses.length, k, litVar t⟩ v, -y c ≤
        ∑ c ∈ occurrences t.clauses.length k ⟨t.clauses.length, k, litVar t⟩ v, r K c v * g v := by
      refine Finset.sum_le_sum fun c hc => ?_
      obtain ⟨h2, h3⟩ := occ_vars hc
      exact (relax_clause hf hk hg h hy K hx h2 h3).2 he hlt
    rw [Finset.sum_neg_distrib] at h1
    have h4 : ∑ c ∈ occurrences t.clauses.length k ⟨t.clauses.length, k, litVar t⟩ v, y c ≤ w v * g v := hy.below v (List.mem_toFinset.mpr hv) hlt
    linarith

end

/-- Signs 1 and -1 for all variables. -/
def plainSign (g : ℕ → ℤ) (v : ℕ) : ℤ := if g v = -1 then -1 else 1

theorem plainSign_one (g : ℕ → ℤ) (v : ℕ) : plainSign g v = 1 ∨ plainSign g v = -1 := by
  unfold plainSign
  split
  · exact .inr rfl
  · exact .inl rfl

section
variable {n k : ℕ} {t : KsatTables} (hf : KFormula n k t.clauses t.used t.conns) (hk : 2 ≤ k) {g : ℕ → ℤ} (hg : Unmixed t.clauses g) {w : ℕ → ℚ}
  {flag : Bool} {alpha : ℚ} (hu : flag = false ∨ alpha = 0)
include hf hg

theorem plainSign_unmixed : Unmixed t.clauses (plainSign g) := by
  intro cl hcl l hl
  have e := hg cl hcl l hl
  unfold plainSign
  rcases (hf.clause cl hcl).2.2 l hl with e1 | e1
  · rw [← e, e1]; rfl
  · rw [← e, e1]; rfl

include hk hu

theorem relax_sign {N : ℕ} (hN : 1 ≤ N) {b : ℕ → ℚ}
    (hb : ksatBeliefs N flag alpha (ksatObject n k t (listOf n (fun v => fin (w v)))) = some (listOf n (fun v => fin (b v)))) {L y : ℕ → ℚ}
    (hy : Certificate t.clauses.length (fun c => clauseVars k (litVar t c)) t.used.toFinset (fun v => w v * g v) L y) {v : ℕ} (hv : v ∈ t.used) :
    (Even N → b v * g v < 0 → L v = 1) ∧ (¬ Even N → 0 < b v * g v → L v = 0) := by
  obtain ⟨x, r, h, hb'⟩ := call_trace hf hk w flag alpha
  obtain ⟨K, rfl⟩ : ∃ K, N = K + 1 := ⟨N - 1, by omega⟩
  rw [hb' K] at hb
  have hvn := hf.tables.used_lt v hv
  have e := congrArg (fun l => l[v]?) (Option.some.inj hb)
  simp only [listOf, List.getElem?_map, List.getElem?_range hvn, Option.map_some, Option.some.injEq, Num.fin.injEq, if_pos hv] at e
  rw [← e, Nat.even_add_one, not_not]
  obtain ⟨h1, h2⟩ := relax_belief hf hk hg h hu hy K hv
  obtain ⟨h3, h4⟩ := hy.cover.1 v (List.mem_toFinset.mpr hv)
  constructor
  · intro he hlt
    by_contra hne
    exact absurd (h2 he (lt_of_le_of_ne h4 hne)) (not_le.mpr hlt)
  · intro he hlt
    by_contra hne
    exact absurd (h1 he (lt_of_le_of_ne h3 (Ne.symm hne))) (not_le.mpr hlt)

end

end Verif.Proofs
