import Verif.Proofs.KsatSym
import Verif.Properties.KsatCall
import Verif.Properties.KsatForest

/-! # C55: names, signs, order and scale do not matter to the k-SAT solver -/

namespace Verif.Properties
open Verif Num Spec Model

section
variable {σ ρ : ℕ → ℕ} {eps : ℕ → ℤ} {n n' k : ℕ} {t t' : KsatTables} (hf : KFormula n k t.clauses t.used t.conns)
  (hf' : KFormula n' k t'.clauses t'.used t'.conns) (hsame : SameFormula σ ρ eps t.used t'.used t.clauses t'.clauses) (hk : 2 ≤ k)
  {w w' : ℕ → ℚ} {s : ℚ} (hs : 0 < s) (hw : ∀ v ∈ t.used, w' (σ v) = s * (eps v : ℚ) * w v) (flag : Bool) (alpha : ℚ) (K : ℕ)
include hf hf' hsame hk hs hw

/-- C55.  Rename the variables of a formula, negate some of them (their literals in all clauses and their costs), reorder clauses and the
literals in the clauses, and multiply all costs by `s > 0`.  After any number of iterations and with any damping the belief of every variable
is the old belief times `s`, negated if the variable was negated. -/
theorem C55_beliefs : ∃ b b' : ℕ → ℚ,
    ksatBeliefs (K + 1) flag alpha (ksatObject n k t (listOf n (fun v => fin (w v)))) = some (listOf n (fun v => fin (b v))) ∧
    ksatBeliefs (K + 1) flag alpha (ksatObject n' k t' (listOf n' (fun v => fin (w' v)))) = some (listOf n' (fun v => fin (b' v))) ∧
    ∀ v ∈ t.used, b' (σ v) = s * (eps v : ℚ) * b v := by
  obtain ⟨x, r, h, hb⟩ := Proofs.call_trace hf hk w flag alpha
  obtain ⟨x', r', h', hb'⟩ := Proofs.call_trace hf' hk w' flag alpha
  refine ⟨_, _, hb K, hb' K, fun v hv => ?_⟩
  have heps : ∀ v ∈ t.used, (eps v : ℚ) = if eps v = -1 then -1 else 1 := by
    intro v hv
    rcases hsame.signs v hv with e | e <;> simp [e]
  have hw1 : ∀ v ∈ t.used, w' (σ v) = s * (if eps v = -1 then -1 else 1) * w v := fun v hv => by rw [hw v hv, heps v hv]
  have hocc : ∀ d ∈ occurrences t.clauses.length k ⟨t.clauses.length, k, Proofs.litVar t⟩ v, d < t.clauses.length := fun d hd =>
    Finset.mem_range.mp (Finset.mem_filter.mp hd).1
  beta_reduce
  rw [if_pos hv, if_pos (hsame.used_mem v hv), Proofs.occ_same hf hf' hsame hv,
    Finset.sum_image (fun d hd e he eq => hsame.places_inj d (hocc d hd) e (hocc e he) eq), hw v hv, mul_add, Finset.mul_sum]
  congr 1
  refine Finset.sum_congr rfl fun d hd => ?_
  have hdv : v ∈ varsOf t.clauses d := by
    have := (Finset.mem_filter.mp hd).2
    rwa [show clauseVars k ((⟨t.clauses.length, k, Proofs.litVar t⟩ : Mat ℕ).data d) = varsOf t.clauses d from
      Proofs.clauseVars_eq hf (hocc d hd)] at this
  rw [← Proofs.damped_smul]
  refine Proofs.damped_congr fun i hi => ?_
  rw [(Proofs.trace_same hf hf' hsame hs hw1 h h' i d (hocc d hd) v hdv).2, heps v hv]

variable {order order' : List ℕ → List ℕ} (ho : ∀ l, (order l).Perm l) (ho' : ∀ l, (order' l).Perm l) (pp : ℕ) (thr : ℚ)
include ho ho'

/-- C55, reported results without post-processing: with the threshold scaled too, the two calls report corresponding variables as active and
inactive (exchanged for negated variables), corresponding clauses as violated, and the same flag.  If a variable is negated, the
threshold must be 0 and no belief of a negated variable may be 0 (a tie counts as true on both sides). -/
theorem C55_report : ∃ (res res' : KsatResult) (b : ℕ → ℚ),
    ksatCall n k (K + 1) flag alpha (fin thr) order order' false pp [] t (listOf n (fun v => fin (w v))) = some res ∧
    ksatCall n' k (K + 1) flag alpha (fin (s * thr)) order order' false pp [] t' (listOf n' (fun v => fin (w' v))) = some res' ∧
    res.beliefs = listOf n (fun v => fin (b v)) ∧
    ((∀ v ∈ t.used, eps v = -1 → thr = 0 ∧ b v ≠ 0) →
      (∀ v ∈ t.used, eps v = 1 → (σ v ∈ res'.post.sum.active ↔ v ∈ res.post.sum.active)) ∧
      (∀ v ∈ t.used, eps v = 1 → (σ v ∈ res'.post.sum.inactive ↔ v ∈ res.post.sum.inactive)) ∧
      (∀ v ∈ t.used, eps v = -1 → (σ v ∈ res'.post.sum.active ↔ v ∈ res.post.sum.inactive)) ∧
      (∀ v ∈ t.used, eps v = -1 → (σ v ∈ res'.post.sum.inactive ↔ v ∈ res.post.sum.active)) ∧
      (∀ c < t.clauses.length, (ρ c ∈ res'.post.sum.unsat ↔ c ∈ res.post.sum.unsat)) ∧
      res'.post.flag = res.post.flag) := by
  obtain ⟨b, b', hb, hb', hbb⟩ := C55_beliefs hf hf' hsame hk hs hw flag alpha K
  have hl : (listOf n (fun v => fin (b v))).length = n := by simp [listOf]
  have hl' : (listOf n' (fun v => fin (b' v))).length = n' := by simp [listOf]
  obtain ⟨res, h1, h2, h3, h4, h5⟩ := Proofs.call_of_beliefs hf ho ho' (thr := fin thr) (post := false) (pp := pp) (sol := []) (Or.inl rfl) hb hl
  obtain ⟨res', h1', h2', h3', h4', h5'⟩ := Proofs.call_of_beliefs hf' ho ho' (thr := fin (s * thr)) (post := false) (pp := pp) (sol := [])
    (Or.inl rfl) hb' hl'
  obtain ⟨st, g1, g2, g3, g4, g5, g6, g7⟩ := C30_reported hf.tables ho ho' false pp (fin thr) hl
  obtain ⟨st', g1', g2', g3', g4', g5', g6', g7'⟩ := C30_reported hf'.tables ho ho' false pp (fin (s * thr)) hl'
  have e1 := h3.symm.trans g1
  obtain rfl := Option.some.inj e1
  have e1' := h3'.symm.trans g1'
  obtain rfl := Option.some.inj e1'
  have hh : res.post.hard = hardDecisions (fin thr) (listOf n (fun v => fin (b v))) := by
    simp only [decideAndPost] at h3
    obtain ⟨s, hs1, h3⟩ := Option.bind_eq_some_iff.mp h3
    rw [if_neg (fun h => by cases h.2)] at h3
    rw [← Option.some.inj h3]
  have hh' : res'.post.hard = hardDecisions (fin (s * thr)) (listOf n' (fun v => fin (b' v))) := by
    simp only [decideAndPost] at h3'
    obtain ⟨s, hs1, h3'⟩ := Option.bind_eq_some_iff.mp h3'
    rw [if_neg (fun h => by cases h.2)] at h3'
    rw [← Option.some.inj h3']
  rw [hh] at g3 g4 g5 g6
  rw [hh'] at g3' g4' g5' g6'
  have hd : ∀ v ∈ t.used, asgn (hardDecisions (fin thr) (listOf n (fun v => fin (b v)))) v = decide (b v ≤ thr) :=
    fun v hv => Proofs.hard_val hf hv
  have hd' : ∀ v ∈ t.used, asgn (hardDecisions (fin (s * thr)) (listOf n' (fun v => fin (b' v)))) (σ v) = decide (s * eps v * b v ≤ s * thr) :=
    fun v hv => by rw [Proofs.hard_val hf' (hsame.used_mem v hv), hbb v hv]
  refine ⟨res, res', b, h1, h1', h2, fun htie => ?_⟩
  have hpos : ∀ v ∈ t.used, eps v = 1 → asgn (hardDecisions (fin (s * thr)) (listOf n' (fun v => fin (b' v)))) (σ v) =
      asgn (hardDecisions (fin thr) (listOf n (fun v => fin (b v)))) v := by
    intro v hv he
    rw [hd v hv, hd' v hv, he]
    refine decide_eq_decide.mpr ?_
    rw [show s * ((1 : ℤ) : ℚ) * b v = s * b v by push_cast; ring]
    exact mul_le_mul_iff_right₀ hs
  have hneg : ∀ v ∈ t.used, eps v = -1 → asgn (hardDecisions (fin (s * thr)) (listOf n' (fun v => fin (b' v)))) (σ v) =
      !asgn (hardDecisions (fin thr) (listOf n (fun v => fin (b v)))) v := by
    intro v hv he
    obtain ⟨h0, hne⟩ := htie v hv he
    rw [hd v hv, hd' v hv, he, ← decide_not]
    refine decide_eq_decide.mpr ?_
    rw [h0, not_le, mul_zero, show s * ((-1 : ℤ) : ℚ) * b v = s * (-b v) by push_cast; ring]
    constructor
    · intro h
      have : -b v ≤ 0 := by
        by_contra hn
        exact absurd (mul_pos hs (not_le.mp hn)) (not_lt.mpr h)
      exact lt_of_le_of_ne (by linarith) (Ne.symm hne)
    · intro h
      exact mul_nonpos_of_nonneg_of_nonpos hs.le (by linarith)
  have hviol : ∀ c < t.clauses.length, (ρ c ∈ res'.post.sum.unsat ↔ c ∈ res.post.sum.unsat) := by
    intro c hc
    rw [g4, g4']
    simp only [violated, List.mem_filter, List.mem_range, decide_eq_true_eq, hc, true_and, hsame.length, hsame.places c hc]
    have key : ∀ l ∈ t.clauses.getD c [], (LitTrue (asgn (hardDecisions (fin (s * thr)) (listOf n' (fun v => fin (b' v))))) (σ l.1, eps l.1 * l.2) ↔
        LitTrue (asgn (hardDecisions (fin thr) (listOf n (fun v => fin (b v))))) l) := by
      intro l hl
      have hu := hf.tables.used_mem _ (Proofs.getD_mem hf hc) l hl
      have h3 := (hf.clause _ (Proofs.getD_mem hf hc)).2.2 l hl
      unfold LitTrue
      rcases hsame.signs _ hu with e | e
      · simp only [hpos _ hu e, e, one_mul]
      · simp only [hneg _ hu e, e]
        rcases h3 with h3 | h3 <;> simp [h3]
    constructor
    · intro h l hl ht
      exact h _ ((hsame.clause c hc).mem_iff.mpr (List.mem_map.mpr ⟨l, hl, rfl⟩)) ((key l hl).mpr ht)
    · intro h l hl ht
      obtain ⟨l', hl', rfl⟩ := List.mem_map.mp ((hsame.clause c hc).mem_iff.mp hl)
      exact h l' hl' ((key l' hl').mp ht)
  refine ⟨fun v hv he => ?_, fun v hv he => ?_, fun v hv he => ?_, fun v hv he => ?_, hviol, ?_⟩
  · rw [g5, g5', hpos v hv he]; simp [hv, hsame.used_mem v hv]
  · rw [g6, g6', hpos v hv he]; simp [hv, hsame.used_mem v hv]
  · rw [g6, g5', hneg v hv he]; simp [hv, hsame.used_mem v hv]
  · rw [g5, g6', hneg v hv he]; simp [hv, hsame.used_mem v hv]
  · refine Bool.eq_iff_iff.mpr ?_
    rw [g3, g3', ← g4, ← g4', List.eq_nil_iff_forall_not_mem, List.eq_nil_iff_forall_not_mem]
    constructor
    · intro h c hc
      have hc' : c < t.clauses.length := by
        rw [g4] at hc
        exact List.mem_range.mp (List.mem_filter.mp hc).1
      exact h (ρ c) ((hviol c hc').mpr hc)
    · intro h d hd
      have hd' : d < t.clauses.length := by
        rw [g4'] at hd
        have := List.mem_range.mp (List.mem_filter.mp hd).1
        rwa [hsame.length] at this
      obtain ⟨c, hc, rfl⟩ := Proofs.places_surj hsame d hd'
      exact h c ((hviol c hc).mp hd)

end

section
variable {n k : ℕ} {t : KsatTables} (hf : KFormula n k t.clauses t.used t.conns) (hk : 2 ≤ k) (w : ℕ → ℚ) {s : ℚ} (hs : 0 < s)
  (flag : Bool) (alpha : ℚ) (K : ℕ)
include hf hk hs

/-- C55, scale, whole call: multiplying all costs and the threshold by `s > 0` multiplies the beliefs by `s` and changes nothing else, with and
without post-processing. -/
theorem C55_scale {order order' : List ℕ → List ℕ} (ho : ∀ l, (order l).Perm l) (ho' : ∀ l, (order' l).Perm l) (post : Bool) (pp : ℕ)
    {sol : List Bool} (hsol : sol = [] ∨ sol.length = n) (thr : ℚ) : ∃ (res : KsatResult) (b : ℕ → ℚ),
    ksatCall n k (K + 1) flag alpha (fin thr) order order' post pp sol t (listOf n (fun v => fin (w v))) = some res ∧
    res.beliefs = listOf n (fun v => fin (b v)) ∧
    ksatCall n k (K + 1) flag alpha (fin (s * thr)) order order' post pp sol t (listOf n (fun v => fin (s * w v))) =
      some { res with beliefs := listOf n (fun v => fin (s * b v)) } := by
  have hsame : SameFormula id id (fun _ => 1) t.used t.used t.clauses t.clauses :=
    ⟨fun _ _ _ _ e => e, fun _ h => h, fun _ _ => Or.inl rfl, rfl, fun _ h => h, fun _ _ _ _ e => e, fun c _ => by simp⟩
  obtain ⟨x, r, h, hb⟩ := Proofs.call_trace hf hk w flag alpha
  obtain ⟨x', r', h', hb'⟩ := Proofs.call_trace hf hk (fun v => s * w v) flag alpha
  have hb := hb K
  have hb' := hb' K
  have hl : ∀ b : ℕ → ℚ, (listOf n (fun v => fin (b v))).length = n := fun b => by simp [listOf]
  obtain ⟨res, h1, h2, h3, h4, h5⟩ := Proofs.call_of_beliefs hf ho ho' (thr := fin thr) (post := post) (pp := pp) hsol hb (hl _)
  refine ⟨res, _, h1, h2, ?_⟩
  set b : ℕ → ℚ := fun v => (∑ c ∈ occurrences t.clauses.length k ⟨t.clauses.length, k, Proofs.litVar t⟩ v,
          damped flag alpha (fun i => r i c v) K) + if v ∈ t.used then w v else 0 with hbdef
  have hscale : listOf n (fun v => fin ((∑ c ∈ occurrences t.clauses.length k ⟨t.clauses.length, k, Proofs.litVar t⟩ v,
          damped flag alpha (fun i => r' i c v) K) + if v ∈ t.used then s * w v else 0)) = listOf n (fun v => fin (s * b v)) := by
    unfold listOf
    refine List.map_congr_left fun v hv => ?_
    congr 1
    rw [hbdef]
    simp only [mul_add, Finset.mul_sum, mul_ite, mul_zero]
    congr 1
    refine Finset.sum_congr rfl fun c hc => ?_
    have hc' := Finset.mem_range.mp (Finset.mem_filter.mp hc).1
    rw [← Proofs.damped_smul]
    refine Proofs.damped_congr fun i hi => ?_
    have hcv : v ∈ varsOf t.clauses c := by
      have := (Finset.mem_filter.mp hc).2
      rwa [show clauseVars k ((⟨t.clauses.length, k, Proofs.litVar t⟩ : Mat ℕ).data c) = varsOf t.clauses c from
        Proofs.clauseVars_eq hf hc'] at this
    have := (Proofs.trace_same hf hf hsame hs (w := w) (w' := fun v => s * w v) (fun v _ => by simp) h h' i c hc' v hcv).2
    simpa using this
  rw [hscale] at hb'
  have hhard : hardDecisions (fin (s * thr)) (listOf n (fun v => fin (s * b v))) = hardDecisions (fin thr) (listOf n (fun v => fin (b v))) := by
    simp only [hardDecisions, listOf, List.map_map]
    refine List.map_congr_left fun v hv => ?_
    have e : s * thr < s * b v ↔ thr < b v := mul_lt_mul_iff_right₀ hs
    show (if decide (s * thr < s * b v) = true then false else true) = if decide (thr < b v) = true then false else true
    rw [decide_eq_decide.mpr e]
  unfold ksatCall at h1 ⊢
  rw [hb] at h1
  rw [hb']
  simp only [Option.bind_eq_bind, Option.bind_some, decideAndPost, hhard] at h1 ⊢
  obtain ⟨first, a1, h1⟩ := Option.bind_eq_some_iff.mp h1
  rw [a1] at h1 ⊢
  simp only [Option.bind_some] at h1 ⊢
  obtain ⟨st, a2, h1⟩ := Option.bind_eq_some_iff.mp h1
  rw [a2]
  simp only [Option.bind_some] at h1 ⊢
  obtain ⟨sim, a3, h1⟩ := Option.bind_eq_some_iff.mp h1
  rw [a3]
  simp only [Option.bind_some, Option.some.injEq] at h1 ⊢
  rw [← h1]

end

/-- The example of C52 with variables counted backwards, variable 1 negated, and clauses and literals in another order. -/
def turnedFormula : KsatTables :=
  ⟨[3, 1, 0, 2], [[(1, -1), (0, -1)], [(1, 1), (2, 1)], [(3, 1), (2, -1)]],
    [[(0, -1)], [(0, -1), (1, 1)], [(1, 1), (2, -1)], [(2, 1)]]⟩

/-- The costs of the example, doubled. -/
def turnedCost (v : ℕ) : ℚ := [-2, 2, -2, 10].getD v 0

theorem turnedFormula_ok : KFormula 4 2 turnedFormula.clauses turnedFormula.used turnedFormula.conns := by
  refine ⟨by decide, ⟨fun v c s => ?_, by decide, by decide⟩, rfl, fun v => ?_⟩
  · by_cases hv : v < 4
    · by_cases hc : c < 3
      · interval_cases v <;> interval_cases c <;> simp [turnedFormula]
      · have h1 : turnedFormula.clauses.getD c [] = [] := by
          rw [List.getD_eq_getElem?_getD, List.getElem?_eq_none (by show 3 ≤ c; omega)]; rfl
        rw [h1]
        interval_cases v <;> simp [turnedFormula] <;> omega
    · have h1 : turnedFormula.conns.getD v [] = [] := by
        rw [List.getD_eq_getElem?_getD, List.getElem?_eq_none (by show 4 ≤ v; omega)]; rfl
      rw [h1]
      by_cases hc : c < 3
      · interval_cases c <;> simp [turnedFormula] <;> omega
      · have h1 : turnedFormula.clauses.getD c [] = [] := by
          rw [List.getD_eq_getElem?_getD, List.getElem?_eq_none (by show 3 ≤ c; omega)]; rfl
        rw [h1]; simp
  · by_cases hv : v < 4
    · interval_cases v <;> decide
    · have h1 : turnedFormula.conns.getD v [] = [] := by
        rw [List.getD_eq_getElem?_getD, List.getElem?_eq_none (by show 4 ≤ v; omega)]; rfl
      rw [h1]; simp

theorem turnedFormula_same : SameFormula (fun v => 3 - v) (fun c => 2 - c) (fun v => if v = 1 then -1 else 1) pathFormula.used turnedFormula.used
    pathFormula.clauses turnedFormula.clauses :=
  ⟨by decide, by decide, by decide, rfl, by decide, by decide, by decide⟩

/-- Non-vacuity: the hypotheses hold of the example, and the beliefs after three damped iterations correspond as claimed. -/
example : SameFormula (fun v => 3 - v) (fun c => 2 - c) (fun v => if v = 1 then -1 else 1) pathFormula.used turnedFormula.used
      pathFormula.clauses turnedFormula.clauses ∧ KFormula 4 2 turnedFormula.clauses turnedFormula.used turnedFormula.conns ∧
    (∀ v ∈ pathFormula.used, turnedCost (3 - v) = 2 * ((if v = 1 then -1 else 1 : ℤ) : ℚ) * pathCost v) ∧
    ksatBeliefs 3 true (1 / 2) (ksatObject 4 2 pathFormula (listOf 4 (fun v => fin (pathCost v)))) =
      some [fin (7 / 2), fin (-2), fin (1 / 8), fin (-1)] ∧
    ksatBeliefs 3 true (1 / 2) (ksatObject 4 2 turnedFormula (listOf 4 (fun v => fin (turnedCost v)))) =
      some [fin (-2), fin (1 / 4), fin 4, fin 7] :=
  ⟨turnedFormula_same, turnedFormula_ok, by decide +kernel, by decide +kernel, by decide +kernel⟩

end Verif.Properties
