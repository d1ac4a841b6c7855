import Verif.Proofs.Autarky
import Verif.Properties.KsatCall
import Verif.Properties.KsatForest

/-! # C80: partial assignments that satisfy every clause they touch -/

namespace Verif.Properties
open Verif Num Spec Model

section
variable {n k : ℕ} {t : KsatTables} (hf : KFormula n k t.clauses t.used t.conns) (hk : 2 ≤ k) {w : ℕ → ℚ} {flag : Bool} {alpha : ℚ}
  (ha : flag = true → 0 ≤ alpha ∧ alpha ≤ 1) {A : Finset ℕ} {σ : ℕ → Bool} (hA : Autarky t.clauses A σ) (hw : Favours w A σ) (K : ℕ)
include hf hk ha hA hw

/-- C80.  If the values `σ` of the variables in `A` satisfy every clause that contains a variable of `A` and the costs do not speak against
them, then no belief of a variable in `A` is ever closer to the other value than its cost. -/
theorem C80_beliefs : ∃ b : ℕ → ℚ,
    ksatBeliefs (K + 1) flag alpha (ksatObject n k t (listOf n (fun v => fin (w v)))) = some (listOf n (fun v => fin (b v))) ∧
    ∀ v ∈ t.used, v ∈ A → (σ v = true → b v ≤ w v) ∧ (σ v = false → w v ≤ b v) := by
  obtain ⟨x, r, h, hb⟩ := Proofs.call_trace hf hk w flag alpha
  refine ⟨_, hb K, fun v hv hvA => ?_⟩
  beta_reduce
  rw [if_pos hv]
  have hr : ∀ d ∈ occurrences t.clauses.length k ⟨t.clauses.length, k, Proofs.litVar t⟩ v, ∀ i,
      (σ v = true → r i d v ≤ 0) ∧ (σ v = false → 0 ≤ r i d v) := by
    intro d hd i
    obtain ⟨h1, h2⟩ := Finset.mem_filter.mp hd
    have h1 := Finset.mem_range.mp h1
    exact (Proofs.autarky_message hf hk ha hA hw h i h1 (by rw [← Proofs.clauseVars_eq hf h1]; exact h2)).1 hvA
  constructor
  · intro e
    have := Finset.sum_nonpos fun d hd => Proofs.damped_nonpos ha (fun i => (hr d hd i).1 e) K
    linarith
  · intro e
    have := Finset.sum_nonneg fun d hd => Proofs.damped_nonneg ha (fun i => (hr d hd i).2 e) K
    linarith

/-- C80, the other variables: their beliefs are those of the formula without the clauses that contain a variable of `A`. -/
theorem C80_rest {t' : KsatTables} (hf' : KFormula n k t'.clauses t'.used t'.conns) (ht : t'.clauses = untouched t.clauses A) : ∃ b b' : ℕ → ℚ,
    ksatBeliefs (K + 1) flag alpha (ksatObject n k t (listOf n (fun v => fin (w v)))) = some (listOf n (fun v => fin (b v))) ∧
    ksatBeliefs (K + 1) flag alpha (ksatObject n k t' (listOf n (fun v => fin (w v)))) = some (listOf n (fun v => fin (b' v))) ∧
    ∀ v ∈ t.used, v ∈ t'.used → v ∉ A → b v = b' v := by
  obtain ⟨x, r, h, hb⟩ := Proofs.call_trace hf hk w flag alpha
  obtain ⟨x', r', h', hb'⟩ := Proofs.call_trace hf' hk w flag alpha
  refine ⟨_, _, hb K, hb' K, fun v hv hv' hvA => ?_⟩
  obtain ⟨f, hfu⟩ := Proofs.autarky_outside hf hf' hk ha hA hw ht h h'
  beta_reduce
  rw [if_pos hv, if_pos hv', (hfu K).2 v hvA]

section
variable {order order' : List ℕ → List ℕ} (ho : ∀ l, (order l).Perm l) (ho' : ∀ l, (order' l).Perm l) (pp : ℕ)
  {sol : List Bool} (hs : sol = [] ∨ sol.length = n) {thr : ℚ} (hthr : ∀ v ∈ A, (σ v = true → w v ≤ thr) ∧ (σ v = false → thr < w v))
include ho ho' hs hthr

/-- C80, reported results: if the threshold separates the costs in `A` like `σ`, the call without post-processing reports the values `σ` for the
variables in `A`, and no clause reported as violated contains one of them. -/
theorem C80_report : ∃ res,
    ksatCall n k (K + 1) flag alpha (fin thr) order order' false pp sol t (listOf n (fun v => fin (w v))) = some res ∧
    (∀ v ∈ t.used, v ∈ A → (v ∈ res.post.sum.active ↔ σ v = true) ∧ (v ∈ res.post.sum.inactive ↔ σ v = false)) ∧
    ∀ c ∈ res.post.sum.unsat, ∀ u ∈ varsOf t.clauses c, u ∉ A := by
  obtain ⟨b, hb, h1⟩ := C80_beliefs hf hk ha hA hw K
  obtain ⟨res, b', c1, c2, -, -, -, c2', c3, c4, c5, c6, -⟩ := C53_call hf hk w flag alpha thr ho ho' false pp hs K
  have hbb : ∀ v ∈ t.used, b' v = b v := by
    intro v hv
    have e : res.beliefs = listOf n (fun v => fin (b v)) := by
      unfold ksatCall at c1
      rw [hb] at c1
      simp only [Option.bind_eq_bind, Option.bind_some] at c1
      obtain ⟨first, -, c1⟩ := Option.bind_eq_some_iff.mp c1
      obtain ⟨st, -, c1⟩ := Option.bind_eq_some_iff.mp c1
      obtain ⟨sim, -, c1⟩ := Option.bind_eq_some_iff.mp c1
      rw [← Option.some.inj c1]
    rw [c2] at e
    have hvn := hf.tables.used_lt v hv
    have := congrArg (fun l => l[v]?) e
    simpa [listOf, hvn] using this
  have hpp : res.requiredPP = false := by
    rcases h : res.requiredPP with _ | _
    · rfl
    · exact absurd (c5.mp h).1 (by simp)
  have hval : ∀ v ∈ t.used, v ∈ A → asgn res.post.hard v = σ v := by
    intro v hv hvA
    rw [c6 hpp v hv, hbb v hv]
    rcases e : σ v with _ | _
    · exact decide_eq_false (not_le.mpr (lt_of_lt_of_le ((hthr v hvA).2 e) ((h1 v hv hvA).2 e)))
    · exact decide_eq_true (((h1 v hv hvA).1 e).trans ((hthr v hvA).1 e))
  refine ⟨res, c1, fun v hv hvA => ⟨?_, ?_⟩, fun c hc u hu huA => ?_⟩
  · rw [c3, hval v hv hvA]; simp [hv]
  · rw [c4, hval v hv hvA]; simp [hv]
  · rw [c2'] at hc
    simp only [violated, List.mem_filter, List.mem_range, decide_eq_true_eq] at hc
    obtain ⟨hc1, hc2⟩ := hc
    obtain ⟨l, hl, rfl⟩ := List.mem_map.mp (List.mem_toFinset.mp hu)
    obtain ⟨l', hl', hlA, hlt⟩ := hA _ (Proofs.getD_mem hf hc1) ⟨l, hl, huA⟩
    refine hc2 l' hl' ?_
    have := hval l'.1 (hf.tables.used_mem _ (Proofs.getD_mem hf hc1) l' hl') hlA
    unfold LitTrue at hlt ⊢
    rw [this]; exact hlt

/-- C80, satisfaction: if every clause contains a variable of `A`, the call satisfies the formula after any number of iterations, does not
need post-processing and reports the values `σ` for the variables in `A`. -/
theorem C80_satisfies (hit : ∀ cl ∈ t.clauses, ∃ l ∈ cl, l.1 ∈ A) (post : Bool) : ∃ res,
    ksatCall n k (K + 1) flag alpha (fin thr) order order' post pp sol t (listOf n (fun v => fin (w v))) = some res ∧
    res.post.flag = true ∧ res.post.sum.unsat = [] ∧ res.requiredPP = false ∧
    ∀ v ∈ t.used, v ∈ A → (v ∈ res.post.sum.active ↔ σ v = true) ∧ (v ∈ res.post.sum.inactive ↔ σ v = false) := by
  obtain ⟨b, hb, h1⟩ := C80_beliefs hf hk ha hA hw K
  obtain ⟨res, b', c1, c2, -, -, c2'', c2', c3, c4, c5, c6, -⟩ := C53_call hf hk w flag alpha thr ho ho' post pp hs K
  have hbb : ∀ v ∈ t.used, b' v = b v := by
    intro v hv
    have e : res.beliefs = listOf n (fun v => fin (b v)) := by
      unfold ksatCall at c1
      rw [hb] at c1
      simp only [Option.bind_eq_bind, Option.bind_some] at c1
      obtain ⟨first, -, c1⟩ := Option.bind_eq_some_iff.mp c1
      obtain ⟨st, -, c1⟩ := Option.bind_eq_some_iff.mp c1
      obtain ⟨sim, -, c1⟩ := Option.bind_eq_some_iff.mp c1
      rw [← Option.some.inj c1]
    rw [c2] at e
    have hvn := hf.tables.used_lt v hv
    have := congrArg (fun l => l[v]?) e
    simpa [listOf, hvn] using this
  have hval : ∀ v ∈ t.used, v ∈ A → decide (b' v ≤ thr) = σ v := by
    intro v hv hvA
    rw [hbb v hv]
    rcases e : σ v with _ | _
    · exact decide_eq_false (not_le.mpr (lt_of_lt_of_le ((hthr v hvA).2 e) ((h1 v hv hvA).2 e)))
    · exact decide_eq_true (((h1 v hv hvA).1 e).trans ((hthr v hvA).1 e))
  have hnone : violated t.clauses (fun v => decide (b' v ≤ thr)) = [] := by
    simp only [violated, List.filter_eq_nil_iff, List.mem_range, decide_eq_true_eq]
    intro c hc hno
    have hcl := Proofs.getD_mem hf hc
    obtain ⟨l, hl, hlA, hlt⟩ := hA _ hcl (hit _ hcl)
    refine hno l hl ?_
    unfold LitTrue at hlt ⊢
    have e := hval l.1 (hf.tables.used_mem _ hcl l hl) hlA
    beta_reduce
    rw [e]; exact hlt
  have hpp : res.requiredPP = false := by
    rcases h : res.requiredPP with _ | _
    · rfl
    · exact absurd hnone (c5.mp h).2
  have hviol : violated t.clauses (asgn res.post.hard) = [] := by
    rw [Proofs.violated_congr hf (c6 hpp)]; exact hnone
  refine ⟨res, c1, c2''.mpr hviol, c2'.trans hviol, hpp, fun v hv hvA => ⟨?_, ?_⟩⟩
  · rw [c3, c6 hpp v hv, hval v hv hvA]; simp [hv]
  · rw [c4, c6 hpp v hv, hval v hv hvA]; simp [hv]

/-- C80, whole call: if `A` contains all used variables, the call reports exactly the values `σ` after any number of iterations, all clauses
satisfied, without post-processing; no choice of active variables, satisfying or not, costs less. -/
theorem C80_solves (hall : ∀ v ∈ t.used, v ∈ A) (post : Bool) : ∃ res,
    ksatCall n k (K + 1) flag alpha (fin thr) order order' post pp sol t (listOf n (fun v => fin (w v))) = some res ∧
    res.post.flag = true ∧ res.post.sum.unsat = [] ∧ res.requiredPP = false ∧
    (∀ v, v ∈ res.post.sum.active ↔ v ∈ t.used ∧ σ v = true) ∧ (∀ v, v ∈ res.post.sum.inactive ↔ v ∈ t.used ∧ σ v = false) ∧
    ∀ T ⊆ t.used.toFinset, cost w res.post.sum.active.toFinset ≤ cost w T := by
  obtain ⟨b, hb, h1⟩ := C80_beliefs hf hk ha hA hw K
  set S := t.used.toFinset.filter (fun v => σ v = true) with hSdef
  have hmem : ∀ v, v ∈ S ↔ v ∈ t.used ∧ σ v = true := fun v => by rw [hSdef, Finset.mem_filter, List.mem_toFinset]
  have hsat : Satisfies t.clauses S := by
    simp only [Satisfies, violated, List.filter_eq_nil_iff, List.mem_range, decide_eq_true_eq]
    intro c hc hno
    have hu := hf.tables.used_mem _ (Proofs.getD_mem hf hc)
    have h1 := Proofs.lit_mem hf hc (show 0 < k by omega)
    obtain ⟨l, hl, hlA, hlt⟩ := hA _ (Proofs.getD_mem hf hc) ⟨_, h1, hall _ (hu _ h1)⟩
    refine hno l hl ?_
    unfold LitTrue at hlt ⊢
    have := hmem l.1
    simp only [hu l hl, true_and] at this
    rcases hlt with ⟨e, e'⟩ | ⟨e, e'⟩
    · exact Or.inl ⟨e, decide_eq_true (this.mpr e')⟩
    · exact Or.inr ⟨e, decide_eq_false (fun h => by rw [this.mp h] at e'; simp at e')⟩
  obtain ⟨res, r1, r2, r3, r4, r5, r6⟩ := Proofs.call_of_signs hf ho ho' (post := post) (pp := pp) (thr := thr) hs hb (S := S)
    (Finset.filter_subset _ _) hsat (fun v hv => by
      rw [hmem]
      rcases e : σ v with _ | _
      · simp only [Bool.false_eq_true, and_false, iff_false, not_le]
        exact lt_of_lt_of_le ((hthr v (hall v hv)).2 e) ((h1 v hv (hall v hv)).2 e)
      · simp only [hv, true_and, iff_true]
        exact ((h1 v hv (hall v hv)).1 e).trans ((hthr v (hall v hv)).1 e))
  refine ⟨res, r1, r2, r3, r4, fun v => (r5 v).trans (hmem v), fun v => (r6 v).trans ?_, fun T hT => ?_⟩
  · rw [hmem]
    refine and_congr_right fun hv => ?_
    simp [hv]
  · have e : res.post.sum.active.toFinset = S := by ext v; rw [List.mem_toFinset, r5]
    rw [e]
    unfold cost
    rw [← Finset.sum_sdiff (Finset.inter_subset_left (s₁ := S) (s₂ := T)), ← Finset.sum_sdiff (Finset.inter_subset_right (s₁ := S) (s₂ := T))]
    have a1 : ∑ v ∈ S \ (S ∩ T), w v ≤ 0 := Finset.sum_nonpos fun v hv => by
      obtain ⟨u1, u2⟩ := (hmem v).mp (Finset.mem_sdiff.mp hv).1
      exact (hw v (hall v u1)).1 u2
    have a2 : 0 ≤ ∑ v ∈ T \ (S ∩ T), w v := Finset.sum_nonneg fun v hv => by
      obtain ⟨u1, u2⟩ := Finset.mem_sdiff.mp hv
      have u3 := List.mem_toFinset.mp (hT u1)
      refine (hw v (hall v u3)).2 ?_
      rcases e : σ v with _ | _
      · rfl
      · exact absurd (Finset.mem_inter.mpr ⟨(hmem v).mpr ⟨u3, e⟩, u1⟩) u2
    linarith

end
end

/-- The path formula without the clauses that contain variable 2 or 3. -/
def pathRest : KsatTables := ⟨[0, 1], [[(0, 1), (1, 1)]], [[(0, 1)], [(0, 1)], [], []]⟩

/-- Costs that favour setting variable 2 and not setting variable 3. -/
def pathCost' (v : ℕ) : ℚ := [5, 1, -1, 2].getD v 0

/-- Non-vacuity of C80: in the formula `(x0 ∨ x1) ∧ (¬x1 ∨ x2) ∧ (¬x2 ∨ ¬x3)` setting 2 and not setting 3 satisfies the last two clauses.  After
three damped iterations the beliefs of 2 and 3 are at least as clear as their costs, and the beliefs of 0 and 1 are those of the first clause
alone. -/
example : Autarky pathFormula.clauses {2, 3} (fun v => v == 2) ∧ Favours pathCost' {2, 3} (fun v => v == 2) ∧
    KFormula 4 2 pathRest.clauses pathRest.used pathRest.conns ∧ pathRest.clauses = untouched pathFormula.clauses {2, 3} ∧
    ksatBeliefs 3 true (1 / 2) (ksatObject 4 2 pathFormula (listOf 4 (fun v => fin (pathCost' v)))) =
      some [fin (33 / 8), fin (-27 / 8), fin (-11 / 4), fin (13 / 4)] ∧
    ksatBeliefs 3 true (1 / 2) (ksatObject 4 2 pathRest (listOf 4 (fun v => fin (pathCost' v)))) =
      some [fin (33 / 8), fin (-27 / 8), fin 0, fin 0] :=
  ⟨by unfold Autarky; decide, by unfold Favours; decide +kernel,
    Proofs.kformula_of_checks (by decide) rfl (by decide) (by decide) (by decide) (by decide) (by decide), by decide, by decide +kernel, by decide +kernel⟩

/-- The instance of examples/Ksat/demo.cpp:12-37. -/
def demoFormula : KsatTables :=
  ⟨[0, 2, 3, 4], [[(4, -1), (2, -1), (3, -1)], [(2, 1), (0, 1), (3, -1)]], [[(1, 1)], [], [(0, -1), (1, 1)], [(0, -1), (1, -1)], [(0, -1)]]⟩

/-- The costs of examples/Ksat/demo.cpp:33. -/
def demoCost (v : ℕ) : ℚ := [-266808398, -11790238, 437984813, -713066003, -215600797].getD v 0 / 100000000

/-- Non-vacuity of C80: the signs of the costs of the example program in the repository satisfy its formula (variables 0, 3 and 4 true, 2 false), so its 200
damped iterations end with this assignment, and so does the Python call with the same data. -/
example {order order' : List ℕ → List ℕ} (ho : ∀ l, (order l).Perm l) (ho' : ∀ l, (order' l).Perm l) : ∃ res,
    ksatCall 5 3 200 true (1 / 2) (fin (-1 / 10000)) order order' true 10 [] demoFormula (listOf 5 (fun v => fin (demoCost v))) = some res ∧
    res.post.flag = true ∧ res.requiredPP = false ∧ ∀ v, v ∈ res.post.sum.active ↔ v ∈ demoFormula.used ∧ decide (v ≠ 2) = true := by
  obtain ⟨res, h1, h2, -, h3, h4, -⟩ := C80_solves (n := 5) (k := 3) (t := demoFormula) (w := demoCost) (flag := true) (alpha := 1 / 2)
    (Proofs.kformula_of_checks (by decide) rfl (by decide) (by decide) (by decide) (by decide) (by decide)) (by omega) (fun _ => by norm_num)
    (A := {0, 2, 3, 4}) (σ := fun v => decide (v ≠ 2)) (by unfold Autarky; decide) (by unfold Favours; decide +kernel) 199 ho ho' 10 (sol := [])
    (Or.inl rfl) (thr := -1 / 10000) (by decide +kernel) (by decide) true
  exact ⟨res, h1, h2, h3, h4⟩

end Verif.Properties
