import Verif.Properties.Relaxation
import Verif.Properties.OddRuns
import Verif.Properties.UnmixedDamped

/-! # C114: an even number of iterations that satisfies a formula without mixed variables has found the cheapest solution -/

namespace Verif.Properties
open Verif Num Spec Model

section
variable {n k : ℕ} {t : KsatTables} (hf : KFormula n k t.clauses t.used t.conns) (hk : 2 ≤ k) {g : ℕ → ℤ} (hg : Unmixed t.clauses g) {w : ℕ → ℚ}
  {flag : Bool} {alpha : ℚ} (hu : flag = false ∨ alpha = 0)
include hf hk hg hu

/-- C114.  If no variable occurs with both signs, there is no damping, no belief is zero after an even number of iterations, and the decisions satisfy the formula, then they are
the only cheapest satisfying assignment, whatever the costs and however many cycles the formula has. -/
theorem C114_optimal {N : ℕ} (hN : 1 ≤ N) (hNe : Even N) {b : ℕ → ℚ}
    (hb : ksatBeliefs N flag alpha (ksatObject n k t (listOf n (fun v => fin (w v)))) = some (listOf n (fun v => fin (b v))))
    (hne : ∀ v ∈ t.used, b v ≠ 0) (hsat : Satisfies t.clauses (t.used.toFinset.filter (fun v => b v < 0))) :
    OnlyCheapest t.used.toFinset (Satisfies t.clauses) w (t.used.toFinset.filter (fun v => b v < 0)) := by
  have hg' := Proofs.plainSign_unmixed hf hg
  set S := t.used.toFinset.filter (fun v => b v < 0) with hSdef
  have hS : ∀ v, v ∈ S ↔ v ∈ t.used ∧ b v < 0 := fun v => by simp [hSdef]
  have hSU : S ⊆ t.used.toFinset := Finset.filter_subset _ _
  have hcost : ∀ T ⊆ t.used.toFinset, ∑ v ∈ t.used.toFinset, w v * (if v ∈ T then 1 else 0) = cost w T := by
    intro T hT
    rw [cost, ← Finset.sum_subset hT (fun v _ hv => by rw [if_neg hv, mul_zero])]
    exact Finset.sum_congr rfl fun v hv => by rw [if_pos hv, mul_one]
  -- variable by variable, a cheapest fractional solution is no cheaper, and dearer where it differs
  have hpart : ∀ X, CheapestFractional t.clauses t.used.toFinset w X → ∀ v ∈ t.used.toFinset,
      w v * (if v ∈ S then 1 else 0) ≤ w v * X v ∧ (X v ≠ (if v ∈ S then 1 else 0) → w v * (if v ∈ S then 1 else 0) < w v * X v) := by
    intro X hX v hv
    have hvu := List.mem_toFinset.mp hv
    have h1 := C108_relaxation hf hk hg' hu hN hb hX hvu
    have h2 := Proofs.even_own_cost hf hk hg' hu hN hb hvu
    obtain ⟨x0, x1⟩ := hX.1.1 v hv
    rcases Proofs.plainSign_one g v with e | e
    · rw [e] at h2
      push_cast at h2
      rcases lt_or_gt_of_ne (hne v hvu) with hl | hl
      · rw [if_pos ((hS v).mpr ⟨hvu, hl⟩), (h1.1 e).1 hNe hl]
        exact ⟨le_rfl, fun h => absurd rfl h⟩
      · rw [if_neg fun h => absurd ((hS v).mp h).2 (not_lt.mpr hl.le)]
        have hw : 0 < w v := by linarith
        refine ⟨by rw [mul_zero]; exact mul_nonneg hw.le x0, fun h => ?_⟩
        rw [mul_zero]
        exact mul_pos hw (lt_of_le_of_ne x0 (Ne.symm h))
    · rw [e] at h2
      push_cast at h2
      rcases lt_or_gt_of_ne (hne v hvu) with hl | hl
      · rw [if_pos ((hS v).mpr ⟨hvu, hl⟩)]
        have hw : w v < 0 := by linarith
        refine ⟨by nlinarith, fun h => ?_⟩
        have : X v < 1 := lt_of_le_of_ne x1 h
        nlinarith
      · rw [if_neg fun h => absurd ((hS v).mp h).2 (not_lt.mpr hl.le), (h1.2 e).1 hNe hl]
        exact ⟨le_rfl, fun h => absurd rfl h⟩
  obtain ⟨X, hX⟩ := C108_exists hf hk hg w
  have hSX : cost w S ≤ ∑ v ∈ t.used.toFinset, w v * X v := by
    rw [← hcost S hSU]
    exact Finset.sum_le_sum fun v hv => (hpart X hX v hv).1
  refine ⟨hSU, hsat, fun T hT hTs hTne => ?_⟩
  have hfr := Proofs.indicator_fractional hf hg' hT hTs
  by_contra hcon
  push Not at hcon
  have hbest : CheapestFractional t.clauses t.used.toFinset w (fun v => if v ∈ T then 1 else 0) := by
    refine ⟨hfr, fun X' hX' => ?_⟩
    rw [hcost T hT]
    exact (hcon.trans hSX).trans (hX.2 X' hX')
  have hex : ∃ v ∈ t.used.toFinset, (if v ∈ T then (1 : ℚ) else 0) ≠ if v ∈ S then 1 else 0 := by
    by_contra h
    push Not at h
    refine hTne ?_
    ext v
    by_cases hv : v ∈ t.used.toFinset
    · have := h v hv
      by_cases h3 : v ∈ T <;> by_cases h4 : v ∈ S <;> simp [h3, h4] at this ⊢
    · exact ⟨fun h2 => absurd (hT h2) hv, fun h2 => absurd (hSU h2) hv⟩
  obtain ⟨v, hv, hdiff⟩ := hex
  have hlt : cost w S < cost w T := by
    rw [← hcost S hSU, ← hcost T hT]
    exact Finset.sum_lt_sum (fun v hv => (hpart _ hbest v hv).1) ⟨v, hv, (hpart _ hbest v hv).2 hdiff⟩
  linarith

/-- C114, later even numbers decide the same (again unless a belief is zero). -/
theorem C114_stays {N L : ℕ} (hN : 1 ≤ N) (hNe : Even N) (hL : N ≤ L) (hLe : Even L) {b b' : ℕ → ℚ}
    (hb : ksatBeliefs N flag alpha (ksatObject n k t (listOf n (fun v => fin (w v)))) = some (listOf n (fun v => fin (b v))))
    (hb' : ksatBeliefs L flag alpha (ksatObject n k t (listOf n (fun v => fin (w v)))) = some (listOf n (fun v => fin (b' v))))
    (hne : ∀ v ∈ t.used, b v ≠ 0) (hne' : ∀ v ∈ t.used, b' v ≠ 0) (hsat : Satisfies t.clauses (t.used.toFinset.filter (fun v => b v < 0))) :
    ∀ v ∈ t.used, (b' v < 0 ↔ b v < 0) := by
  have hsat' : Satisfies t.clauses (t.used.toFinset.filter (fun v => b' v < 0)) := by
    obtain ⟨q, hq, hbr⟩ := C106_bracket hf hk hg w hu
    have same : ∀ K, 1 ≤ K → ∀ a : ℕ → ℚ, ksatBeliefs K flag alpha (ksatObject n k t (listOf n (fun v => fin (w v)))) = some (listOf n (fun v => fin (a v))) →
        ∀ v ∈ t.used, q K v = a v := by
      intro K hK a ha v hv
      rw [hq K hK] at ha
      have hvn := hf.tables.used_lt v hv
      have := congrArg (fun l => l[v]?) (Option.some.inj ha)
      simpa [listOf, hvn] using this
    refine Proofs.unmixed_satisfied hf hg fun c hc => ?_
    obtain ⟨v, hv, h1⟩ := Proofs.even_literal hf hg hsat hc
    have hvu := Proofs.vars_used hf hc hv
    have hle := (hbr N L hN hL v hvu).2 hNe
    rw [same N hN b hb v hvu, same L (by omega) b' hb' v hvu] at hle
    refine ⟨v, hv, ?_⟩
    rcases h1 with ⟨e, h1⟩ | ⟨e, h1⟩
    · have h1 := (Finset.mem_filter.mp (of_decide_eq_true h1)).2
      rw [e] at hle
      push_cast at hle
      exact Or.inl ⟨e, decide_eq_true (Finset.mem_filter.mpr ⟨List.mem_toFinset.mpr hvu, by linarith⟩)⟩
    · have h1 : ¬ b v < 0 := fun h => of_decide_eq_false h1 (Finset.mem_filter.mpr ⟨List.mem_toFinset.mpr hvu, h⟩)
      rw [e] at hle
      push_cast at hle
      exact Or.inr ⟨e, decide_eq_false fun h => h1 (by linarith [(Finset.mem_filter.mp h).2])⟩
  have h1 := C114_optimal hf hk hg hu hN hNe hb hne hsat
  have h2 := C114_optimal hf hk hg hu (by omega) hLe hb' hne' hsat'
  have heq : t.used.toFinset.filter (fun v => b' v < 0) = t.used.toFinset.filter (fun v => b v < 0) := by
    by_contra hcon
    have h3 := h1.2.2 _ h2.1 hsat' hcon
    have h4 := h2.2.2 _ h1.1 hsat (Ne.symm hcon)
    linarith
  intro v hv
  have := congrArg (fun T => v ∈ T) heq
  simpa [hv] using this

omit hu in
/-- C114, damping: then all sufficiently long runs with any damping factor below one satisfy the formula, too, and need no post-processing. -/
theorem C114_damped {N : ℕ} (hN : 1 ≤ N) (hNe : Even N) {b : ℕ → ℚ}
    (hb : ksatBeliefs N false 0 (ksatObject n k t (listOf n (fun v => fin (w v)))) = some (listOf n (fun v => fin (b v))))
    (hne : ∀ v ∈ t.used, b v ≠ 0) (hsat : Satisfies t.clauses (t.used.toFinset.filter (fun v => b v < 0)))
    {flag' : Bool} {alpha' : ℚ} (ha : flag' = true → 0 ≤ alpha' ∧ alpha' < 1) : ∃ J, ∀ L ≥ J, ∀ order order' : List ℕ → List ℕ,
      (∀ l, (order l).Perm l) → (∀ l, (order' l).Perm l) → ∀ (post : Bool) (pp : ℕ) (sol : List Bool), (sol = [] ∨ sol.length = n) →
      ∃ res, ksatCall n k L flag' alpha' (fin 0) order order' post pp sol t (listOf n (fun v => fin (w v))) = some res ∧
        res.post.flag = true ∧ res.post.sum.unsat = [] ∧ res.requiredPP = false := by
  obtain ⟨J, hJ⟩ := C109_decisions hf hk hg w ha hN hb
  refine ⟨J + 1, fun L hL order order' ho ho' post pp sol hs => ?_⟩
  obtain ⟨d, hd, hdec⟩ := hJ L (by omega)
  have hv : violated t.clauses (fun v => decide (d v ≤ 0)) = [] := by
    refine Proofs.unmixed_satisfied hf hg fun c hc => ?_
    obtain ⟨v, hv, h1⟩ := Proofs.even_literal hf hg hsat hc
    have hvu := Proofs.vars_used hf hc hv
    refine ⟨v, hv, ?_⟩
    rcases h1 with ⟨e, h1⟩ | ⟨e, h1⟩
    · exact Or.inl ⟨e, decide_eq_true (((hdec v hvu).1 e).1 hNe (Finset.mem_filter.mp (of_decide_eq_true h1)).2).le⟩
    · have h2 : ¬ b v < 0 := fun h => of_decide_eq_false h1 (Finset.mem_filter.mpr ⟨List.mem_toFinset.mpr hvu, h⟩)
      have h3 : 0 < b v := lt_of_le_of_ne (not_lt.mp h2) (Ne.symm (hne v hvu))
      exact Or.inr ⟨e, decide_eq_false (not_le.mpr (((hdec v hvu).2 e).1 hNe h3))⟩
  obtain ⟨K, rfl⟩ : ∃ K, L = K + 1 := ⟨L - 1, by omega⟩
  obtain ⟨res, r1, -, r2, r3, r4, -⟩ := Proofs.call_report hf hk ho ho' (post := post) (pp := pp) hs (thr := 0) hd (Or.inr hv)
  exact ⟨res, r1, r3.mpr hv, by rw [r4, hv], r2⟩

/-- C114, calls: if a call with an even number of iterations and threshold zero reports that all clauses are satisfied, without post-processing, and no belief is zero,
then the reported assignment is the only cheapest satisfying one. -/
theorem C114_call {order order' : List ℕ → List ℕ} (ho : ∀ l, (order l).Perm l) (ho' : ∀ l, (order' l).Perm l) {post : Bool} {pp : ℕ}
    {sol : List Bool} (hs : sol = [] ∨ sol.length = n) {N : ℕ} (hN : 1 ≤ N) (hNe : Even N) {b : ℕ → ℚ}
    (hb : ksatBeliefs N flag alpha (ksatObject n k t (listOf n (fun v => fin (w v)))) = some (listOf n (fun v => fin (b v))))
    (hne : ∀ v ∈ t.used, b v ≠ 0) {res : KsatResult}
    (hc : ksatCall n k N flag alpha (fin 0) order order' post pp sol t (listOf n (fun v => fin (w v))) = some res)
    (hflag : res.post.flag = true) (hpp : res.requiredPP = false) :
    OnlyCheapest t.used.toFinset (Satisfies t.clauses) w (t.used.toFinset.filter (· ∈ res.post.sum.active)) := by
  obtain ⟨K, rfl⟩ : ∃ K, N = K + 1 := ⟨N - 1, by omega⟩
  have hviol : post = false ∨ violated t.clauses (fun v => decide (b v ≤ 0)) = [] := by
    rcases hp : post with _ | _
    · exact Or.inl rfl
    · right
      obtain ⟨res', h1, -, -, h4, -⟩ := Proofs.call_of_beliefs hf ho ho' (thr := fin 0) (post := post) (pp := pp) hs hb (by simp [listOf])
      rw [hc] at h1
      obtain rfl := Option.some.inj h1
      by_contra hcon
      have : res.requiredPP = true := h4.mpr ⟨hp, by
        rwa [Proofs.violated_congr hf (τ := fun v => decide (b v ≤ 0)) fun v hv => Proofs.hard_val hf hv]⟩
      rw [hpp] at this
      cases this
  obtain ⟨res', r1, -, -, r3, -, r5⟩ := Proofs.call_report hf hk ho ho' (post := post) (pp := pp) hs (thr := 0) hb hviol
  rw [hc] at r1
  obtain rfl := Option.some.inj r1
  have hle : ∀ v ∈ t.used, (b v ≤ 0 ↔ b v < 0) := fun v hv => ⟨fun h => lt_of_le_of_ne h (hne v hv), le_of_lt⟩
  have e : t.used.toFinset.filter (· ∈ res.post.sum.active) = t.used.toFinset.filter (fun v => b v < 0) := by
    refine Finset.filter_congr fun v hv => ?_
    have hv := List.mem_toFinset.mp hv
    rw [r5, hle v hv]
    exact ⟨fun h => h.2, fun h => ⟨hv, h⟩⟩
  rw [e]
  refine C114_optimal hf hk hg hu hN hNe hb hne ?_
  have h1 := r3.mp hflag
  rw [Satisfies, ← h1]
  refine Proofs.violated_congr hf fun v hv => ?_
  rw [decide_eq_decide, Finset.mem_filter, hle v hv, List.mem_toFinset]
  exact ⟨fun h => h.2, fun h => ⟨hv, h⟩⟩

end

/-! ## Examples -/

/-- The cycle with five nodes of C106: after four iterations nodes 0, 2 and 4 are chosen, which is the cheapest cover. -/
example : OnlyCheapest (Finset.range 5) (Satisfies c106Cycle.clauses) c106Costs {0, 2, 4} := by
  have h := C114_optimal c106Cycle_ok le_rfl c106Cycle_unmixed (w := c106Costs) (flag := false) (alpha := 0) (Or.inl rfl) (N := 4) (by omega) (by decide)
    (b := fun v => [-2, 2, -2, 1, -1].getD v 0) (by decide +kernel) (by decide +kernel) (by unfold Satisfies; decide +kernel)
  have e : c106Cycle.used.toFinset.filter (fun v => ([-2, 2, -2, 1, -1] : List ℚ).getD v 0 < 0) = {0, 2, 4} := by decide +kernel
  have e' : c106Cycle.used.toFinset = Finset.range 5 := by decide
  rw [e, e'] at h
  exact h

/-- The condition on the parity is needed: one iteration on the complete graph of C112 satisfies all clauses with all nodes, which is not the cheapest cover. -/
theorem C114_parity : ksatBeliefs 1 false 0 (ksatObject 4 2 c112Graph (listOf 4 (fun v => fin (c112Costs v)))) = some (listOf 4 (fun v => fin (-14 + 2 * v))) ∧
    Satisfies c112Graph.clauses {0, 1, 2, 3} ∧ Satisfies c112Graph.clauses {0, 1, 2} ∧ cost c112Costs {0, 1, 2} < cost c112Costs {0, 1, 2, 3} := by
  unfold Satisfies cost
  decide +kernel

end Verif.Properties
