import Verif.Properties.Relaxation
import Verif.Properties.OddRuns
import Verif.Properties.UnmixedDamped

/-! # C116: the costs of assignments from even and odd numbers of iterations enclose the optimum -/

namespace Verif.Properties
open Verif Num Spec Model

section
variable {n k : ℕ} {t : KsatTables} (hf : KFormula n k t.clauses t.used t.conns) (hk : 2 ≤ k) {g : ℕ → ℤ} (hg : Unmixed t.clauses g) {w : ℕ → ℚ}
  {flag : Bool} {alpha : ℚ} (hu : flag = false ∨ alpha = 0)
include hf hk hg hu

/-- C116, fractions.  If no variable occurs with both signs, there is no damping and no belief is zero after an even number of iterations, then the assignment decided then
(which need not satisfy the formula) costs at most as much as any fractional solution. -/
theorem C116_fractional {N : ℕ} (hN : 1 ≤ N) (hNe : Even N) {b : ℕ → ℚ}
    (hb : ksatBeliefs N flag alpha (ksatObject n k t (listOf n (fun v => fin (w v)))) = some (listOf n (fun v => fin (b v))))
    (hne : ∀ v ∈ t.used, b v ≠ 0) {X : ℕ → ℚ} (hX : FractionalSolution t.clauses t.used.toFinset X) :
    cost w (t.used.toFinset.filter (fun v => b v ≤ 0)) ≤ ∑ v ∈ t.used.toFinset, w v * X v := by
  have hg' := Proofs.plainSign_unmixed hf hg
  obtain ⟨Y, hY⟩ := C108_exists hf hk hg w
  refine le_trans ?_ (hY.2 X hX)
  rw [cost, Finset.sum_filter]
  refine Finset.sum_le_sum fun v hv => ?_
  have hvu := List.mem_toFinset.mp hv
  have h1 := C108_relaxation hf hk hg' hu hN hb hY hvu
  have h2 := Proofs.even_own_cost hf hk hg' hu hN hb hvu
  obtain ⟨y0, y1⟩ := hY.1.1 v hv
  rcases Proofs.plainSign_one g v with e | e
  · rw [e] at h2
    push_cast at h2
    split
    · rename_i h
      rw [(h1.1 e).1 hNe (lt_of_le_of_ne h (hne v hvu)), mul_one]
    · rename_i h
      exact mul_nonneg (by linarith) y0
  · rw [e] at h2
    push_cast at h2
    split
    · rename_i h
      have : w v ≤ 0 := by linarith
      nlinarith
    · rename_i h
      rw [(h1.2 e).1 hNe (not_le.mp h), mul_zero]

/-- C116.  So it costs at most as much as any satisfying assignment. -/
theorem C116_lower {N : ℕ} (hN : 1 ≤ N) (hNe : Even N) {b : ℕ → ℚ}
    (hb : ksatBeliefs N flag alpha (ksatObject n k t (listOf n (fun v => fin (w v)))) = some (listOf n (fun v => fin (b v))))
    (hne : ∀ v ∈ t.used, b v ≠ 0) {T : Finset ℕ} (hT : T ⊆ t.used.toFinset) (hsat : Satisfies t.clauses T) :
    cost w (t.used.toFinset.filter (fun v => b v ≤ 0)) ≤ cost w T := by
  have h := C116_fractional hf hk hg hu hN hNe hb hne (Proofs.indicator_fractional hf (Proofs.plainSign_unmixed hf hg) hT hsat)
  refine h.trans (le_of_eq ?_)
  rw [cost, ← Finset.sum_subset hT (fun v _ hv => by rw [if_neg hv, mul_zero])]
  exact Finset.sum_congr rfl fun v hv => by rw [if_pos hv, mul_one]

/-- C116, order: the assignment decided after an even number of iterations costs at most as much as that after any larger number, and the assignment after an odd number
at least as much. -/
theorem C116_order {N L : ℕ} (hN : 1 ≤ N) (hL : N ≤ L) {b b' : ℕ → ℚ}
    (hb : ksatBeliefs N flag alpha (ksatObject n k t (listOf n (fun v => fin (w v)))) = some (listOf n (fun v => fin (b v))))
    (hb' : ksatBeliefs L flag alpha (ksatObject n k t (listOf n (fun v => fin (w v)))) = some (listOf n (fun v => fin (b' v)))) :
    (Even N → cost w (t.used.toFinset.filter (fun v => b v ≤ 0)) ≤ cost w (t.used.toFinset.filter (fun v => b' v ≤ 0))) ∧
    (¬ Even N → cost w (t.used.toFinset.filter (fun v => b' v ≤ 0)) ≤ cost w (t.used.toFinset.filter (fun v => b v ≤ 0))) := by
  have hg' := Proofs.plainSign_unmixed hf hg
  obtain ⟨q, hq, hbr⟩ := C106_bracket hf hk hg' w hu
  have same : ∀ K, 1 ≤ K → ∀ a : ℕ → ℚ, ksatBeliefs K flag alpha (ksatObject n k t (listOf n (fun v => fin (w v)))) = some (listOf n (fun v => fin (a v))) →
      ∀ v ∈ t.used, q K v = a v := by
    intro K hK a ha v hv
    rw [hq K hK] at ha
    have hvn := hf.tables.used_lt v hv
    have := congrArg (fun l => l[v]?) (Option.some.inj ha)
    simpa [listOf, hvn] using this
  -- one variable: if its belief does not grow, neither does what it saves
  have one : ∀ v ∈ t.used, ∀ a a' : ℚ, a' * Proofs.plainSign g v ≤ a * Proofs.plainSign g v → a * Proofs.plainSign g v ≤ w v * Proofs.plainSign g v →
      (if a ≤ 0 then w v else 0) ≤ (if a' ≤ 0 then w v else 0) := by
    intro v _ a a' h1 h2
    rcases Proofs.plainSign_one g v with e | e
    · rw [e] at h1 h2
      push_cast at h1 h2
      by_cases ha : a ≤ 0
      · rw [if_pos ha, if_pos (by linarith)]
      · rw [if_neg ha]
        split <;> linarith
    · rw [e] at h1 h2
      push_cast at h1 h2
      by_cases ha : a ≤ 0
      · rw [if_pos ha]
        split <;> linarith
      · rw [if_neg ha, if_neg (by linarith)]
  constructor
  · intro he
    rw [cost, cost, Finset.sum_filter, Finset.sum_filter]
    refine Finset.sum_le_sum fun v hv => ?_
    have hvu := List.mem_toFinset.mp hv
    have h1 := (hbr N L hN hL v hvu).2 he
    rw [same N hN b hb v hvu, same L (by omega) b' hb' v hvu] at h1
    exact one v hvu _ _ h1 (Proofs.even_own_cost hf hk hg' hu hN hb hvu)
  · intro he
    rw [cost, cost, Finset.sum_filter, Finset.sum_filter]
    refine Finset.sum_le_sum fun v hv => ?_
    have hvu := List.mem_toFinset.mp hv
    have h1 := (hbr N L hN hL v hvu).1 he
    rw [same N hN b hb v hvu, same L (by omega) b' hb' v hvu] at h1
    exact one v hvu _ _ h1 (Proofs.even_own_cost hf hk hg' hu (by omega) hb' hvu)

omit hu in
/-- C116, damping: all sufficiently long runs with a damping factor below one decide on assignments whose costs are between those after even and odd numbers of iterations
without damping (unless a belief is zero there). -/
theorem C116_damped {N : ℕ} (hN : 1 ≤ N) {b : ℕ → ℚ}
    (hb : ksatBeliefs N false 0 (ksatObject n k t (listOf n (fun v => fin (w v)))) = some (listOf n (fun v => fin (b v))))
    (hne : ∀ v ∈ t.used, b v ≠ 0) (ha : flag = true → 0 ≤ alpha ∧ alpha < 1) : ∃ J, ∀ L ≥ J, ∃ d : ℕ → ℚ,
      ksatBeliefs L flag alpha (ksatObject n k t (listOf n (fun v => fin (w v)))) = some (listOf n (fun v => fin (d v))) ∧
      (Even N → cost w (t.used.toFinset.filter (fun v => b v ≤ 0)) ≤ cost w (t.used.toFinset.filter (fun v => d v ≤ 0))) ∧
      (¬ Even N → cost w (t.used.toFinset.filter (fun v => d v ≤ 0)) ≤ cost w (t.used.toFinset.filter (fun v => b v ≤ 0))) := by
  have hg' := Proofs.plainSign_unmixed hf hg
  obtain ⟨q, hq, -⟩ := C106_bracket hf hk hg' w (flag := false) (alpha := 0) (Or.inl rfl)
  obtain ⟨J, hJ⟩ := C109_decisions hf hk hg' w ha hN hb
  obtain ⟨J', hJ'⟩ := C109_decisions hf hk hg' w ha (by norm_num) (hq 2 (by norm_num))
  refine ⟨max J J', fun L hL => ?_⟩
  obtain ⟨d, hd, h1⟩ := hJ L (le_trans (le_max_left _ _) hL)
  obtain ⟨d', hd', h2⟩ := hJ' L (le_trans (le_max_right _ _) hL)
  have hdd : ∀ v ∈ t.used, d' v = d v := by
    intro v hv
    rw [hd] at hd'
    have hvn := hf.tables.used_lt v hv
    have := congrArg (fun l => l[v]?) (Option.some.inj hd').symm
    simpa [listOf, hvn] using this
  refine ⟨d, hd, fun he => ?_, fun he => ?_⟩
  · rw [cost, cost, Finset.sum_filter, Finset.sum_filter]
    refine Finset.sum_le_sum fun v hv => ?_
    have hvu := List.mem_toFinset.mp hv
    have h3 := Proofs.even_own_cost hf hk hg' (Or.inl rfl) hN hb hvu
    rcases Proofs.plainSign_one g v with e | e
    · rw [e] at h3
      push_cast at h3
      by_cases hb0 : b v ≤ 0
      · rw [if_pos hb0, if_pos (((h1 v hvu).1 e).1 he (lt_of_le_of_ne hb0 (hne v hvu))).le]
      · rw [if_neg hb0]
        split <;> linarith
    · rw [e] at h3
      push_cast at h3
      by_cases hb0 : b v ≤ 0
      · rw [if_pos hb0]
        split <;> linarith
      · rw [if_neg hb0, if_neg (not_le.mpr (((h1 v hvu).2 e).1 he (not_le.mp hb0)))]
  · rw [cost, cost, Finset.sum_filter, Finset.sum_filter]
    refine Finset.sum_le_sum fun v hv => ?_
    have hvu := List.mem_toFinset.mp hv
    have h3 := Proofs.even_own_cost hf hk hg' (Or.inl rfl) (by norm_num) (hq 2 (by norm_num)) hvu
    rcases Proofs.plainSign_one g v with e | e
    · rw [e] at h3
      push_cast at h3
      have hw : d v ≤ 0 ∨ 0 ≤ w v := by
        by_contra hcon
        push Not at hcon
        have := ((h2 v hvu).1 e).1 (by decide) (by linarith [hcon.2])
        rw [hdd v hvu] at this
        linarith [hcon.1]
      by_cases hb0 : b v ≤ 0
      · rw [if_pos hb0]
        rcases hw with hw | hw
        · rw [if_pos hw]
        · split <;> linarith
      · rw [if_neg hb0, if_neg (not_le.mpr (((h1 v hvu).1 e).2 he (not_le.mp hb0)))]
    · rw [e] at h3
      push_cast at h3
      have hw : 0 < d v ∨ w v ≤ 0 := by
        by_contra hcon
        push Not at hcon
        have := ((h2 v hvu).2 e).1 (by decide) (by linarith [hcon.2])
        rw [hdd v hvu] at this
        linarith [hcon.1]
      by_cases hb0 : b v ≤ 0
      · rw [if_pos hb0, if_pos (((h1 v hvu).2 e).2 he (lt_of_le_of_ne hb0 (hne v hvu))).le]
      · rw [if_neg hb0]
        rcases hw with hw | hw
        · rw [if_neg (not_le.mpr hw)]
        · split <;> linarith

/-- C116, calls: two calls with threshold zero and without post-processing, one with an even and one with an odd number of iterations, on a formula without negated literals.
If no belief of the first is zero, its reported assignment costs at most as much as any satisfying one.  The second reports a satisfying assignment, so if its cost is the
same, it is a cheapest one. -/
theorem C116_calls (hp : ∀ v ∈ t.used, g v = 1) {order order' : List ℕ → List ℕ} (ho : ∀ l, (order l).Perm l) (ho' : ∀ l, (order' l).Perm l) (pp : ℕ)
    {sol : List Bool} (hs : sol = [] ∨ sol.length = n) {N M : ℕ} (hN : 1 ≤ N) (hNe : Even N) (hMo : ¬ Even M) {b : ℕ → ℚ}
    (hb : ksatBeliefs N flag alpha (ksatObject n k t (listOf n (fun v => fin (w v)))) = some (listOf n (fun v => fin (b v))))
    (hne : ∀ v ∈ t.used, b v ≠ 0) : ∃ res res',
    ksatCall n k N flag alpha (fin 0) order order' false pp sol t (listOf n (fun v => fin (w v))) = some res ∧
    ksatCall n k M flag alpha (fin 0) order order' false pp sol t (listOf n (fun v => fin (w v))) = some res' ∧
    (∀ T ⊆ t.used.toFinset, Satisfies t.clauses T → cost w (t.used.toFinset.filter (· ∈ res.post.sum.active)) ≤ cost w T) ∧
    Satisfies t.clauses (t.used.toFinset.filter (· ∈ res'.post.sum.active)) ∧
    (cost w (t.used.toFinset.filter (· ∈ res.post.sum.active)) = cost w (t.used.toFinset.filter (· ∈ res'.post.sum.active)) →
      ∀ T ⊆ t.used.toFinset, Satisfies t.clauses T → cost w (t.used.toFinset.filter (· ∈ res'.post.sum.active)) ≤ cost w T) := by
  obtain ⟨b', hb', hodd⟩ := C112_odd_beliefs hf hk hg w hu hMo
  obtain ⟨res', r1, -, -, -, r5⟩ := C112_odd hf hk hg w hu ho ho' false pp hs hMo hb' (fun v hv h => absurd ((hp v hv).symm.trans h) (by decide))
  obtain ⟨K, rfl⟩ : ∃ K, N = K + 1 := ⟨N - 1, by omega⟩
  obtain ⟨res, s1, -, -, -, -, s6⟩ := Proofs.call_report hf hk ho ho' (post := false) (pp := pp) hs (thr := 0) hb (Or.inl rfl)
  have act : ∀ (l : List ℕ) (a : ℕ → ℚ), (∀ v, v ∈ l ↔ v ∈ t.used ∧ a v ≤ 0) → t.used.toFinset.filter (· ∈ l) = t.used.toFinset.filter (fun v => a v ≤ 0) := by
    intro l a h
    refine Finset.filter_congr fun v hv => ?_
    rw [h]
    exact ⟨fun h => h.2, fun h => ⟨List.mem_toFinset.mp hv, h⟩⟩
  have low : ∀ T ⊆ t.used.toFinset, Satisfies t.clauses T → cost w (t.used.toFinset.filter (· ∈ res.post.sum.active)) ≤ cost w T := by
    intro T hT hsat
    rw [act _ b s6]
    exact C116_lower hf hk hg hu hN hNe hb hne hT hsat
  refine ⟨res, res', s1, r1, low, ?_, fun e T hT hsat => e ▸ low T hT hsat⟩
  rw [act _ b' r5]
  refine Proofs.unmixed_satisfied hf hg fun c hc => ?_
  obtain ⟨v, hv, hle⟩ := hodd c hc
  have hvu := Proofs.vars_used hf hc hv
  rw [hp v hvu] at hle
  push_cast at hle
  exact ⟨v, hv, Or.inl ⟨hp v hvu, decide_eq_true (Finset.mem_filter.mpr ⟨List.mem_toFinset.mpr hvu, by linarith⟩)⟩⟩

end

/-! ## Examples -/

/-- One clause with two variables of cost one: both beliefs are zero after two iterations, both variables are taken, and one would do.  So beliefs that are zero have to
be left out. -/
def c116Pair : KsatTables where
  used := [0, 1]
  clauses := [[(0, 1), (1, 1)]]
  conns := [[(0, 1)], [(0, 1)]]

theorem c116Pair_ok : KFormula 2 2 c116Pair.clauses c116Pair.used c116Pair.conns :=
  Proofs.kformula_of_checks (by decide) rfl (by decide) (by decide) (by decide) (by decide) (by decide)

theorem C116_tie : ksatBeliefs 2 false 0 (ksatObject 2 2 c116Pair (listOf 2 (fun _ => fin 1))) = some (listOf 2 (fun _ => fin 0)) ∧
    Satisfies c116Pair.clauses {0} ∧ cost (fun _ => (1 : ℚ)) {0} < cost (fun _ => 1) (c116Pair.used.toFinset.filter (fun _ => (0 : ℚ) ≤ 0)) := by
  refine ⟨by decide +kernel, by unfold Satisfies; decide +kernel, ?_⟩
  have e : c116Pair.used.toFinset.filter (fun _ => (0 : ℚ) ≤ 0) = {0, 1} := by decide +kernel
  rw [e]
  simp [cost]

/-- The cycle with five nodes of C106 and costs 1, 3, 1, 3, 2: no cover costs less than 4, which is what four iterations find. -/
example : ∀ T ⊆ c106Cycle.used.toFinset, Satisfies c106Cycle.clauses T → 4 ≤ cost c106Costs T := by
  intro T hT hsat
  have h := C116_lower c106Cycle_ok le_rfl c106Cycle_unmixed (w := c106Costs) (flag := false) (alpha := 0) (Or.inl rfl) (N := 4) (by omega) (by decide)
    (b := fun v => [-2, 2, -2, 1, -1].getD v 0) (by decide +kernel) (by decide +kernel) hT hsat
  have e : c106Cycle.used.toFinset.filter (fun v => ([-2, 2, -2, 1, -1] : List ℚ).getD v 0 ≤ 0) = {0, 2, 4} := by decide +kernel
  have e' : cost c106Costs {0, 2, 4} = 4 := by decide +kernel
  rw [e, e'] at h
  exact h

/-- The calls with four and three iterations on it. -/
example : ∃ res res', ksatCall 5 2 4 false 0 (fin 0) id id false 0 [] c106Cycle (listOf 5 (fun v => fin (c106Costs v))) = some res ∧
    ksatCall 5 2 3 false 0 (fin 0) id id false 0 [] c106Cycle (listOf 5 (fun v => fin (c106Costs v))) = some res' ∧
    Satisfies c106Cycle.clauses (c106Cycle.used.toFinset.filter (· ∈ res'.post.sum.active)) := by
  obtain ⟨res, res', h1, h2, -, h3, -⟩ := C116_calls c106Cycle_ok le_rfl c106Cycle_unmixed (w := c106Costs) (flag := false) (alpha := 0) (Or.inl rfl)
    (fun _ _ => rfl) (order := id) (order' := id) (fun l => List.Perm.refl l) (fun l => List.Perm.refl l) 0 (sol := []) (Or.inl rfl) (N := 4) (M := 3) (by omega) (by decide)
    (by decide) (b := fun v => [-2, 2, -2, 1, -1].getD v 0) (by decide +kernel) (by decide +kernel)
  exact ⟨res, res', h1, h2, h3⟩

end Verif.Properties
