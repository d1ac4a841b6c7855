import Verif.Proofs.KsatCall
import Mathlib.Tactic.IntervalCases

/-! C52: the k-SAT solver on formulas without cycles. -/

namespace Verif.Properties
open Verif Num Spec Model

/-- The order of removal used in the proof exists exactly when the graph of clauses and variables has no cycle. -/
theorem C52_forest_iff {C : ℕ} {V : ℕ → Finset ℕ} (hV : ∀ c < C, (V c).Nonempty) :
    (incidence C V).IsAcyclic ↔ ∃ order : List ℕ, order.Perm (List.range C) ∧ Forest V order :=
  ⟨fun h => Proofs.forest_of_acyclic h hV, fun ⟨_, hp, hF⟩ => Proofs.acyclic_of_forest hp hF⟩

section
variable {n k : ℕ} {t : KsatTables} (hf : KFormula n k t.clauses t.used t.conns) (hk : 2 ≤ k)
  (hac : (incidence t.clauses.length (varsOf t.clauses)).IsAcyclic) (w : ℕ → ℚ)
include hf hk hac

/-- C52.  If the graph of clauses and variables has no cycle, then without damping the belief of every used variable is, after
more than `2 C` iterations for `C` clauses, exactly the cost of the cheapest satisfying assignment that sets it minus the
cost of the cheapest satisfying assignment that does not. -/
theorem C52_beliefs {flag : Bool} {alpha : ℚ} (hu : flag = false ∨ alpha = 0) {K : ℕ} (hK : 2 * t.clauses.length ≤ K) :
    ∃ b : ℕ → ℚ, ksatBeliefs (K + 1) flag alpha (ksatObject n k t (listOf n (fun v => fin (w v)))) = some (listOf n (fun v => fin (b v))) ∧
      ∀ v ∈ t.used, MarginalDiff t.used.toFinset (Satisfies t.clauses) w v (b v) := by
  obtain ⟨x, r, htr, hb⟩ := Proofs.call_trace hf hk w flag alpha
  refine ⟨_, hb K, fun v hv => ?_⟩
  obtain ⟨m, h1, h2⟩ := Proofs.belief_limit hf hk hac htr Proofs.limits_const
    (fun T a s h j hj => by beta_reduce; rw [Proofs.undamped hu]; exact h j hj) hv
  have h2 := h2 K hK
  beta_reduce at h2
  rw [h2]; exact h1

/-- C52, with damping (`|alpha| < 1`): the same values are the limits of the beliefs as the number of iterations grows. -/
theorem C52_converges {flag : Bool} {alpha : ℚ} (ha : flag = true → |alpha| < 1) :
    ∃ b : ℕ → ℕ → ℚ, (∀ K, ksatBeliefs (K + 1) flag alpha (ksatObject n k t (listOf n (fun v => fin (w v)))) =
        some (listOf n (fun v => fin (b K v)))) ∧
      ∀ v ∈ t.used, ∃ m, MarginalDiff t.used.toFinset (Satisfies t.clauses) w v m ∧ Tends (fun K => b K v) m := by
  obtain ⟨x, r, htr, hb⟩ := Proofs.call_trace hf hk w flag alpha
  refine ⟨_, hb, fun v hv => ?_⟩
  exact Proofs.belief_limit hf hk hac htr Proofs.limits_tends (fun T a s h => Proofs.damped_tends ha h) hv

section
variable {order order' : List ℕ → List ℕ} (ho : ∀ l, (order l).Perm l) (ho' : ∀ l, (order' l).Perm l) {post : Bool} {pp : ℕ}
  {sol : List Bool} (hs : sol = [] ∨ sol.length = n)
include ho ho' hs

/-- C52, whole call: if one satisfying assignment is cheaper than all others by at least `δ > 0` and the threshold lies in
`[-δ, δ)`, then the call without damping reports exactly this assignment, all clauses satisfied, and needs no
post-processing. -/
theorem C52_solves {flag : Bool} {alpha : ℚ} (hu : flag = false ∨ alpha = 0) {K : ℕ} (hK : 2 * t.clauses.length ≤ K) {δ thr : ℚ}
    {S : Finset ℕ} (hS : CheapestBy t.used.toFinset (Satisfies t.clauses) w δ S) (hlo : -δ ≤ thr) (hhi : thr < δ) :
    ∃ res, ksatCall n k (K + 1) flag alpha (fin thr) order order' post pp sol t (listOf n (fun v => fin (w v))) = some res ∧
      res.post.flag = true ∧ res.post.sum.unsat = [] ∧ res.requiredPP = false ∧ (∀ v, v ∈ res.post.sum.active ↔ v ∈ S) ∧
      (∀ v, v ∈ res.post.sum.inactive ↔ v ∈ t.used ∧ v ∉ S) := by
  obtain ⟨b, hb, hm⟩ := C52_beliefs hf hk hac w hu hK
  refine Proofs.call_of_signs hf ho ho' hs hb hS.1 hS.2.1 fun v hv => ?_
  obtain ⟨h1, h2⟩ := Proofs.cheapestBy_sign hS (hm v hv)
  constructor
  · intro h
    by_contra hn
    linarith [h2 hn]
  · intro h; linarith [h1 h]

/-- C52, whole call with damping: the same from some number of iterations on, for a threshold in `(-δ, δ)`. -/
theorem C52_solves_damped {flag : Bool} {alpha : ℚ} (ha : flag = true → |alpha| < 1) {δ thr : ℚ}
    {S : Finset ℕ} (hS : CheapestBy t.used.toFinset (Satisfies t.clauses) w δ S) (hlo : -δ < thr) (hhi : thr < δ) :
    ∃ N, ∀ K ≥ N,
      ∃ res, ksatCall n k (K + 1) flag alpha (fin thr) order order' post pp sol t (listOf n (fun v => fin (w v))) = some res ∧
        res.post.flag = true ∧ res.post.sum.unsat = [] ∧ res.requiredPP = false ∧ (∀ v, v ∈ res.post.sum.active ↔ v ∈ S) ∧
        (∀ v, v ∈ res.post.sum.inactive ↔ v ∈ t.used ∧ v ∉ S) := by
  obtain ⟨b, hb, hm⟩ := C52_converges hf hk hac w ha
  choose! m hm1 hm2 using hm
  obtain ⟨N, hN⟩ := Proofs.tends_common t.used.toFinset (s := fun v K => b K v) (a := m)
    (fun v hv => hm2 v (List.mem_toFinset.mp hv)) (show 0 < min (thr + δ) (δ - thr) from lt_min (by linarith) (by linarith))
  refine ⟨N, fun K hK => Proofs.call_of_signs hf ho ho' hs (hb K) hS.1 hS.2.1 fun v hv => ?_⟩
  obtain ⟨h1, h2⟩ := Proofs.cheapestBy_sign hS (hm1 v hv)
  obtain ⟨h3, h4⟩ := abs_lt.mp (hN K hK v (List.mem_toFinset.mpr hv))
  have h5 := min_le_left (thr + δ) (δ - thr)
  have h6 := min_le_right (thr + δ) (δ - thr)
  constructor
  · intro h
    by_contra hn
    linarith [h2 hn]
  · intro h; linarith [h1 h]

/-- C52, the other way round: whenever no belief is between zero and the threshold (nor zero), what the call reports is the only
cheapest satisfying assignment. -/
theorem C52_decision {flag : Bool} {alpha : ℚ} (hu : flag = false ∨ alpha = 0) {K : ℕ} (hK : 2 * t.clauses.length ≤ K) {thr : ℚ}
    {b : ℕ → ℚ} (hb : ksatBeliefs (K + 1) flag alpha (ksatObject n k t (listOf n (fun v => fin (w v)))) = some (listOf n (fun v => fin (b v))))
    (hne : ∀ v ∈ t.used, b v < 0 ∧ b v ≤ thr ∨ 0 < b v ∧ thr < b v) :
    ∃ res, ksatCall n k (K + 1) flag alpha (fin thr) order order' post pp sol t (listOf n (fun v => fin (w v))) = some res ∧
      res.post.flag = true ∧ OnlyCheapest t.used.toFinset (Satisfies t.clauses) w res.post.sum.active.toFinset := by
  obtain ⟨b', hb', hm⟩ := C52_beliefs hf hk hac w hu hK
  have hbb : ∀ v ∈ t.used, b v = b' v := by
    intro v hv
    rw [hb] at hb'
    have := congrArg (fun l => l[v]?) (Option.some.inj hb')
    simpa [listOf, List.getElem?_range (hf.tables.used_lt v hv)] using this
  have hex : ∃ S, S ⊆ t.used.toFinset ∧ Satisfies t.clauses S := by
    rcases hl : t.used with _ | ⟨v, l⟩
    · refine ⟨∅, by simp, ?_⟩
      simp only [Satisfies, violated, List.filter_eq_nil_iff, List.mem_range, decide_eq_true_eq]
      intro c hc
      have h1 := Proofs.lit_mem hf hc (show 0 < k by omega)
      have := hf.tables.used_mem _ (Proofs.getD_mem hf hc) _ h1
      rw [hl] at this
      simp at this
    · obtain ⟨a, c, ⟨⟨S, s1, s2, -⟩, -⟩, -⟩ := hm v (by rw [hl]; simp)
      exact ⟨S, by rw [hl] at s1; exact s1, s2⟩
  have hoc : OnlyCheapest t.used.toFinset (Satisfies t.clauses) w (t.used.toFinset.filter (fun v => b v < 0)) := by
    refine Proofs.only_cheapest (b := b) (fun v hv => ?_) (fun v hv => ?_) hex (fun v => by simp)
    · have hv := List.mem_toFinset.mp hv
      rw [hbb v hv]; exact hm v hv
    · rcases hne v (List.mem_toFinset.mp hv) with h | h
      · exact h.1.ne
      · exact h.1.ne'
  obtain ⟨res, r1, r2, -, -, r5, -⟩ := Proofs.call_of_signs hf ho ho' (post := post) (pp := pp) (thr := thr) hs hb hoc.1 hoc.2.1 (fun v hv => by
    simp only [Finset.mem_filter, List.mem_toFinset, hv, true_and]
    rcases hne v hv with h | h
    · exact ⟨fun _ => h.1, fun _ => h.2⟩
    · exact ⟨fun g => absurd g (not_le.mpr h.2), fun g => absurd g (not_lt.mpr h.1.le)⟩)
  refine ⟨res, r1, r2, ?_⟩
  have e : res.post.sum.active.toFinset = t.used.toFinset.filter (fun v => b v < 0) := by
    ext v; rw [List.mem_toFinset, r5]
  rw [e]; exact hoc

end

end

/-- The formula `(x0 ∨ x1) ∧ (¬x1 ∨ x2) ∧ (¬x2 ∨ ¬x3)`: a path. -/
def pathFormula : KsatTables :=
  ⟨[0, 1, 2, 3], [[(0, 1), (1, 1)], [(1, -1), (2, 1)], [(2, -1), (3, -1)]],
    [[(0, 1)], [(0, 1), (1, -1)], [(1, 1), (2, -1)], [(2, -1)]]⟩

/-- The costs of the example: setting variable 0 is expensive, setting 3 pays off. -/
def pathCost (v : ℕ) : ℚ := [5, 1, 1, -1].getD v 0

theorem pathFormula_ok : KFormula 4 2 pathFormula.clauses pathFormula.used pathFormula.conns := by
  refine ⟨by decide, ⟨fun v c s => ?_, by decide, by decide⟩, rfl, fun v => ?_⟩
  · by_cases hv : v < 4
    · by_cases hc : c < 3
      · interval_cases v <;> interval_cases c <;> simp [pathFormula]
      · have h1 : pathFormula.clauses.getD c [] = [] := by
          rw [List.getD_eq_getElem?_getD, List.getElem?_eq_none (by show 3 ≤ c; omega)]; rfl
        rw [h1]
        interval_cases v <;> simp [pathFormula] <;> omega
    · have h1 : pathFormula.conns.getD v [] = [] := by
        rw [List.getD_eq_getElem?_getD, List.getElem?_eq_none (by show 4 ≤ v; omega)]; rfl
      rw [h1]
      by_cases hc : c < 3
      · interval_cases c <;> simp [pathFormula] <;> omega
      · have h1 : pathFormula.clauses.getD c [] = [] := by
          rw [List.getD_eq_getElem?_getD, List.getElem?_eq_none (by show 3 ≤ c; omega)]; rfl
        rw [h1]; simp
  · by_cases hv : v < 4
    · interval_cases v <;> decide
    · have h1 : pathFormula.conns.getD v [] = [] := by
        rw [List.getD_eq_getElem?_getD, List.getElem?_eq_none (by show 4 ≤ v; omega)]; rfl
      rw [h1]; simp

theorem pathFormula_acyclic : (incidence pathFormula.clauses.length (varsOf pathFormula.clauses)).IsAcyclic := by
  refine (C52_forest_iff (by decide)).mpr ⟨[0, 1, 2], List.Perm.refl _, ⟨1, by decide, by decide⟩, ⟨2, by decide, by decide⟩,
    ⟨2, by decide, by decide⟩, trivial⟩

/-- The cheapest satisfying assignment of the example sets 1 and 2, and is cheaper than the others by 2. -/
theorem pathFormula_best : CheapestBy pathFormula.used.toFinset (Satisfies pathFormula.clauses) pathCost 2 {1, 2} := by
  refine ⟨by decide, by unfold Satisfies; decide, ?_⟩
  have h : ∀ T ∈ pathFormula.used.toFinset.powerset, violated pathFormula.clauses (fun v => decide (v ∈ T)) = [] → T ≠ {1, 2} →
      cost pathCost {1, 2} + 2 ≤ cost pathCost T := by
    decide +kernel
  exact fun T hT => h T (Finset.mem_powerset.mpr hT)

/-- Non-vacuity: the hypotheses hold of the example, and after seven iterations the beliefs are these exact differences. -/
example : KFormula 4 2 pathFormula.clauses pathFormula.used pathFormula.conns ∧
    (incidence pathFormula.clauses.length (varsOf pathFormula.clauses)).IsAcyclic ∧
    CheapestBy pathFormula.used.toFinset (Satisfies pathFormula.clauses) pathCost 2 {1, 2} ∧
    ksatBeliefs 7 false 0 (ksatObject 4 2 pathFormula (listOf 4 (fun v => fin (pathCost v)))) =
      some [fin 2, fin (-2), fin (-2), fin 2] :=
  ⟨pathFormula_ok, pathFormula_acyclic, pathFormula_best, by decide +kernel⟩

end Verif.Properties
