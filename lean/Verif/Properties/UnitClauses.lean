import Verif.Proofs.UnitClauses

/-! # C91: formulas whose clauses have one literal are solved -/

namespace Verif.Properties
open Verif Num Spec Model

section
variable {n : ℕ} {t : KsatTables} (hf : KFormula n 1 t.clauses t.used t.conns) (w : ℕ → ℚ) {flag : Bool} {alpha : ℚ}
  (ha : flag = true → 0 ≤ alpha ∧ alpha < 1) (K : ℕ)
include hf ha

/-- C91, beliefs: after at least one iteration, with or without damping, the belief of a variable is minus infinity if it occurs only
positively, plus infinity if it occurs only negatively, not a number if it occurs with both signs, and its cost if it does not occur. -/
theorem C91_beliefs : ksatBeliefs (K + 1) flag alpha (ksatObject n 1 t (listOf n (fun v => fin (w v)))) = some (listOf n (fun v =>
    if [(v, 1)] ∈ t.clauses then if [(v, -1)] ∈ t.clauses then nan else ninf
    else if [(v, -1)] ∈ t.clauses then pinf else if v ∈ t.used then fin (w v) else 0)) := by
  rw [Proofs.unit_beliefs hf w ha K]
  congr 2
  funext v
  rw [Proofs.unit_sum hf]
  split_ifs
  all_goals first | rfl | (show fin (0 + w v) = fin (w v); rw [zero_add]) | (show fin (0 + 0) = fin 0; rw [zero_add])

/-- C91, whole call: for all finite costs and thresholds, all numbers of iterations but zero, all damping rates below one, with and without
post-processing, the reported flag tells whether the formula is satisfiable.  If it is, the decisions need no post-processing, variables are
decided as their clauses demand, and variables without a clause by their cost. -/
theorem C91_call (thr : ℚ) {order order' : List ℕ → List ℕ} (ho : ∀ l, (order l).Perm l)
    (ho' : ∀ l, (order' l).Perm l) (post : Bool) (pp : ℕ) {sol : List Bool} (hs : sol = [] ∨ sol.length = n) :
    ∃ res, ksatCall n 1 (K + 1) flag alpha (fin thr) order order' post pp sol t (listOf n (fun v => fin (w v))) = some res ∧
      (res.post.flag = true ↔ ∃ S, Satisfies t.clauses S) ∧
      ((∃ S, Satisfies t.clauses S) → res.requiredPP = false ∧
        (∀ v, v ∈ res.post.sum.active ↔ v ∈ t.used ∧ ([(v, 1)] ∈ t.clauses ∨ [(v, -1)] ∉ t.clauses ∧ w v ≤ thr)) ∧
        (∀ v, v ∈ res.post.sum.inactive ↔ v ∈ t.used ∧ ([(v, -1)] ∈ t.clauses ∨ [(v, 1)] ∉ t.clauses ∧ thr < w v))) := by
  have hb := C91_beliefs hf w ha K
  set B : ℕ → Num := fun v => if [(v, 1)] ∈ t.clauses then if [(v, -1)] ∈ t.clauses then nan else ninf
    else if [(v, -1)] ∈ t.clauses then pinf else if v ∈ t.used then fin (w v) else 0 with hB
  have hl : (listOf n B).length = n := by simp [listOf]
  obtain ⟨res, h1, -, h3, h4, -⟩ := Proofs.call_of_beliefs hf ho ho' (thr := fin thr) (post := post) (pp := pp) hs hb hl
  obtain ⟨st, g1, g2, g3, g4, g5, g6, g7⟩ := C30_reported hf.tables ho ho' post pp (fin thr) hl
  rw [h3] at g1
  obtain rfl := Option.some.inj g1
  have hone : ∀ c < t.clauses.length, ∃ l, t.clauses.getD c [] = [l] ∧ [l] ∈ t.clauses := by
    intro c hc
    have hm := Proofs.getD_mem hf hc
    obtain ⟨l, e⟩ := List.length_eq_one_iff.mp (hf.clause _ hm).1
    exact ⟨l, e, by rwa [e] at hm⟩
  have hval : ∀ v ∈ t.used, asgn (hardDecisions (fin thr) (listOf n B)) v = !(Num.lt (fin thr) (B v)) := by
    intro v hv
    have hvn := hf.tables.used_lt v hv
    simp only [asgn, hardDecisions, listOf, List.map_map, List.getD_eq_getElem?_getD, List.getElem?_map, List.getElem?_range hvn,
      Option.map_some, Option.getD_some, Function.comp]
    cases Num.lt (fin thr) (B v) <;> rfl
  have hsat : (∃ S, Satisfies t.clauses S) → ∀ v, ¬ ([(v, 1)] ∈ t.clauses ∧ [(v, -1)] ∈ t.clauses) := by
    rintro ⟨S, hS⟩ v ⟨a, b⟩
    have hlit : ∀ l, [l] ∈ t.clauses → LitTrue (fun v => decide (v ∈ S)) l := by
      intro l hm
      obtain ⟨c, hc, e⟩ := List.getElem_of_mem hm
      by_contra hn
      have : c ∈ violated t.clauses (fun v => decide (v ∈ S)) := by
        simp only [violated, List.mem_filter, List.mem_range, decide_eq_true_eq]
        refine ⟨hc, ?_⟩
        rw [List.getD_eq_getElem?_getD, List.getElem?_eq_getElem hc, Option.getD_some, e]
        simpa using hn
      rw [show violated t.clauses (fun v => decide (v ∈ S)) = [] from hS] at this
      simp at this
    have h1 := hlit _ a
    have h2 := hlit _ b
    simp only [LitTrue, decide_eq_true_eq, decide_eq_false_iff_not] at h1 h2
    rcases h1 with h1 | h1 <;> rcases h2 with h2 | h2
    · exact absurd h2.1 (by decide)
    · exact h2.2 h1.2
    · exact absurd h1.1 (by decide)
    · exact absurd h1.1 (by decide)
  have hviol : (∃ S, Satisfies t.clauses S) → violated t.clauses (asgn (hardDecisions (fin thr) (listOf n B))) = [] := by
    intro h
    have hno := hsat h
    refine List.filter_eq_nil_iff.mpr fun c hc => ?_
    obtain ⟨l, e, hm⟩ := hone c (List.mem_range.mp hc)
    have hu := hf.tables.used_mem _ hm l (by simp)
    have hsg := (hf.clause _ hm).2.2 l (by simp)
    simp only [e, List.mem_singleton, forall_eq, decide_eq_true_eq, not_not, LitTrue, hval _ hu]
    obtain ⟨v, s⟩ := l
    rcases hsg with rfl | rfl
    · left
      have := hno v
      simp only [hB, hm, if_true, if_neg (fun x => this ⟨hm, x⟩)]
      exact ⟨trivial, rfl⟩
    · right
      have := hno v
      simp only [hB, hm, if_true, if_neg (fun x => this ⟨x, hm⟩)]
      exact ⟨trivial, rfl⟩
  refine ⟨res, h1, ⟨fun h => ?_, fun h => ?_⟩, fun h => ?_⟩
  · refine ⟨t.used.toFinset.filter (fun v => asgn res.post.hard v = true), ?_⟩
    rw [Satisfies, ← g3.mp h]
    refine Proofs.violated_congr hf fun v hv => ?_
    simp [hv]
  · have := hviol h
    rw [g3, g7 this]
    exact this
  · have hno := hsat h
    have hv := hviol h
    rw [g7 hv] at g5 g6
    refine ⟨?_, fun v => ?_, fun v => ?_⟩
    · rcases hr : res.requiredPP with _ | _
      · rfl
      · exact absurd hv (h4.mp hr).2
    · rw [g5]
      refine and_congr_right fun hu => ?_
      rw [hval v hu]
      by_cases a : [(v, 1)] ∈ t.clauses <;> by_cases b : [(v, -1)] ∈ t.clauses
      · exact absurd ⟨a, b⟩ (hno v)
      · simp [hB, a, b, Num.lt]
      · simp [hB, a, b, Num.lt]
      · simp [hB, a, b, hu, Num.lt]
    · rw [g6]
      refine and_congr_right fun hu => ?_
      rw [hval v hu]
      by_cases a : [(v, 1)] ∈ t.clauses <;> by_cases b : [(v, -1)] ∈ t.clauses
      · exact absurd ⟨a, b⟩ (hno v)
      · simp [hB, a, b, Num.lt]
      · simp [hB, a, b, Num.lt]
      · simp [hB, a, b, hu, Num.lt]

end

/-- A satisfiable formula: variable 0 is false, variable 1 is true (said twice), variable 2 does not occur.  The tables fit, and the costs
prefer the opposite values. -/
def unitTables : KsatTables := ⟨[0, 1, 2], [[(0, -1)], [(1, 1)], [(1, 1)]], [[(0, -1)], [(1, 1), (2, 1)], []]⟩

example : KFormula 3 1 unitTables.clauses unitTables.used unitTables.conns := by
  refine ⟨by decide, ⟨fun v c s => ?_, by decide, by decide⟩, by decide, fun v => ?_⟩
  · match v, c with
    | 0, 0 => simp [unitTables]
    | 0, 1 => simp [unitTables]
    | 0, 2 => simp [unitTables]
    | 0, c + 3 => simp [unitTables]
    | 1, 0 => simp [unitTables]
    | 1, 1 => simp [unitTables]
    | 1, 2 => simp [unitTables]
    | 1, c + 3 => simp [unitTables]
    | v + 2, 0 => rcases v with _ | v <;> simp [unitTables]
    | v + 2, 1 => rcases v with _ | v <;> simp [unitTables]
    | v + 2, 2 => rcases v with _ | v <;> simp [unitTables]
    | v + 2, c + 3 => rcases v with _ | v <;> simp [unitTables]
  · match v with
    | 0 => decide
    | 1 => decide
    | 2 => decide
    | v + 3 => simp [unitTables]

example : (ksatCall 3 1 2 true (1 / 2) 0 id id true 1 [] unitTables [fin (-5), fin 7, fin 3]).map
    (fun r => (r.beliefs, r.post.flag, r.requiredPP, r.post.sum.active)) = some ([pinf, ninf, fin 3], true, false, [1]) := by
  decide +kernel

/-- An unsatisfiable formula is reported as such, also after post-processing. -/
example : (ksatCall 2 1 3 false 0 0 id id true 2 [] ⟨[0, 1], [[(0, -1)], [(0, 1)], [(1, -1)]], [[(0, -1), (1, 1)], [(2, -1)]]⟩
    [fin 1, fin (-1)]).map (fun r => (r.beliefs, r.post.flag)) = some ([nan, pinf], false) := by
  decide +kernel

/-- The bound on the rate is needed: with rate one infinity is multiplied by zero, all beliefs are NaN, variable 0 is decided true and the
satisfiable formula is reported as unsatisfied. -/
example : (ksatCall 3 1 2 true 1 0 id id false 0 [] unitTables [fin (-5), fin 7, fin 3]).map
    (fun r => (r.beliefs, r.post.flag, r.post.sum.unsat)) = some ([nan, nan, fin 3], false, [0]) := by
  decide +kernel

end Verif.Properties
