import Verif.Proofs.KsatMetrics
import Verif.Properties.Autarky
import Verif.Properties.KsatGen

/-! # C81: random costs around a planted assignment -/

namespace Verif.Properties
open Verif Num Spec Model

/-- C81, the generated costs.  With a planted assignment for all variables, type 1 gives half the variance on the side of the planted value plus
noise.  With a planted assignment or none, type 0 gives half the variance with the drawn sign plus noise, type 2 gives the noise, and every
other type except 1 gives zeros.  Type 1 without a planted assignment is an error. -/
theorem C81_metrics {n : ℕ} {sol : List Bool} (var : ℚ) (sgn : ℕ → Bool) (noise : ℕ → ℚ) :
    (sol.length = n → n ≠ 0 → ∃ a, generateMetrics n 1 var sol sgn noise = some a ∧ a.toList = listOf n (fun v => fin (plantedCost var sol noise v))) ∧
    (sol.length = n ∨ sol = [] → (∃ a, generateMetrics n 0 var sol sgn noise = some a ∧
        a.toList = listOf n (fun v => fin ((if sgn v then var / 2 else -(var / 2)) + noise v))) ∧
      (∃ a, generateMetrics n 2 var sol sgn noise = some a ∧ a.toList = listOf n (fun v => fin (noise v))) ∧
      ∀ type, type ≠ 0 → type ≠ 1 → type ≠ 2 → ∃ a, generateMetrics n type var sol sgn noise = some a ∧ a.toList = listOf n (fun _ => fin 0)) ∧
    generateMetrics n 1 var [] sgn noise = none := by
  refine ⟨fun hs hn => ?_, fun hs => ?_, rfl⟩
  · subst hs
    unfold generateMetrics
    rw [if_pos hn]
    refine Proofs.metrics_loop fun i hi a => ?_
    rw [List.getElem?_eq_getElem hi]
    simp only [Option.bind_eq_bind, Option.bind_some, drawMetric, metricMean, if_true]
    unfold plantedCost asgn
    rw [List.getD_eq_getElem?_getD, List.getElem?_eq_getElem hi, Option.getD_some]
    congr 3
    split <;> ring
  · have key : ∀ type (q : ℕ → Option ℚ), type ≠ 1 → (∀ i b, metricMean type var b (sgn i) = q i) →
        generateMetrics n type var sol sgn noise = loopUp n (fun i a => match q i with
          | some m => a.wr i (fin (m + noise i))
          | none => some a) (Arr.fill n 0) := by
      intro type q ht hq
      unfold generateMetrics
      by_cases h0 : sol.length ≠ 0
      · rw [if_pos h0]
        have hs : sol.length = n := hs.resolve_right (fun e => h0 (by rw [e]; rfl))
        subst hs
        refine Proofs.loopUp_congr fun i hi a => ?_
        rw [List.getElem?_eq_getElem hi]
        simp only [Option.bind_eq_bind, Option.bind_some, drawMetric, hq]
        cases q i <;> rfl
      · rw [if_neg h0, if_neg ht]
        refine Proofs.loopUp_congr fun i hi a => ?_
        simp only [drawMetric, hq]
        cases q i <;> rfl
    refine ⟨?_, ?_, fun type h0 h1 h2 => ?_⟩
    · rw [key 0 (fun i => some (if sgn i then var / 2 else -(var / 2))) (by decide) (fun i b => by
        simp only [metricMean]; norm_num; split <;> ring)]
      exact Proofs.metrics_loop fun i _ a => rfl
    · rw [key 2 (fun i => some 0) (by decide) (fun i b => by simp only [metricMean]; norm_num)]
      exact Proofs.metrics_loop fun i _ a => by simp
    · rw [key type (fun i => none) h1 (fun i b => by simp [metricMean, h0, h1, h2])]
      exact ⟨_, Proofs.metrics_skip fun i _ a => rfl, rfl⟩

section
variable {n k : ℕ} (hk : 2 ≤ k) {flag : Bool} {alpha : ℚ} (ha : flag = true → 0 ≤ alpha ∧ alpha ≤ 1) {order order' : List ℕ → List ℕ}
  (ho : ∀ l, (order l).Perm l) (ho' : ∀ l, (order' l).Perm l) (post : Bool) (pp K : ℕ) {sol : List Bool} (hsol : sol.length = n) (hn : n ≠ 0)
  {var thr : ℚ} (sgn : ℕ → Bool) {noise : ℕ → ℚ}
include hk ha ho ho' hsol hn

/-- C81, tests from files with new costs of type 1: if every clause has a literal that is true in the planted assignment and whose variable is clear
of noise, the call satisfies the formula after any number of iterations without post-processing, and all clear variables get their planted
value. -/
theorem C81_file {t : KsatTables} (hf : KFormula n k t.clauses t.used t.conns) (cost : List Num)
    (hclear : ∀ cl ∈ t.clauses, ∃ l ∈ cl, LitTrue (asgn sol) l ∧ Clear var thr noise l.1) : ∃ res,
    ksatFileTest n k true 1 var sgn noise (K + 1) flag alpha (fin thr) order order' post pp sol t cost = some res ∧
    res.post.flag = true ∧ res.post.sum.unsat = [] ∧ res.requiredPP = false ∧
    ∀ v ∈ t.used, Clear var thr noise v → (v ∈ res.post.sum.active ↔ asgn sol v = true) ∧ (v ∈ res.post.sum.inactive ↔ asgn sol v = false) := by
  classical
  obtain ⟨a, h1, h2⟩ := (C81_metrics (sol := sol) var sgn noise).1 hsol hn
  set A := (Finset.range n).filter (fun v => Clear var thr noise v) with hAdef
  have hmem : ∀ v ∈ t.used, v ∈ A ↔ Clear var thr noise v := fun v hv => by
    rw [hAdef, Finset.mem_filter, Finset.mem_range]
    exact and_iff_right (hf.tables.used_lt v hv)
  have hside : ∀ v ∈ A, Clear var thr noise v := fun v hv => (Finset.mem_filter.mp hv).2
  have hit : ∀ cl ∈ t.clauses, ∃ l ∈ cl, l.1 ∈ A ∧ LitTrue (asgn sol) l := by
    intro cl hcl
    obtain ⟨l, hl, g1, g2⟩ := hclear cl hcl
    exact ⟨l, hl, (hmem _ (hf.tables.used_mem cl hcl l hl)).mpr g2, g1⟩
  obtain ⟨res, r1, r2, r3, r4, r5⟩ := C80_satisfies hf hk (w := plantedCost var sol noise) ha (A := A) (σ := asgn sol)
    (fun cl hcl _ => hit cl hcl)
    (fun v hv => ⟨fun e => ((Proofs.clear_side (hside v hv)).1 e).1, fun e => ((Proofs.clear_side (hside v hv)).2 e).1⟩) K ho ho' pp
    (sol := sol) (Or.inr hsol) (thr := thr)
    (fun v hv => ⟨fun e => ((Proofs.clear_side (hside v hv)).1 e).2, fun e => ((Proofs.clear_side (hside v hv)).2 e).2⟩)
    (fun cl hcl => by obtain ⟨l, hl, g, -⟩ := hit cl hcl; exact ⟨l, hl, g⟩) post
  refine ⟨res, ?_, r2, r3, r4, fun v hv hc => r5 v hv ((hmem v hv).mpr hc)⟩
  unfold ksatFileTest
  simp only [if_true, h1, Option.map_some, Option.bind_eq_bind, Option.bind_some, h2]
  exact r1

/-- C81, random tests of type 1: if the noise of all variables is small against the variance, the whole test succeeds for all outcomes of the other
draws: the generated formula is satisfied without post-processing by exactly the planted values, and the reported similarity is 100. -/
theorem C81_random {m : ℕ} {order0 : List ℕ → List ℕ} (ho0 : ∀ l, (order0 l).Perm l) {first : ℕ → ℕ} {pick : ℕ → ℕ → ℕ} {sign : ℕ → ℕ → Bool}
    (hf : ∀ c < m, first c < n) (hp : ∀ c < m, ∀ j < k - 1, pick c j < n - 1 - j) (hclear : ∀ v < n, Clear var thr noise v) : ∃ t res,
    ksatRandomTest n m k 1 var sol sgn noise order0 first pick sign (K + 1) flag alpha (fin thr) order order' post pp = some (t, res) ∧
    res.post.flag = true ∧ res.post.sum.unsat = [] ∧ res.requiredPP = false ∧
    (∀ v, v ∈ res.post.sum.active ↔ v ∈ t.used ∧ asgn sol v = true) ∧ (∀ v, v ∈ res.post.sum.inactive ↔ v ∈ t.used ∧ asgn sol v = false) ∧
    res.similarity = some 100 := by
  obtain ⟨a, h1, h2⟩ := (C81_metrics (sol := sol) var sgn noise).1 hsol hn
  obtain ⟨t, g0, g1, g2, -, g4, g5, g6, -⟩ := C29_generated (sign := sign) (show 1 ≤ k by omega) hsol hf hp ho0
  have hkf : KFormula n k t.clauses t.used t.conns :=
    ⟨fun cl hcl => ⟨(g2 cl hcl).1, (g2 cl hcl).2.1, fun l hl => ((g2 cl hcl).2.2 l hl).2⟩, g4, g5, g6⟩
  have hA : Autarky t.clauses (Finset.range n) (asgn sol) := by
    intro cl hcl _
    obtain ⟨c, hc, rfl⟩ := List.getElem_of_mem hcl
    simp only [violated, List.filter_eq_nil_iff, List.mem_range, decide_eq_true_eq] at g1
    have := g1 c hc
    push Not at this
    rw [List.getD_eq_getElem?_getD, List.getElem?_eq_getElem hc, Option.getD_some] at this
    obtain ⟨l, hl, hlt⟩ := this
    exact ⟨l, hl, Finset.mem_range.mpr ((g2 _ hcl).2.2 l hl).1, hlt⟩
  have hside : ∀ v ∈ Finset.range n, Clear var thr noise v := fun v hv => hclear v (Finset.mem_range.mp hv)
  obtain ⟨res, r1, r2, r3, r4, r5, r6, -⟩ := C80_solves hkf hk (w := plantedCost var sol noise) ha hA
    (fun v hv => ⟨fun e => ((Proofs.clear_side (hside v hv)).1 e).1, fun e => ((Proofs.clear_side (hside v hv)).2 e).1⟩) K ho ho' pp
    (sol := sol) (Or.inr hsol) (thr := thr)
    (fun v hv => ⟨fun e => ((Proofs.clear_side (hside v hv)).1 e).2, fun e => ((Proofs.clear_side (hside v hv)).2 e).2⟩)
    (fun v hv => Finset.mem_range.mpr (g4.used_lt v hv)) post
  obtain ⟨res', b', c1, c2, -, -, c2'', c2', c3, c4, c5, c6, c7, c8⟩ :=
    C53_call hkf hk (plantedCost var sol noise) flag alpha thr ho ho' post pp (sol := sol) (Or.inr hsol) K
  rw [r1] at c1
  obtain rfl := Option.some.inj c1
  refine ⟨t, res, ?_, r2, r3, r4, r5, r6, ?_⟩
  · unfold ksatRandomTest
    simp only [h1, g0, h2, Option.bind_eq_bind, Option.bind_some, r1]
  · rcases hq : res.similarity with _ | q
    · rcases c7.mp hq with e | e
      · rw [e] at hsol; exact absurd hsol.symm hn
      · exact absurd (c2''.mp r2) e
    · rw [((c8 q hq).2.2.mpr fun v hv => ?_)]
      have a1 := (c3 v).symm.trans (r5 v)
      simp only [hv, true_and] at a1
      rcases e : asgn sol v with _ | _
      · rw [e] at a1; simpa using a1
      · rw [e] at a1; simpa using a1

end

set_option synthInstance.maxSize 1000 in
set_option synthInstance.maxHeartbeats 100000 in
/-- Non-vacuity of C81: the draws of the example of C29 with variance 10, noise between -3 and 4 and the default threshold satisfy the hypotheses, and after
five damped iterations the run ends with the planted values. -/
example : (∀ v < 5, Clear 10 (-1 / 10000) (fun v => [1, -3, 4, 2, 0].getD v 0) v) ∧
    (generateMetrics 5 1 10 [true, false, true, false, true] (fun _ => true) (fun v => [1, -3, 4, 2, 0].getD v 0)).map Arr.toList =
      some [fin (-4), fin 2, fin (-1), fin 7, fin (-5)] ∧
    (ksatRandomTest 5 4 2 1 10 [true, false, true, false, true] (fun _ => true) (fun v => [1, -3, 4, 2, 0].getD v 0) id (fun c => [0, 3, 1, 4].getD c 0)
      (fun c _ => [0, 1, 0, 2].getD c 0) (fun c _ => [false, true, true, false].getD c false) 5 true (1 / 2) (fin (-1 / 10000)) id id true 3).map
        (fun p => (p.1.clauses, p.2.beliefs, p.2.post.sum.active, p.2.post.sum.inactive, p.2.similarity)) =
      some ([[(0, 1), (1, -1)], [(3, -1), (1, 1)], [(4, 1), (2, -1)]], [fin (-4), fin 2, fin (-1), fin (143 / 16), fin (-191 / 32)], [0, 4, 2], [3, 1], some 100) :=
  ⟨by unfold Clear; decide +kernel, by decide +kernel, by decide +kernel⟩

/-- Non-vacuity of C81 for files: in the formula of the example program, with variable 3 planted false, only the noise of variable 3 has to be small; all other
costs may point to the wrong values. -/
example (noise : ℕ → ℚ) (h3 : |noise 3| < 4) (sgn : ℕ → Bool) (cost : List Num) (K : ℕ) {order order' : List ℕ → List ℕ} (ho : ∀ l, (order l).Perm l)
    (ho' : ∀ l, (order' l).Perm l) : ∃ res,
    ksatFileTest 5 3 true 1 10 sgn noise (K + 1) true (1 / 2) (fin (-1 / 10000)) order order' true 3 [true, true, false, false, true] demoFormula cost =
      some res ∧ res.post.flag = true ∧ 3 ∈ res.post.sum.inactive := by
  have hc : Clear 10 (-1 / 10000) noise 3 := by
    unfold Clear
    rw [show |(-1 / 10000 : ℚ)| = 1 / 10000 by norm_num [abs_div]]
    linarith
  obtain ⟨res, r1, r2, -, -, r5⟩ := C81_file (n := 5) (k := 3) (by omega) (flag := true) (alpha := 1 / 2) (fun _ => by norm_num) ho ho' true 3 K
    (sol := [true, true, false, false, true]) rfl (by omega) (var := 10) (thr := -1 / 10000) sgn (noise := noise) (t := demoFormula)
    (Proofs.kformula_of_checks (by decide) rfl (by decide) (by decide) (by decide) (by decide) (by decide)) cost (fun cl hcl => by
      have : cl = [(4, -1), (2, -1), (3, -1)] ∨ cl = [(2, 1), (0, 1), (3, -1)] := by simpa [demoFormula] using hcl
      rcases this with rfl | rfl <;> exact ⟨(3, -1), by simp, by decide, hc⟩)
  exact ⟨res, r1, r2, (r5 3 (by decide) hc).2.mpr rfl⟩

end Verif.Properties
