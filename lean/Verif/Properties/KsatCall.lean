import Verif.Proofs.KsatCall
import Verif.Properties.KsatGen

/-! C53: a whole k-SAT call. -/

namespace Verif.Properties
open Verif Num Spec Model

section
variable {n k : ℕ} {t : KsatTables} (hf : KFormula n k t.clauses t.used t.conns) (hk : 2 ≤ k) (w : ℕ → ℚ) (flag : Bool) (alpha thr : ℚ)
  {order order' : List ℕ → List ℕ} (ho : ∀ l, (order l).Perm l) (ho' : ∀ l, (order' l).Perm l) (post : Bool) (pp : ℕ)
  {sol : List Bool} (hs : sol = [] ∨ sol.length = n) (K : ℕ)
include hf hk ho ho' hs

/-- C53.  For every well-formed formula, all finite costs and all settings the call returns.  The beliefs are the sums of the messages
of the textbook algorithm on the formula and the costs, damped as specified; the reported flag, violated clauses and active and
inactive variables are those of the final decisions; without post-processing, or when nothing was violated, a used
variable is decided true exactly when its belief is at most the threshold; post-processing is reported as required exactly
when it is switched on and these first decisions violate a clause; the similarity is computed exactly when there is a
planted assignment and no clause is violated, lies between 0 and 100, and is 100 exactly when the decisions equal the
planted assignment on the used variables. -/
theorem C53_call : ∃ (res : KsatResult) (b : ℕ → ℚ), ksatCall n k (K + 1) flag alpha (fin thr) order order' post pp sol t (listOf n (fun v => fin (w v))) = some res ∧
    res.beliefs = listOf n (fun v => fin (b v)) ∧
    (∃ x r, IsKsatTrace t.clauses.length k n ⟨t.clauses.length, k, fun c s => ((t.clauses.getD c []).getD s (0, 0)).1⟩
        ⟨t.clauses.length, k, fun c s => ((t.clauses.getD c []).getD s (0, 0)).2⟩ w flag alpha
        (fun c v => if v ∈ varsOf t.clauses c then w v else 0) x r ∧
      ∀ v ∈ t.used, b v = w v + ∑ c ∈ (Finset.range t.clauses.length).filter (fun c => v ∈ varsOf t.clauses c),
        damped flag alpha (fun i => r i c v) K) ∧
    res.post.hard.length = n ∧
    (res.post.flag = true ↔ violated t.clauses (asgn res.post.hard) = []) ∧
    res.post.sum.unsat = violated t.clauses (asgn res.post.hard) ∧
    (∀ v, v ∈ res.post.sum.active ↔ v ∈ t.used ∧ asgn res.post.hard v = true) ∧
    (∀ v, v ∈ res.post.sum.inactive ↔ v ∈ t.used ∧ asgn res.post.hard v = false) ∧
    (res.requiredPP = true ↔ post = true ∧ violated t.clauses (fun v => decide (b v ≤ thr)) ≠ []) ∧
    (res.requiredPP = false → ∀ v ∈ t.used, asgn res.post.hard v = decide (b v ≤ thr)) ∧
    (res.similarity = none ↔ sol = [] ∨ violated t.clauses (asgn res.post.hard) ≠ []) ∧
    ∀ q, res.similarity = some q → 0 ≤ q ∧ q ≤ 100 ∧ (q = 100 ↔ ∀ v ∈ t.used, asgn res.post.hard v = asgn sol v) := by
  obtain ⟨x, r, htr, hb⟩ := Proofs.call_trace hf hk w flag alpha
  have hb := hb K
  set b : ℕ → ℚ := fun v => (∑ c ∈ occurrences t.clauses.length k ⟨t.clauses.length, k, Proofs.litVar t⟩ v,
          damped flag alpha (fun i => r i c v) K) + if v ∈ t.used then w v else 0 with hbdef
  have hl : (listOf n (fun v => fin (b v))).length = n := by simp [listOf]
  obtain ⟨res, h1, h2, h3, h4, h5⟩ := Proofs.call_of_beliefs hf ho ho' (thr := fin thr) (post := post) (pp := pp) hs hb hl
  obtain ⟨st, g1, g2, g3, g4, g5, g6, g7⟩ := C30_reported hf.tables ho ho' post pp (fin thr) hl
  have hdp := h3
  rw [h3] at g1
  obtain rfl := Option.some.inj g1
  have hhard : ∀ v ∈ t.used, asgn (hardDecisions (fin thr) (listOf n (fun v => fin (b v)))) v = decide (b v ≤ thr) :=
    fun v hv => Proofs.hard_val hf hv
  have hviol : violated t.clauses (asgn (hardDecisions (fin thr) (listOf n (fun v => fin (b v))))) =
      violated t.clauses (fun v => decide (b v ≤ thr)) := Proofs.violated_congr hf hhard
  have hvars : ∀ c < t.clauses.length, ∀ v, (∃ s < k, Proofs.litVar t c s = v) ↔ v ∈ varsOf t.clauses c := by
    intro c hc v
    rw [← Proofs.clauseVars_eq hf hc]
    simp [clauseVars]
  refine ⟨res, b, h1, h2, ⟨x, r, ⟨fun c hc v hv => ?_, htr.clause, htr.var⟩, fun v hv => ?_⟩, g2, g3, g4, g5, g6, ?_, ?_, ?_, ?_⟩
  · rw [htr.init c hc v hv]
    simp only [hvars c hc v]
  · simp only [hbdef, if_pos hv]
    rw [add_comm]
    congr 1
    refine Finset.sum_congr (Finset.filter_congr fun c hc => ?_) fun _ _ => rfl
    rw [Proofs.clauseVars_eq hf (Finset.mem_range.mp hc)]
  · rw [h4, hviol]
  · intro hr v hv
    have hne : ¬ (post = true ∧ violated t.clauses (asgn (hardDecisions (fin thr) (listOf n (fun v => fin (b v))))) ≠ []) := by
      intro h
      rw [h4.mpr h] at hr
      cases hr
    have hh : res.post.hard = hardDecisions (fin thr) (listOf n (fun v => fin (b v))) := by
      by_cases hp : post = true
      · exact g7 (by by_contra h; exact hne ⟨hp, h⟩)
      · simp only [decideAndPost] at hdp
        obtain ⟨s, hs1, hdp⟩ := Option.bind_eq_some_iff.mp hdp
        rw [if_neg (fun h => hp h.2)] at hdp
        rw [← Option.some.inj hdp]
    rw [hh, hhard v hv]
  · rw [← g4]
    unfold averageSimilarity at h5
    split at h5
    · rename_i hc
      obtain ⟨a, ha, h5⟩ := Option.bind_eq_some_iff.mp h5
      obtain ⟨c, hcc, h5⟩ := Option.bind_eq_some_iff.mp h5
      rw [← Option.some.inj h5]
      simp only [reduceCtorEq, false_iff, not_or, not_not]
      exact ⟨fun e => hc.1 (by rw [e]; rfl), List.length_eq_zero_iff.mp hc.2⟩
    · rename_i hc
      rw [← Option.some.inj h5]
      simp only [true_iff]
      by_contra hn
      push Not at hn
      exact hc ⟨fun e => hn.1 (List.length_eq_zero_iff.mp e), by rw [hn.2]; rfl⟩
  · intro q hq
    unfold averageSimilarity at h5
    split at h5
    · rename_i hc
      have hn : sol.length = n := by
        rcases hs with rfl | h
        · exact absurd rfl hc.1
        · exact h
      obtain ⟨a, ha, ha'⟩ := Proofs.usedWith_some hf hn true
      obtain ⟨c, hcc, hc'⟩ := Proofs.usedWith_some hf hn false
      simp only [ha, hcc, Option.bind_eq_bind, Option.bind_some, Option.some.injEq] at h5
      rw [hq] at h5
      obtain ⟨s1, s2, -, s4, -⟩ := C35_similarity res.post.sum.active.toFinset a.toFinset
      obtain ⟨z1, z2, -, z4, -⟩ := C35_similarity res.post.sum.inactive.toFinset c.toFinset
      have h5 := Option.some.inj h5
      refine ⟨by rw [← h5]; linarith, by rw [← h5]; linarith, ?_⟩
      have hiff : q = 100 ↔ res.post.sum.active.toFinset = a.toFinset ∧ res.post.sum.inactive.toFinset = c.toFinset := by
        rw [← s4, ← z4, ← h5]
        constructor
        · intro h
          constructor <;> linarith
        · rintro ⟨e1, e2⟩
          rw [e1, e2]; norm_num
      rw [hiff]
      constructor
      · rintro ⟨e1, -⟩ v hv
        have : v ∈ res.post.sum.active ↔ v ∈ a := by rw [← List.mem_toFinset, e1, List.mem_toFinset]
        rw [g5, ha'] at this
        have h6 : asgn res.post.hard v = true ↔ asgn sol v = true := by
          constructor
          · intro h; exact (this.mp ⟨hv, h⟩).2
          · intro h; exact (this.mpr ⟨hv, h⟩).2
        exact Bool.eq_iff_iff.mpr h6
      · intro h
        constructor
        · ext v
          rw [List.mem_toFinset, List.mem_toFinset, g5, ha']
          constructor
          · rintro ⟨e1, e2⟩; exact ⟨e1, by rw [← h v e1]; exact e2⟩
          · rintro ⟨e1, e2⟩; exact ⟨e1, by rw [h v e1]; exact e2⟩
        · ext v
          rw [List.mem_toFinset, List.mem_toFinset, g6, hc']
          constructor
          · rintro ⟨e1, e2⟩; exact ⟨e1, by rw [← h v e1]; exact e2⟩
          · rintro ⟨e1, e2⟩; exact ⟨e1, by rw [h v e1]; exact e2⟩
    · rw [hq] at h5
      cases h5

end

/-- C53, generated formulas: for every outcome of every random draw the generated tables are well formed in the sense of `C53_call`,
so the call returns with those guarantees. -/
theorem C53_generated {n m k : ℕ} {order : List ℕ → List ℕ} {sol : List Bool} {first : ℕ → ℕ} {pick : ℕ → ℕ → ℕ} {sign : ℕ → ℕ → Bool}
    (hk : 1 ≤ k) (hsol : sol.length = n) (hf : ∀ c < m, first c < n) (hp : ∀ c < m, ∀ j < k - 1, pick c j < n - 1 - j)
    (ho : ∀ l, (order l).Perm l) :
    ∃ t, generate n m k order sol first pick sign = some t ∧ KFormula n k t.clauses t.used t.conns ∧ violated t.clauses (asgn sol) = [] := by
  obtain ⟨t, h0, h1, h2, -, h4, h5, h6, -⟩ := C29_generated (sign := sign) hk hsol hf hp ho
  exact ⟨t, h0, ⟨fun cl hcl => ⟨(h2 cl hcl).1, (h2 cl hcl).2.1, fun l hl => ((h2 cl hcl).2.2 l hl).2⟩, h4, h5, h6⟩, h1⟩

/-- Non-vacuity: draw three clauses over four variables (the third repeats one) and run the call on them, damped; post-processing
repairs the first decisions, and half of the planted assignment is found. -/
example : ((do
    let t ← generate 4 3 2 id [true, false, true, false] (fun c => c) (fun _ _ => 1) (fun c _ => c == 0)
    let res ← ksatCall 4 2 3 true (1 / 2) 0 id id true 2 [true, false, true, false] t [fin 1, fin 1, fin 1, fin 1]
    some (res.post.hard, res.post.flag, res.requiredPP, res.similarity)) :
      Option (List Bool × Bool × Bool × Option ℚ)) = some ([false, false, true, true], true, true, some 50) := by
  decide +kernel

end Verif.Properties
