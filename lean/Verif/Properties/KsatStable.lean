import Verif.Proofs.KsatStable
import Verif.Properties.KsatCall
import Verif.Properties.KsatForest

/-! # C56: pure literals.  C57: stability under small changes of the costs -/

namespace Verif.Properties
open Verif Num Spec Model

section
variable {n k : ℕ} {t : KsatTables} (hf : KFormula n k t.clauses t.used t.conns) (hk : 2 ≤ k) (w : ℕ → ℚ) {flag : Bool} {alpha : ℚ}
  (ha : flag = true → 0 ≤ alpha ∧ alpha ≤ 1) (K : ℕ)
include hf hk ha

/-- C56.  Clauses never argue against a pure literal: after any number of iterations, with damping `0 ≤ alpha ≤ 1`, the belief of a variable
that occurs only unnegated is at most its own cost, and the belief of a variable that occurs only negated is at least its own cost. -/
theorem C56_pure : ∃ b : ℕ → ℚ,
    ksatBeliefs (K + 1) flag alpha (ksatObject n k t (listOf n (fun v => fin (w v)))) = some (listOf n (fun v => fin (b v))) ∧
    (∀ v ∈ t.used, (∀ cl ∈ t.clauses, (v, -1) ∉ cl) → b v ≤ w v) ∧
    (∀ v ∈ t.used, (∀ cl ∈ t.clauses, (v, 1) ∉ cl) → w v ≤ b v) := by
  obtain ⟨x, r, h, hb⟩ := Proofs.call_trace hf hk w flag alpha
  have hlit : ∀ v, ∀ c ∈ occurrences t.clauses.length k ⟨t.clauses.length, k, Proofs.litVar t⟩ v,
      c < t.clauses.length ∧ ((v, 1) ∈ t.clauses.getD c [] ∨ (v, -1) ∈ t.clauses.getD c []) := by
    intro v c hc
    obtain ⟨h1, h2⟩ := Finset.mem_filter.mp hc
    have h1 := Finset.mem_range.mp h1
    refine ⟨h1, ?_⟩
    obtain ⟨s, hs, e⟩ := Finset.mem_image.mp h2
    have h3 := Proofs.lit_mem hf h1 (Finset.mem_range.mp hs)
    have e : Proofs.litVar t c s = v := e
    rw [e] at h3
    rcases Proofs.lit_sign hf h1 (Finset.mem_range.mp hs) with e' | e' <;> rw [e'] at h3
    · exact Or.inl h3
    · exact Or.inr h3
  refine ⟨_, hb K, fun v hv hpure => ?_, fun v hv hpure => ?_⟩
  · beta_reduce
    rw [if_pos hv]
    have : ∑ c ∈ occurrences t.clauses.length k ⟨t.clauses.length, k, Proofs.litVar t⟩ v, damped flag alpha (fun i => r i c v) K ≤ 0 := by
      refine Finset.sum_nonpos fun c hc => ?_
      obtain ⟨hc1, hl⟩ := hlit v c hc
      have hl := hl.resolve_right (hpure _ (Proofs.getD_mem hf hc1))
      have hall : ∀ i, r i c v ≤ 0 := fun i => (Proofs.message_sign hf hk h i hc1 hl).1 rfl
      exact Proofs.damped_nonpos ha hall K
    linarith
  · beta_reduce
    rw [if_pos hv]
    have : 0 ≤ ∑ c ∈ occurrences t.clauses.length k ⟨t.clauses.length, k, Proofs.litVar t⟩ v, damped flag alpha (fun i => r i c v) K := by
      refine Finset.sum_nonneg fun c hc => ?_
      obtain ⟨hc1, hl⟩ := hlit v c hc
      have hl := hl.resolve_left (hpure _ (Proofs.getD_mem hf hc1))
      have hall : ∀ i, 0 ≤ r i c v := fun i => (Proofs.message_sign hf hk h i hc1 hl).2 rfl
      exact Proofs.damped_nonneg ha hall K
    linarith

/-- C56, reported results: without post-processing a variable that occurs only unnegated and costs at most the threshold is reported active,
and a variable that occurs only negated and costs more than the threshold is reported inactive. -/
theorem C56_report {order order' : List ℕ → List ℕ} (ho : ∀ l, (order l).Perm l) (ho' : ∀ l, (order' l).Perm l) (pp : ℕ) {sol : List Bool}
    (hs : sol = [] ∨ sol.length = n) (thr : ℚ) : ∃ res,
    ksatCall n k (K + 1) flag alpha (fin thr) order order' false pp sol t (listOf n (fun v => fin (w v))) = some res ∧
    (∀ v ∈ t.used, (∀ cl ∈ t.clauses, (v, -1) ∉ cl) → w v ≤ thr → v ∈ res.post.sum.active) ∧
    (∀ v ∈ t.used, (∀ cl ∈ t.clauses, (v, 1) ∉ cl) → thr < w v → v ∈ res.post.sum.inactive) := by
  obtain ⟨b, hb, h1, h2⟩ := C56_pure hf hk w ha K
  obtain ⟨res, b', c1, c2, -, -, -, -, c3, c4, c5, c6, -⟩ := C53_call hf hk w flag alpha thr ho ho' false pp hs K
  have hbb : ∀ v ∈ t.used, b' v = b v := by
    intro v hv
    have e : res.beliefs = listOf n (fun v => fin (b v)) := by
      unfold ksatCall at c1
      rw [hb] at c1
      simp only [Option.bind_eq_bind, Option.bind_some] at c1
      obtain ⟨first, -, c1⟩ := Option.bind_eq_some_iff.mp c1
      obtain ⟨st, -, c1⟩ := Option.bind_eq_some_iff.mp c1
      obtain ⟨sim, -, c1⟩ := Option.bind_eq_some_iff.mp c1
      rw [← Option.some.inj c1]
    rw [c2] at e
    have hvn := hf.tables.used_lt v hv
    have := congrArg (fun l => l[v]?) e
    simpa [listOf, hvn] using this
  have hpp : res.requiredPP = false := by
    rcases h : res.requiredPP with _ | _
    · rfl
    · exact absurd (c5.mp h).1 (by simp)
  refine ⟨res, c1, fun v hv hp hw => ?_, fun v hv hp hw => ?_⟩
  · rw [c3, c6 hpp v hv, hbb v hv]
    exact ⟨hv, decide_eq_true ((h1 v hv hp).trans hw)⟩
  · rw [c4, c6 hpp v hv, hbb v hv]
    exact ⟨hv, decide_eq_false (not_le.mpr (lt_of_lt_of_le hw (h2 v hv hp)))⟩

end

section
variable {n k : ℕ} {t : KsatTables} (hf : KFormula n k t.clauses t.used t.conns) (hk : 2 ≤ k) {w w' : ℕ → ℚ} {flag : Bool} {alpha : ℚ}
  (ha : flag = true → 0 ≤ alpha ∧ alpha ≤ 1) {δ : ℚ} (h0 : 0 ≤ δ) (hw : ∀ v ∈ t.used, |w v - w' v| ≤ δ) {D : ℕ}
  (hD : ∀ v ∈ t.used, ((Finset.range t.clauses.length).filter (fun c => v ∈ varsOf t.clauses c)).card ≤ D + 1) (K : ℕ)
include hf hk ha h0 hw hD

/-- C57.  If no variable is in more than `D + 1` clauses and the costs of two runs differ by at most `δ`, then after `K + 1` iterations with
damping `0 ≤ alpha ≤ 1` the beliefs differ by at most `δ (1 + (D + 1)(1 + D + … + D ^ K))`. -/
theorem C57_beliefs : ∃ b b' : ℕ → ℚ,
    ksatBeliefs (K + 1) flag alpha (ksatObject n k t (listOf n (fun v => fin (w v)))) = some (listOf n (fun v => fin (b v))) ∧
    ksatBeliefs (K + 1) flag alpha (ksatObject n k t (listOf n (fun v => fin (w' v)))) = some (listOf n (fun v => fin (b' v))) ∧
    (∀ v ∈ t.used, |b v - b' v| ≤ δ * (1 + (D + 1) * ∑ l ∈ Finset.range (K + 1), (D : ℚ) ^ l)) ∧
    ∀ v, v ∉ t.used → b v = 0 ∧ b' v = 0 := by
  obtain ⟨x, r, h, hb⟩ := Proofs.call_trace hf hk w flag alpha
  obtain ⟨x', r', h', hb'⟩ := Proofs.call_trace hf hk w' flag alpha
  have hD' : ∀ v ∈ t.used, (occurrences t.clauses.length k ⟨t.clauses.length, k, Proofs.litVar t⟩ v).card ≤ D + 1 := by
    intro v hv
    have e : occurrences t.clauses.length k ⟨t.clauses.length, k, Proofs.litVar t⟩ v =
        (Finset.range t.clauses.length).filter (fun c => v ∈ varsOf t.clauses c) :=
      Finset.filter_congr fun c hc => by rw [Proofs.clauseVars_eq hf (Finset.mem_range.mp hc)]
    rw [e]; exact hD v hv
  refine ⟨_, _, hb K, hb' K, fun v hv => ?_, fun v hv => ?_⟩
  · have := Proofs.belief_stable hf hk hw h0 ha hD' h h' K hv
    simpa only [if_pos hv] using this
  · have e : occurrences t.clauses.length k ⟨t.clauses.length, k, Proofs.litVar t⟩ v = ∅ := by
      refine Finset.eq_empty_of_forall_notMem fun c hc => hv ?_
      obtain ⟨h1, h2⟩ := Finset.mem_filter.mp hc
      have h1 := Finset.mem_range.mp h1
      exact Proofs.vars_used hf h1 (by rw [← Proofs.clauseVars_eq hf h1]; exact h2)
    simp [e, hv]

/-- C57, whole call: if in addition every belief of the first run is further from the threshold than this bound, the second run reports the same decisions, violated clauses, flags and similarity, with and without post-processing. -/
theorem C57_call {order order' : List ℕ → List ℕ} (ho : ∀ l, (order l).Perm l) (ho' : ∀ l, (order' l).Perm l) (post : Bool) (pp : ℕ)
    {sol : List Bool} (hsol : sol = [] ∨ sol.length = n) (thr : ℚ) : ∃ (res : KsatResult) (b b' : ℕ → ℚ),
    ksatCall n k (K + 1) flag alpha (fin thr) order order' post pp sol t (listOf n (fun v => fin (w v))) = some res ∧
    res.beliefs = listOf n (fun v => fin (b v)) ∧
    ((∀ v ∈ t.used, δ * (1 + (D + 1) * ∑ l ∈ Finset.range (K + 1), (D : ℚ) ^ l) < |b v - thr|) →
      ksatCall n k (K + 1) flag alpha (fin thr) order order' post pp sol t (listOf n (fun v => fin (w' v))) =
        some { res with beliefs := listOf n (fun v => fin (b' v)) }) := by
  obtain ⟨b, b', hb, hb', hbb, hz⟩ := C57_beliefs hf hk ha h0 hw hD K
  have hl : ∀ b : ℕ → ℚ, (listOf n (fun v => fin (b v))).length = n := fun b => by simp [listOf]
  obtain ⟨res, h1, h2, h3, h4, h5⟩ := Proofs.call_of_beliefs hf ho ho' (thr := fin thr) (post := post) (pp := pp) hsol hb (hl _)
  refine ⟨res, b, b', h1, h2, fun hclear => ?_⟩
  have hhard : hardDecisions (fin thr) (listOf n (fun v => fin (b' v))) = hardDecisions (fin thr) (listOf n (fun v => fin (b v))) := by
    simp only [hardDecisions, listOf, List.map_map]
    refine List.map_congr_left fun v hv => ?_
    have e : thr < b' v ↔ thr < b v := by
      by_cases hu : v ∈ t.used
      · have d1 := hbb v hu
        have d2 := hclear v hu
        have d3 := lt_of_le_of_lt d1 d2
        have d4 := abs_lt.mp d3
        rcases le_or_gt (b v) thr with hle | hgt
        · rw [abs_of_nonpos (by linarith)] at d4
          constructor <;> intro h <;> linarith [d4.1, d4.2]
        · rw [abs_of_pos (by linarith)] at d4
          constructor <;> intro h <;> linarith [d4.1, d4.2]
      · rw [(hz v hu).1, (hz v hu).2]
    show (if decide (thr < b' v) = true then false else true) = if decide (thr < b v) = true then false else true
    rw [decide_eq_decide.mpr e]
  unfold ksatCall at h1 ⊢
  rw [hb] at h1
  rw [hb']
  simp only [Option.bind_eq_bind, Option.bind_some, decideAndPost, hhard] at h1 ⊢
  obtain ⟨first, a1, h1⟩ := Option.bind_eq_some_iff.mp h1
  rw [a1] at h1 ⊢
  simp only [Option.bind_some] at h1 ⊢
  obtain ⟨st, a2, h1⟩ := Option.bind_eq_some_iff.mp h1
  rw [a2]
  simp only [Option.bind_some] at h1 ⊢
  obtain ⟨sim, a3, h1⟩ := Option.bind_eq_some_iff.mp h1
  rw [a3]
  simp only [Option.bind_some, Option.some.injEq] at h1 ⊢
  rw [← h1]

end

/-- Non-vacuity of C56: in the example of C52 variable 0 occurs only unnegated and variable 3 only negated; after three damped iterations their
beliefs have moved from the costs 5 and -1 to 7/2 and -1. -/
example : (∀ cl ∈ pathFormula.clauses, (0, -1) ∉ cl) ∧ (∀ cl ∈ pathFormula.clauses, (3, 1) ∉ cl) ∧
    ksatBeliefs 3 true (1 / 2) (ksatObject 4 2 pathFormula (listOf 4 (fun v => fin (pathCost v)))) =
      some [fin (7 / 2), fin (-2), fin (1 / 8), fin (-1)] :=
  ⟨by decide, by decide, by decide +kernel⟩

/-- Costs that differ from those of the example by at most 1/2. -/
def nearCost (v : ℕ) : ℚ := [11 / 2, 1 / 2, 1 / 2, -1].getD v 0

/-- Non-vacuity of C57: no variable of the example is in more than 2 clauses (`D = 1`), the costs differ by at most `δ = 1/2`, and after one
iteration the belief of variable 1 moves by exactly the bound `1/2 * (1 + 2) = 3/2`. -/
example : (∀ v ∈ pathFormula.used, ((Finset.range pathFormula.clauses.length).filter (fun c => v ∈ varsOf pathFormula.clauses c)).card ≤ 1 + 1) ∧
    (∀ v ∈ pathFormula.used, |pathCost v - nearCost v| ≤ 1 / 2) ∧
    ksatBeliefs 1 false 0 (ksatObject 4 2 pathFormula (listOf 4 (fun v => fin (pathCost v)))) = some [fin 4, fin (-3), fin 2, fin (-1)] ∧
    ksatBeliefs 1 false 0 (ksatObject 4 2 pathFormula (listOf 4 (fun v => fin (nearCost v)))) = some [fin 5, fin (-9 / 2), fin (3 / 2), fin (-1)] :=
  ⟨by decide, by decide +kernel, by decide +kernel, by decide +kernel⟩

end Verif.Properties
