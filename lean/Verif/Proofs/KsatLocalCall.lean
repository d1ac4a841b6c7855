import Verif.Proofs.KsatLocal
import Verif.Properties.KsatStable

/-! Reported values, exact beliefs after few iterations and the costs of the chain. -/

namespace Verif.Proofs
open Verif Num Spec Model Properties

theorem listOf_at {n v : ℕ} {b b' : ℕ → ℚ} (h : some (listOf n (fun v => fin (b v))) = some (listOf n (fun v => fin (b' v)))) (hv : v < n) : b v = b' v := by
  have := congrArg (fun l => l[v]?) (Option.some.inj h)
  simpa only [listOf, List.getElem?_map, List.getElem?_range hv, Option.map_some, Option.some.injEq, Num.fin.injEq] using this

section
variable {n k : ℕ} {t : KsatTables} (hf : KFormula n k t.clauses t.used t.conns) (hk : 2 ≤ k)
include hf hk

/-- Without post-processing the reported values are read off the beliefs. -/
theorem call_values {K : ℕ} {flag : Bool} {alpha thr : ℚ} {order order' : List ℕ → List ℕ} (ho : ∀ l, (order l).Perm l) (ho' : ∀ l, (order' l).Perm l)
    {pp : ℕ} {sol : List Bool} (hs : sol = [] ∨ sol.length = n) {w b : ℕ → ℚ}
    (hb : ksatBeliefs (K + 1) flag alpha (ksatObject n k t (listOf n (fun v => fin (w v)))) = some (listOf n (fun v => fin (b v)))) :
    ∃ res, ksatCall n k (K + 1) flag alpha (fin thr) order order' false pp sol t (listOf n (fun v => fin (w v))) = some res ∧
      (∀ v ∈ t.used, v ∈ res.post.sum.active ↔ b v ≤ thr) ∧ (∀ v ∈ t.used, v ∈ res.post.sum.inactive ↔ ¬ b v ≤ thr) := by
  obtain ⟨res, b', c1, c2, -, -, -, -, c3, c4, c5, c6, -⟩ := C53_call hf hk w flag alpha thr ho ho' false pp hs K
  have hbb : ∀ v ∈ t.used, b' v = b v := by
    intro v hv
    have e : res.beliefs = listOf n (fun v => fin (b v)) := by
      unfold ksatCall at c1
      rw [hb] at c1
      simp only [Option.bind_eq_bind, Option.bind_some] at c1
      obtain ⟨first, -, c1⟩ := Option.bind_eq_some_iff.mp c1
      obtain ⟨st, -, c1⟩ := Option.bind_eq_some_iff.mp c1
      obtain ⟨sim, -, c1⟩ := Option.bind_eq_some_iff.mp c1
      rw [← Option.some.inj c1]
    rw [c2] at e
    have hvn := hf.tables.used_lt v hv
    have := congrArg (fun l => l[v]?) e
    simpa [listOf, hvn] using this
  have hpp : res.requiredPP = false := by
    rcases h : res.requiredPP with _ | _
    · rfl
    · exact absurd (c5.mp h).1 (by simp)
  refine ⟨res, c1, fun v hv => ?_, fun v hv => ?_⟩
  · rw [c3, c6 hpp v hv, hbb v hv, decide_eq_true_eq]
    exact ⟨fun h => h.2, fun h => ⟨hv, h⟩⟩
  · rw [c4, c6 hpp v hv, hbb v hv, decide_eq_false_iff_not]
    exact ⟨fun h => h.2, fun h => ⟨hv, h⟩⟩

/-- In a formula without cycles the belief is exact once no walk from the variable visits more clauses than there are iterations. -/
theorem depth_exact {flag : Bool} {alpha : ℚ} {w b : ℕ → ℚ} {v K : ℕ} (hac : (incidence t.clauses.length (varsOf t.clauses)).IsAcyclic)
    (hu : flag = false ∨ alpha = 0) (hv : v ∈ t.used) (hd : ∀ c, v ∈ varsOf t.clauses c → Depth t.clauses (K + 1) c v)
    (hb : ksatBeliefs (K + 1) flag alpha (ksatObject n k t (listOf n (fun v => fin (w v)))) = some (listOf n (fun v => fin (b v)))) :
    MarginalDiff t.used.toFinset (Satisfies t.clauses) w v (b v) := by
  obtain ⟨x, r, htr, hb1⟩ := call_trace hf hk w flag alpha
  obtain ⟨b2, hb2, hm⟩ := C52_beliefs hf hk hac w hu (K := max K (2 * t.clauses.length)) (le_max_right _ _)
  have hx0 : ∀ c < t.clauses.length, ∀ v ∈ varsOf t.clauses c, (fun c v => if ∃ s < k, litVar t c s = v then w v else 0) c v = w v := by
    intro c hc v hv
    rw [← clauseVars_eq hf hc] at hv
    have : ∃ s < k, litVar t c s = v := by simpa [clauseVars] using hv
    simp only [if_pos this]
  have hvn := hf.tables.used_lt v hv
  have e1 := listOf_at (hb.symm.trans (hb1 K)) hvn
  have e2 := listOf_at (hb2.symm.trans (hb1 _)) hvn
  have e : b v = b2 v := by
    rw [e1, e2]
    congr 1
    refine Finset.sum_congr rfl fun c hc => ?_
    have hc := (occ_iff hf).mp hc
    rw [undamped hu, undamped hu, depth_settled hf hk hu hx0 htr _ c v hc (hd c hc) K le_rfl,
      depth_settled hf hk hu hx0 htr _ c v hc (hd c hc) (max K (2 * t.clauses.length)) (by have := le_max_left K (2 * t.clauses.length); omega)]
  rw [e]
  exact hm v hv

end

end Verif.Proofs
