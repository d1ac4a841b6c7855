import Verif.Proofs.OneCycle
import Verif.Properties.Recurrence

/-! # C67: settled messages without ties are a solution (k-SAT) -/

namespace Verif.Properties
open Verif Num Spec Model

/-- Two equal damped messages in a row: the raw message equals them. -/
theorem settled_raw {flag : Bool} {alpha : ℚ} (ha : flag = true → alpha ≠ 1) {r : ℕ → ℚ} {K : ℕ}
    (h : damped flag alpha r K = damped flag alpha r (K + 1)) : r (K + 1) = damped flag alpha r K := by
  rw [Proofs.damped_succ] at h
  split_ifs at h with hf
  · have h1 : 1 - alpha ≠ 0 := sub_ne_zero.mpr (Ne.symm (ha hf.1))
    have h2 : (1 - alpha) * r (K + 1) = (1 - alpha) * damped flag alpha r K := by linarith
    exact mul_left_cancel₀ h1 h2
  · exact h.symm

section
variable {n k : ℕ} {t : KsatTables} (hf : KFormula n k t.clauses t.used t.conns) (hk : 2 ≤ k) {w : ℕ → ℚ} {flag : Bool} {alpha : ℚ}
  {x r : ℕ → ℕ → ℕ → ℚ} (ht : FormulaTrace n k t w flag alpha x r) (ha : flag = true → alpha ≠ 1) {K : ℕ}
  (hset : ∀ c < t.clauses.length, ∀ v ∈ varsOf t.clauses c, damped flag alpha (fun i => r i c v) K = damped flag alpha (fun i => r i c v) (K + 1))
  {b : ℕ → ℚ} (hb : ksatBeliefs (K + 1) flag alpha (ksatObject n k t (listOf n (fun v => fin (w v)))) = some (listOf n (fun v => fin (b v))))
include hf hk ht ha hset hb

theorem ksat_settled_core (hne : ∀ v ∈ t.used, b v ≠ 0) :
    Satisfies t.clauses (t.used.toFinset.filter (fun v => b v < 0)) ∧
    (∀ S ⊆ t.used.toFinset, Satisfies t.clauses S → S ≠ t.used.toFinset.filter (fun v => b v < 0) →
      TreelikeChange (Finset.range t.clauses.length) (varsOf t.clauses) (t.used.toFinset.filter (fun v => b v < 0)) S →
      cost w (t.used.toFinset.filter (fun v => b v < 0)) < cost w S) ∧
    ∀ S ⊆ t.used.toFinset, Satisfies t.clauses S →
      OneCycleChange (Finset.range t.clauses.length) (varsOf t.clauses) (t.used.toFinset.filter (fun v => b v < 0)) S →
      cost w (t.used.toFinset.filter (fun v => b v < 0)) ≤ cost w S := by
  have hvars : ∀ c < t.clauses.length, clauseVars k (Proofs.litVar t c) = varsOf t.clauses c := fun c hc => Proofs.clauseVars_eq hf hc
  obtain ⟨x', r', htr, hbel⟩ := Proofs.call_trace hf hk w flag alpha
  have ht' : IsKsatTrace t.clauses.length k n ⟨t.clauses.length, k, Proofs.litVar t⟩ ⟨t.clauses.length, k, Proofs.litSign t⟩ w flag alpha
      (fun c v => if ∃ s < k, Proofs.litVar t c s = v then w v else 0) x r := { ht with
    init := fun c hc v hv => by
      rw [ht.init c hc v hv, ← hvars c hc]
      simp only [clauseVars, Finset.mem_image, Finset.mem_range] }
  have huniq := fun j => Proofs.ksatTrace_unique (Proofs.clause_tables hf) htr ht' j
  have hocc : ∀ v, occurrences t.clauses.length k ⟨t.clauses.length, k, Proofs.litVar t⟩ v =
      (Finset.range t.clauses.length).filter (fun c => v ∈ varsOf t.clauses c) := by
    intro v
    refine Finset.filter_congr fun c hc => ?_
    rw [← hvars c (Finset.mem_range.mp hc)]
  have hused : ∀ c < t.clauses.length, varsOf t.clauses c ⊆ t.used.toFinset := by
    intro c hc v hv
    rw [← hvars c hc] at hv
    exact List.mem_toFinset.mpr ((Proofs.connections_ok hf).used_mem c hc v hv)
  -- the beliefs are sums of the settled messages
  have hbv : ∀ v ∈ t.used.toFinset, b v = w v + ∑ c ∈ (Finset.range t.clauses.length).filter (fun c => v ∈ varsOf t.clauses c),
      damped flag alpha (fun i => r i c v) K := by
    intro v hv
    have hv := List.mem_toFinset.mp hv
    have e := hbel K
    rw [hb] at e
    have e := congrArg (fun l => l[v]?) (Option.some.inj e)
    simp only [listOf, List.getElem?_map, List.getElem?_range (hf.tables.used_lt v hv), Option.map_some, Option.some.injEq, Num.fin.injEq, if_pos hv] at e
    rw [e, add_comm, ← hocc]
    congr 1
    refine Finset.sum_congr rfl fun c hc => ?_
    have hm := Finset.mem_filter.mp hc
    exact Proofs.damped_congr fun i _ => (huniq i c (Finset.mem_range.mp hm.1) v hm.2).2
  have hxv : ∀ c < t.clauses.length, ∀ v ∈ varsOf t.clauses c, x (K + 1) c v = b v - damped flag alpha (fun i => r i c v) K := by
    intro c hc v hv
    rw [ht'.var K c hc v (by rw [hvars c hc]; exact hv), hbv v (hused c hc hv), hocc]
    rw [← Finset.add_sum_erase ((Finset.range t.clauses.length).filter (fun c => v ∈ varsOf t.clauses c)) (fun c => damped flag alpha (fun i => r i c v) K)
      (Finset.mem_filter.mpr ⟨Finset.mem_range.mpr hc, hv⟩)]
    ring
  have hmsg : ∀ c < t.clauses.length, ∀ v ∈ varsOf t.clauses c,
      IsMessage (varsOf t.clauses c) (ClauseSat k (Proofs.litVar t c) (Proofs.litSign t c)) (x (K + 1) c) v (fin (damped flag alpha (fun i => r i c v) K)) := by
    intro c hc v hv
    have := ht'.clause (K + 1) c hc v (by rw [hvars c hc]; exact hv)
    rw [show r (K + 1) c v = damped flag alpha (fun i => r i c v) K from settled_raw (r := fun i => r i c v) ha (hset c hc v hv)] at this
    rw [← hvars c hc]; exact this
  have hsat : ∀ S : Finset ℕ, Satisfies t.clauses S ↔ ∀ c < t.clauses.length, ClauseSat k (Proofs.litVar t c) (Proofs.litSign t c) (varsOf t.clauses c ∩ S) := by
    intro S
    rw [← Proofs.allHold_iff hf (List.Perm.refl _)]
    simp only [Proofs.AllHold, List.mem_range]
    refine forall₂_congr fun c hc => ?_
    rw [hvars c hc, Finset.inter_comm]
  have hne' : ∀ v ∈ t.used.toFinset, b v ≠ 0 := fun v hv => hne v (List.mem_toFinset.mp hv)
  refine ⟨?_, ?_, ?_⟩
  · rw [hsat]
    intro c hc
    have hnon : (varsOf t.clauses c).Nonempty := by
      rw [← hvars c hc]
      exact ⟨Proofs.litVar t c 0, by simp only [clauseVars, Finset.mem_image, Finset.mem_range]; exact ⟨0, by omega, rfl⟩⟩
    have := (Proofs.settled_valid (b := b) (fun v hv => by
      rw [show b v - x (K + 1) c v = damped flag alpha (fun i => r i c v) K by rw [hxv c hc v hv]; ring]
      exact hmsg c hc v hv) hnon (fun v hv => hne' v (hused c hc hv))).1
    convert this using 1
    ext v
    simp only [Finset.mem_inter, Finset.mem_filter]
    exact ⟨fun h => ⟨h.1, h.2.2⟩, fun h => ⟨h.1, hused c hc h.1, h.2⟩⟩
  · intro S hS hsatS hneq htree
    exact Proofs.settled_local (F := Finset.range t.clauses.length) (V := varsOf t.clauses) (x := x (K + 1))
      (r := fun c v => damped flag alpha (fun i => r i c v) K) (valid := fun c => ClauseSat k (Proofs.litVar t c) (Proofs.litSign t c))
      (fun c hc => hused c (Finset.mem_range.mp hc)) hbv (fun c hc => hxv c (Finset.mem_range.mp hc)) (fun c hc => hmsg c (Finset.mem_range.mp hc))
      hne' hS (fun c hc => (hsat S).mp hsatS c (Finset.mem_range.mp hc)) hneq htree
  · intro S hS hsatS htree
    exact Proofs.settled_cycle (F := Finset.range t.clauses.length) (V := varsOf t.clauses) (x := x (K + 1))
      (r := fun c v => damped flag alpha (fun i => r i c v) K) (valid := fun c => ClauseSat k (Proofs.litVar t c) (Proofs.litSign t c))
      (fun c hc => hused c (Finset.mem_range.mp hc)) hbv (fun c hc => hxv c (Finset.mem_range.mp hc)) (fun c hc => hmsg c (Finset.mem_range.mp hc))
      hne' hS (fun c hc => (hsat S).mp hsatS c (Finset.mem_range.mp hc)) htree

/-- C67, k-SAT.  If the clause messages have settled, and every belief is clearly negative or clearly positive, then the call with this or any
larger number of iterations reports a satisfying assignment without post-processing, every other satisfying assignment that
differs from it in a treelike way costs more, and none that differs in a way that closes at most one cycle in each part costs less. -/
theorem C67_ksat {thr : ℚ} (hsign : ∀ v ∈ t.used, b v < 0 ∧ b v ≤ thr ∨ 0 < b v ∧ thr < b v) {N : ℕ} (hN : K + 1 ≤ N)
    {order order' : List ℕ → List ℕ} (ho : ∀ l, (order l).Perm l) (ho' : ∀ l, (order' l).Perm l) {post : Bool} {pp : ℕ} {sol : List Bool}
    (hs : sol = [] ∨ sol.length = n) :
    ∃ res, ksatCall n k N flag alpha (fin thr) order order' post pp sol t (listOf n (fun v => fin (w v))) = some res ∧
      res.post.flag = true ∧ res.post.sum.unsat = [] ∧ res.requiredPP = false ∧ Satisfies t.clauses res.post.sum.active.toFinset ∧
      (∀ S ⊆ t.used.toFinset, Satisfies t.clauses S → S ≠ res.post.sum.active.toFinset →
        TreelikeChange (Finset.range t.clauses.length) (varsOf t.clauses) res.post.sum.active.toFinset S →
        cost w res.post.sum.active.toFinset < cost w S) ∧
      ∀ S ⊆ t.used.toFinset, Satisfies t.clauses S → OneCycleChange (Finset.range t.clauses.length) (varsOf t.clauses) res.post.sum.active.toFinset S →
        cost w res.post.sum.active.toFinset ≤ cost w S := by
  obtain ⟨h1, h2, h3⟩ := ksat_settled_core hf hk ht ha hset hb (fun v hv => by
    rcases hsign v hv with h | h
    · exact h.1.ne
    · exact h.1.ne')
  obtain ⟨res, r1, r2, r3, r4, r5, -⟩ := Proofs.call_of_signs hf ho ho' (post := post) (pp := pp) (thr := thr) hs hb (Finset.filter_subset _ _) h1 (fun v hv => by
    simp only [Finset.mem_filter, List.mem_toFinset, hv, true_and]
    rcases hsign v hv with h | h
    · exact ⟨fun _ => h.1, fun _ => h.2⟩
    · exact ⟨fun g => absurd g (not_le.mpr h.2), fun g => absurd g (not_lt.mpr h.1.le)⟩)
  have e : res.post.sum.active.toFinset = t.used.toFinset.filter (fun v => b v < 0) := by
    ext v; rw [List.mem_toFinset, r5]
  refine ⟨res, ?_, r2, r3, r4, ?_, ?_, ?_⟩
  · rw [C66_ksat_settled hf hk ht hset hN]; exact r1
  · rw [e]; exact h1
  · rw [e]; exact h2
  · rw [e]; exact h3

/-- C67, k-SAT: for a formula without satisfying assignments settled messages leave some variable undecided. -/
theorem C67_ksat_unsat (hun : ∀ S, ¬ Satisfies t.clauses S) : ∃ v ∈ t.used, b v = 0 := by
  by_contra hcon
  push Not at hcon
  exact hun _ (ksat_settled_core hf hk ht ha hset hb hcon).1

end

/-! ## Examples -/

/-- The path formula: settled in the third iteration, so every call with three or more iterations reports `{1, 2}`. -/
example (N : ℕ) (hN : 3 ≤ N) : ∃ res, ksatCall 4 2 N false 0 (fin 0) id id true 2 [] pathFormula (listOf 4 (fun v => fin (pathCost v))) = some res ∧
    res.post.flag = true ∧ Satisfies pathFormula.clauses res.post.sum.active.toFinset := by
  obtain ⟨x, r, ht, hset⟩ := path_settles pathCost
  obtain ⟨res, h1, h2, -, -, h3, -⟩ := C67_ksat pathFormula_ok (by norm_num) ht (by decide) hset (b := fun v => [2, -2, -2, 2].getD v 0)
    (by decide +kernel) (thr := 0) (by decide) hN (order := id) (order' := id) (fun _ => List.Perm.refl _) (fun _ => List.Perm.refl _) (post := true) (pp := 2) (Or.inl rfl)
  exact ⟨res, h1, h2, h3⟩

/-- The formula `(x0 ∨ x1) ∧ (x0 ∨ ¬x1)`, whose factor graph is a cycle. -/
def ringFormula : KsatTables := ⟨[0, 1], [[(0, 1), (1, 1)], [(0, 1), (1, -1)]], [[(0, 1), (1, 1)], [(0, 1), (1, -1)]]⟩

def ringCost (v : ℕ) : ℚ := [-3, 1].getD v 0

theorem ringFormula_ok : KFormula 2 2 ringFormula.clauses ringFormula.used ringFormula.conns := by
  refine ⟨by decide, ⟨fun v c s => ?_, by decide, by decide⟩, rfl, fun v => ?_⟩
  · by_cases hv : v < 2
    · by_cases hc : c < 2
      · interval_cases v <;> interval_cases c <;> simp [ringFormula]
      · have h1 : ringFormula.clauses.getD c [] = [] := by
          rw [List.getD_eq_getElem?_getD, List.getElem?_eq_none (by show 2 ≤ c; omega)]; rfl
        rw [h1]
        interval_cases v <;> simp [ringFormula] <;> omega
    · have h1 : ringFormula.conns.getD v [] = [] := by
        rw [List.getD_eq_getElem?_getD, List.getElem?_eq_none (by show 2 ≤ v; omega)]; rfl
      rw [h1]
      by_cases hc : c < 2
      · interval_cases c <;> simp [ringFormula] <;> omega
      · have h1 : ringFormula.clauses.getD c [] = [] := by
          rw [List.getD_eq_getElem?_getD, List.getElem?_eq_none (by show 2 ≤ c; omega)]; rfl
        rw [h1]; simp
  · by_cases hv : v < 2
    · interval_cases v <;> decide
    · have h1 : ringFormula.conns.getD v [] = [] := by
        rw [List.getD_eq_getElem?_getD, List.getElem?_eq_none (by show 2 ≤ v; omega)]; rfl
      rw [h1]; simp

/-- The messages of the ring formula are settled from the start. -/
theorem ring_trace : FormulaTrace 2 2 ringFormula ringCost false 0
    (fun j c v => if j = 0 then ringCost v else ([[-3, 1], [-4, 1]].getD c []).getD v 0) (fun _ c v => ([[-1, 0], [0, 0]].getD c []).getD v 0) := by
  refine ⟨fun c hc v hv => ?_, fun j c hc v hv => ?_, fun j c hc v hv => ?_⟩
  · have hc : c < 2 := hc
    interval_cases c <;> interval_cases v <;> decide
  · have hc : c < 2 := hc
    have hcase : (c = 0 ∨ c = 1) ∧ (v = 0 ∨ v = 1) := by
      refine ⟨by omega, ?_⟩
      interval_cases c <;> (simp [ringFormula, clauseVars, Finset.range_add_one] at hv; omega)
    rcases j with _ | j <;> simp only [Nat.add_eq_zero_iff, one_ne_zero, and_false, if_false, if_true] <;> rcases hcase with ⟨rfl | rfl, rfl | rfl⟩
    · exact Proofs.message_of_minima (-3) 1 (by unfold ClauseSat; decide +kernel) (by unfold ClauseSat; decide +kernel) (by decide +kernel)
    · exact Proofs.message_of_minima (-2) (-3) (by unfold ClauseSat; decide +kernel) (by unfold ClauseSat; decide +kernel) (by decide +kernel)
    · exact Proofs.message_of_minima (-3) 0 (by unfold ClauseSat; decide +kernel) (by unfold ClauseSat; decide +kernel) (by decide +kernel)
    · exact Proofs.message_of_minima (-2) (-3) (by unfold ClauseSat; decide +kernel) (by unfold ClauseSat; decide +kernel) (by decide +kernel)
    · exact Proofs.message_of_minima (-3) 1 (by unfold ClauseSat; decide +kernel) (by unfold ClauseSat; decide +kernel) (by decide +kernel)
    · exact Proofs.message_of_minima (-2) (-3) (by unfold ClauseSat; decide +kernel) (by unfold ClauseSat; decide +kernel) (by decide +kernel)
    · exact Proofs.message_of_minima (-4) 0 (by unfold ClauseSat; decide +kernel) (by unfold ClauseSat; decide +kernel) (by decide +kernel)
    · exact Proofs.message_of_minima (-3) (-4) (by unfold ClauseSat; decide +kernel) (by unfold ClauseSat; decide +kernel) (by decide +kernel)
  · have hc : c < 2 := hc
    have hcase : (c = 0 ∨ c = 1) ∧ (v = 0 ∨ v = 1) := by
      refine ⟨by omega, ?_⟩
      interval_cases c <;> (simp [ringFormula, clauseVars, Finset.range_add_one] at hv; omega)
    have hd : ∀ (s : ℕ → ℚ) j, damped false 0 s j = s j := Proofs.undamped (Or.inl rfl)
    simp only [hd]
    rcases hcase with ⟨rfl | rfl, rfl | rfl⟩ <;> simp only [Nat.add_eq_zero_iff, one_ne_zero, and_false, if_false] <;> decide +kernel

/-- So from one iteration on the solver reports `{0}`, and switching on variable 1 as well, which is also satisfying, costs more. -/
example (N : ℕ) (hN : 1 ≤ N) : ∃ res, ksatCall 2 2 N false 0 (fin 0) id id true 2 [] ringFormula (listOf 2 (fun v => fin (ringCost v))) = some res ∧
    res.post.flag = true ∧ Satisfies ringFormula.clauses res.post.sum.active.toFinset ∧
    ∀ S ⊆ ringFormula.used.toFinset, Satisfies ringFormula.clauses S → S ≠ res.post.sum.active.toFinset →
        TreelikeChange (Finset.range 2) (varsOf ringFormula.clauses) res.post.sum.active.toFinset S →
        cost ringCost res.post.sum.active.toFinset < cost ringCost S := by
  have hd : ∀ (s : ℕ → ℚ) j, damped false 0 s j = s j := Proofs.undamped (Or.inl rfl)
  obtain ⟨res, h1, h2, -, -, h3, h4, -⟩ := C67_ksat ringFormula_ok (by norm_num) ring_trace (by decide) (K := 0) (fun c hc v hv => by rw [hd, hd])
    (b := fun v => [-4, 1].getD v 0) (by decide +kernel) (thr := 0) (by decide) hN (order := id) (order' := id) (fun _ => List.Perm.refl _) (fun _ => List.Perm.refl _)
    (post := true) (pp := 2) (Or.inl rfl)
  exact ⟨res, h1, h2, h3, h4⟩

end Verif.Properties
