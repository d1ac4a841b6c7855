import Verif.Proofs.KsatLocalCall
import Verif.Properties.Autarky

/-! # C101: what the belief of a variable depends on -/

namespace Verif.Properties
open Verif Num Spec Model

section
variable {n n' k : ℕ} {t t' : KsatTables} (hf : KFormula n k t.clauses t.used t.conns) (hf' : KFormula n' k t'.clauses t'.used t'.conns) (hk : 2 ≤ k)
  {w w' : ℕ → ℚ} (flag : Bool) (alpha : ℚ) {v K : ℕ}
  (hcl : ∀ u, Within t.clauses v K u → ∀ c, u ∈ varsOf t.clauses c ∨ u ∈ varsOf t'.clauses c → t'.clauses.getD c [] = t.clauses.getD c [])
  (hv : v ∈ t.used) (hv' : v ∈ t'.used)
include hf hf' hk hcl hv hv'

/-- C101.  After `K + 1` iterations, with any damping, the belief of a variable depends only on the clauses with a variable at most `K` steps away and on
the costs of the variables at most `K + 1` steps away: two formulas that agree there give the same belief, whatever else they contain. -/
theorem C101_local (hw : ∀ u, Within t.clauses v (K + 1) u → w' u = w u) : ∃ b b' : ℕ → ℚ,
    ksatBeliefs (K + 1) flag alpha (ksatObject n k t (listOf n (fun v => fin (w v)))) = some (listOf n (fun v => fin (b v))) ∧
    ksatBeliefs (K + 1) flag alpha (ksatObject n' k t' (listOf n' (fun v => fin (w' v)))) = some (listOf n' (fun v => fin (b' v))) ∧ b' v = b v := by
  obtain ⟨x, r, h, hb⟩ := Proofs.call_trace hf hk w flag alpha
  obtain ⟨x', r', h', hb'⟩ := Proofs.call_trace hf' hk w' flag alpha
  refine ⟨_, _, hb K, hb' K, ?_⟩
  have h0 : Within t.clauses v 0 v := rfl
  have hK := Proofs.near_mono (Nat.zero_le K) h0
  beta_reduce
  rw [if_pos hv, if_pos hv', hw v (Or.inl hK), Proofs.same_occ hf hf' hcl hK]
  congr 1
  refine Finset.sum_congr rfl fun c hc => Proofs.damped_congr fun i hi => ?_
  exact Proofs.trace_local hf hf' hk hcl hw h h' i 0 v c (by omega) h0 ((Proofs.occ_iff hf).mp hc)

/-- C101, reported results: without post-processing the variable gets the same value. -/
theorem C101_decision (hw : ∀ u, Within t.clauses v (K + 1) u → w' u = w u) {o1 o2 o1' o2' : List ℕ → List ℕ} (h1 : ∀ l, (o1 l).Perm l)
    (h2 : ∀ l, (o2 l).Perm l) (h1' : ∀ l, (o1' l).Perm l) (h2' : ∀ l, (o2' l).Perm l) (pp pp' : ℕ) {sol sol' : List Bool}
    (hs : sol = [] ∨ sol.length = n) (hs' : sol' = [] ∨ sol'.length = n') (thr : ℚ) : ∃ res res',
    ksatCall n k (K + 1) flag alpha (fin thr) o1 o2 false pp sol t (listOf n (fun v => fin (w v))) = some res ∧
    ksatCall n' k (K + 1) flag alpha (fin thr) o1' o2' false pp' sol' t' (listOf n' (fun v => fin (w' v))) = some res' ∧
    (v ∈ res'.post.sum.active ↔ v ∈ res.post.sum.active) ∧ (v ∈ res'.post.sum.inactive ↔ v ∈ res.post.sum.inactive) := by
  obtain ⟨b, b', hb, hb', e⟩ := C101_local hf hf' hk flag alpha hcl hv hv' hw
  obtain ⟨res, a1, a2, a3⟩ := Proofs.call_values hf hk h1 h2 (pp := pp) hs (thr := thr) hb
  obtain ⟨res', a1', a2', a3'⟩ := Proofs.call_values hf' hk h1' h2' (pp := pp') hs' (thr := thr) hb'
  exact ⟨res, res', a1, a1', by rw [a2 v hv, a2' v hv', e], by rw [a3 v hv, a3' v hv', e]⟩

/-- C101, formulas with cycles: if the clauses around a variable form a formula `t'` without cycles in which no walk from the variable visits more than
`K + 1` clauses, then after `K + 1` iterations without damping its belief is exactly the difference between the cheapest assignments of `t'` with and
without the variable.  Cycles further away do not matter. -/
theorem C101_surroundings (hu : flag = false ∨ alpha = 0) (hac : (incidence t'.clauses.length (varsOf t'.clauses)).IsAcyclic)
    (hd : ∀ c, v ∈ varsOf t'.clauses c → Depth t'.clauses (K + 1) c v) : ∃ b : ℕ → ℚ,
    ksatBeliefs (K + 1) flag alpha (ksatObject n k t (listOf n (fun v => fin (w v)))) = some (listOf n (fun v => fin (b v))) ∧
    MarginalDiff t'.used.toFinset (Satisfies t'.clauses) w v (b v) := by
  obtain ⟨b, b', hb, hb', e⟩ := C101_local hf hf' hk flag alpha hcl hv hv' (w := w) (w' := w) (fun _ _ => rfl)
  refine ⟨b, hb, ?_⟩
  rw [← e]
  exact Proofs.depth_exact hf' hk hac hu hv' hd hb'

end

section
variable {n k : ℕ} {t : KsatTables} (hf : KFormula n k t.clauses t.used t.conns) (hk : 2 ≤ k) (w : ℕ → ℚ) {flag : Bool} {alpha : ℚ} {v K : ℕ} (hv : v ∈ t.used)
include hf hk hv

/-- C101, enough iterations: in a formula without cycles the belief of a variable is exact as soon as the number of iterations reaches the number of
clauses on the longest walk from it. -/
theorem C101_enough (hu : flag = false ∨ alpha = 0) (hac : (incidence t.clauses.length (varsOf t.clauses)).IsAcyclic)
    (hd : ∀ c, v ∈ varsOf t.clauses c → Depth t.clauses (K + 1) c v) : ∃ b : ℕ → ℚ,
    ksatBeliefs (K + 1) flag alpha (ksatObject n k t (listOf n (fun v => fin (w v)))) = some (listOf n (fun v => fin (b v))) ∧
    MarginalDiff t.used.toFinset (Satisfies t.clauses) w v (b v) :=
  C101_surroundings hf hf hk flag alpha (fun _ _ _ _ => rfl) hv hv hu hac hd

end

/-- The costs of the chain: the first variable wants to be true, the last one wants more strongly to be false. -/
def chainCost (m v : ℕ) : ℚ := if v = 0 then -1 else if v = m then 2 else 0

/-- Every satisfying assignment of the chain other than "all false" costs at least 1. -/
theorem chain_cheapest (N : ℕ) : CheapestBy (Proofs.chainTables (N + 2)).used.toFinset (Satisfies (Proofs.chainTables (N + 2)).clauses) (chainCost (N + 2)) 1 ∅ := by
  refine ⟨Finset.empty_subset _, Proofs.chain_sat.mpr (fun c _ h => absurd h (Finset.notMem_empty c)), fun T hT hs hne => ?_⟩
  rw [Proofs.chain_sat] at hs
  obtain ⟨a, ha⟩ := Finset.nonempty_iff_ne_empty.mpr hne
  have haN : a < N + 3 := by have := hT ha; simp [Proofs.chainTables] at this; omega
  have hup : ∀ d, a + d ≤ N + 2 → a + d ∈ T := by
    intro d
    induction d with
    | zero => intro _; exact ha
    | succ d ih => intro h; exact hs (a + d) (by omega) (ih (by omega))
  have hlast : N + 2 ∈ T := by have := hup (N + 2 - a) (by omega); rwa [show a + (N + 2 - a) = N + 2 by omega] at this
  have h0 : cost (chainCost (N + 2)) ∅ = 0 := by simp [cost]
  rw [h0]
  have hge : ∀ v ∈ T, (if v = 0 then (-1 : ℚ) else 0) + (if v = N + 2 then 2 else 0) ≤ chainCost (N + 2) v := by
    intro v _
    unfold chainCost
    split_ifs <;> first | omega | norm_num
  have h1 := Finset.sum_le_sum hge
  rw [Finset.sum_add_distrib, Finset.sum_ite_eq' T (N + 2), if_pos hlast, Finset.sum_ite_eq' T 0] at h1
  have : (-1 : ℚ) ≤ if 0 ∈ T then -1 else 0 := by split_ifs <;> norm_num
  show 0 + 1 ≤ ∑ v ∈ T, chainCost (N + 2) v
  linarith

/-- C101, fewer iterations are not enough: for every number `N + 1` of iterations there is a formula without cycles, a chain of `N + 2` implications, for which
`N + 1` iterations, with any damping between 0 and 1, leave the first variable with the belief of a true variable (at most -1), although setting all
variables to false is cheaper by 1 than every other satisfying assignment; one iteration more, without damping, gives the exact belief 1. -/
theorem C101_needed (N : ℕ) {flag : Bool} {alpha : ℚ} (ha : flag = true → 0 ≤ alpha ∧ alpha ≤ 1) : ∃ b b1 : ℕ → ℚ,
    CheapestBy (Proofs.chainTables (N + 2)).used.toFinset (Satisfies (Proofs.chainTables (N + 2)).clauses) (chainCost (N + 2)) 1 ∅ ∧
    ksatBeliefs (N + 1) flag alpha (ksatObject (N + 3) 2 (Proofs.chainTables (N + 2)) (listOf (N + 3) (fun v => fin (chainCost (N + 2) v)))) =
      some (listOf (N + 3) (fun v => fin (b v))) ∧ b 0 ≤ -1 ∧
    ksatBeliefs (N + 2) false 0 (ksatObject (N + 3) 2 (Proofs.chainTables (N + 2)) (listOf (N + 3) (fun v => fin (chainCost (N + 2) v)))) =
      some (listOf (N + 3) (fun v => fin (b1 v))) ∧ b1 0 = 1 := by
  have hf := Proofs.chain_ok (N + 2)
  have hmem : 0 ∈ (Proofs.chainTables (N + 2)).used := by simp [Proofs.chainTables]
  have hw : ∀ u, Within (Proofs.chainTables (N + 2)).clauses 0 (N + 1) u → chainCost (N + 2) u = (fun v => if v = 0 then (-1 : ℚ) else 0) u := by
    intro u hu
    have := Proofs.chain_near hu
    simp only [chainCost]
    rw [if_neg (show ¬ u = N + 2 by omega)]
  obtain ⟨b0, b, h1, h2, e⟩ := C101_local hf hf le_rfl flag alpha (fun _ _ _ _ => rfl) hmem hmem hw
  obtain ⟨b2, h3, h4⟩ := C80_beliefs hf le_rfl (w := fun v => if v = 0 then (-1 : ℚ) else 0) ha (A := Finset.range (N + 3)) (σ := fun _ => true)
    (by
      intro cl hcl _
      simp only [Proofs.chainTables, List.mem_map, List.mem_range] at hcl
      obtain ⟨i, hi, rfl⟩ := hcl
      exact ⟨(i + 1, 1), by simp, by simp; omega, Or.inl ⟨rfl, rfl⟩⟩)
    (fun v _ => ⟨fun _ => by dsimp only; split_ifs <;> norm_num, fun h => by simp at h⟩) N
  have h5 := (h4 0 hmem (by simp)).1 rfl
  rw [h1] at h3
  have h6 := congrArg (fun l => l[0]?) (Option.some.inj h3)
  simp [listOf] at h6
  obtain ⟨b1, g1, a', c', g2, g3, g4⟩ := C101_enough hf le_rfl (chainCost (N + 2)) (flag := false) (alpha := 0) (K := N + 1) hmem (Or.inl rfl)
    (Proofs.chain_acyclic (N + 2)) (fun c hc => by
      rw [Proofs.chain_vars] at hc
      obtain rfl : c = 0 := by omega
      exact Proofs.chain_depth (N + 2) 0 (by omega) (by omega))
  refine ⟨b, b1, chain_cheapest N, h2, ?_, g1, ?_⟩
  · rw [e, h6]; simpa using h5
  · have hcheap := chain_cheapest N
    have hsat : Satisfies (Proofs.chainTables (N + 2)).clauses ∅ := hcheap.2.1
    have hc' : c' = 0 := by
      refine le_antisymm (g3.2 ⟨∅, Finset.empty_subset _, hsat, Finset.notMem_empty 0, by simp [cost]⟩) ?_
      obtain ⟨S, s1, s2, s3, rfl⟩ := g3.1
      refine Finset.sum_nonneg fun v hv => ?_
      unfold chainCost
      split_ifs with h
      · subst h; exact absurd hv s3
      · norm_num
      · exact le_rfl
    have ha' : a' = 1 := by
      refine le_antisymm ?_ ?_
      · refine g2.2 ⟨Finset.range (N + 3), fun v hv => by have := Finset.mem_range.mp hv; simp [Proofs.chainTables]; omega,
          Proofs.chain_sat.mpr (fun c hc _ => by simp; omega), by simp, ?_⟩
        unfold cost
        rw [Finset.sum_range_succ, Finset.sum_range_succ', Finset.sum_eq_zero (fun v hv => ?_)]
        · simp [chainCost]; norm_num
        · have := Finset.mem_range.mp hv
          simp only [chainCost]
          rw [if_neg (by omega), if_neg (by omega)]
      · obtain ⟨S, s1, s2, s3, rfl⟩ := g2.1
        have := hcheap.2.2 S s1 s2 (fun h => by rw [h] at s3; exact Finset.notMem_empty 0 s3)
        simpa [cost] using this
    rw [g4, ha', hc']; norm_num

/-! ## Examples -/

/-- Two implications that lead to a cycle of three clauses. -/
def c101Cycle : KsatTables where
  used := [0, 1, 2, 3, 4]
  clauses := [[(0, -1), (1, 1)], [(1, -1), (2, 1)], [(2, 1), (3, 1)], [(3, -1), (4, -1)], [(4, 1), (2, -1)]]
  conns := [[(0, -1)], [(0, 1), (1, -1)], [(1, 1), (2, 1), (4, -1)], [(2, 1), (3, -1)], [(3, -1), (4, 1)]]

theorem c101Cycle_ok : KFormula 5 2 c101Cycle.clauses c101Cycle.used c101Cycle.conns :=
  Proofs.kformula_of_checks (by decide) rfl (by decide) (by decide) (by decide) (by decide) (by decide)

/-- The surroundings of its first variable are a chain of two implications, so two iterations give the belief of the chain. -/
example (w : ℕ → ℚ) : ∃ b : ℕ → ℚ,
    ksatBeliefs 2 false 0 (ksatObject 5 2 c101Cycle (listOf 5 (fun v => fin (w v)))) = some (listOf 5 (fun v => fin (b v))) ∧
    MarginalDiff (Proofs.chainTables 2).used.toFinset (Satisfies (Proofs.chainTables 2).clauses) w 0 (b 0) := by
  refine C101_surroundings c101Cycle_ok (Proofs.chain_ok 2) le_rfl false 0 (v := 0) (K := 1) ?_ (by decide) (by decide) (Or.inl rfl)
    (Proofs.chain_acyclic 2) (fun c hc => ?_)
  · intro u hu c hc
    have hu : u = 0 ∨ u = 1 := by
      rcases hu with hu | ⟨cl, hcl, a, ha, b, hb, h, rfl⟩
      · exact Or.inl hu
      · have key : ∀ cl ∈ c101Cycle.clauses, ∀ a ∈ cl, ∀ b ∈ cl, a.1 = 0 → b.1 = 0 ∨ b.1 = 1 := by decide
        exact key cl hcl a ha b hb h
    have hlt : c < 5 := by
      rcases hc with hc | hc
      · exact Proofs.varsOf_lt hc
      · exact (Proofs.varsOf_lt hc).trans (by decide)
    have key : ∀ c < 5, ∀ u ≤ 1, u ∈ varsOf c101Cycle.clauses c ∨ u ∈ varsOf (Proofs.chainTables 2).clauses c →
      (Proofs.chainTables 2).clauses.getD c [] = c101Cycle.clauses.getD c [] := by decide
    exact key c hlt u (by omega) hc
  · rw [Proofs.chain_vars] at hc
    obtain rfl : c = 0 := by omega
    exact Proofs.chain_depth 2 0 (by omega) (by omega)

/-- With costs that the cycle would notice: two iterations see the chain (-1 + 2), later ones see more. -/
example : ksatBeliefs 2 false 0 (ksatObject 5 2 c101Cycle (listOf 5 (fun v => fin (if v = 0 then -1 else if v = 2 then 2 else if v = 3 then 3 else 0)))) =
      some [fin 1, fin (-1), fin (-2), fin 1, fin (-1)] ∧
    ksatBeliefs 5 false 0 (ksatObject 5 2 c101Cycle (listOf 5 (fun v => fin (if v = 0 then -1 else if v = 2 then 2 else if v = 3 then 3 else 0)))) =
      some [fin (-1), fin (-1), fin (-4), fin 4, fin (-3)] := by decide +kernel

/-- A chain of three implications: two iterations against three. -/
example : ksatBeliefs 2 false 0 (ksatObject 4 2 (Proofs.chainTables 3) (listOf 4 (fun v => fin (chainCost 3 v)))) = some [fin (-1), fin 1, fin 1, fin 2] ∧
    ksatBeliefs 3 false 0 (ksatObject 4 2 (Proofs.chainTables 3) (listOf 4 (fun v => fin (chainCost 3 v)))) = some [fin 1, fin 1, fin 1, fin 1] := by decide +kernel

end Verif.Properties
