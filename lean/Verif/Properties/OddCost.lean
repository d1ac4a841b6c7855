import Verif.Properties.OddRuns
import Verif.Properties.KsatPost

/-! # C115: how expensive the solutions of odd numbers of iterations can be -/

namespace Verif.Properties
open Verif Num Spec Model

section
variable {n k : ℕ} {t : KsatTables} (hf : KFormula n k t.clauses t.used t.conns) (hk : 2 ≤ k) (hg : Unmixed t.clauses (fun _ => 1)) {w : ℕ → ℚ}
  (hw : ∀ v ∈ t.used, 0 ≤ w v) {D : ℕ} (hD : ∀ v ∈ t.used, ((Finset.range t.clauses.length).filter (fun c => v ∈ varsOf t.clauses c)).card ≤ D)
  {flag : Bool} {alpha : ℚ}
include hf hk hg hw hD

/-- C115, bound.  In a formula with `k` literals per clause, none negated, and each variable in at most `D` clauses, with costs that are not negative: after any number of
iterations, with any damping between 0 and 1, the variables with beliefs at most zero together cost at most `1 + (k - 1) D` times as much as any satisfying assignment. -/
theorem C115_bound (ha : flag = true → 0 ≤ alpha ∧ alpha ≤ 1) {N : ℕ} (hN : 1 ≤ N) {b : ℕ → ℚ}
    (hb : ksatBeliefs N flag alpha (ksatObject n k t (listOf n (fun v => fin (w v)))) = some (listOf n (fun v => fin (b v))))
    {T : Finset ℕ} (hT : T ⊆ t.used.toFinset) (hsat : Satisfies t.clauses T) :
    cost w (t.used.toFinset.filter (fun v => b v ≤ 0)) ≤ (1 + (k - 1) * D) * cost w T := by
  set S := t.used.toFinset.filter (fun v => b v ≤ 0) with hS
  have hSu : ∀ v ∈ S, v ∈ t.used ∧ b v ≤ 0 := fun v hv => by simpa [hS] using hv
  have hTu : ∀ v ∈ T, v ∈ t.used := fun v hv => List.mem_toFinset.mp (hT hv)
  -- every clause has a literal in `T`
  have hex : ∀ c < t.clauses.length, ∃ u ∈ varsOf t.clauses c, u ∈ T := by
    intro c hc
    obtain ⟨u, hu, h1⟩ := Proofs.even_literal hf hg hsat hc
    rcases h1 with ⟨-, h1⟩ | ⟨h1, -⟩
    · exact ⟨u, hu, of_decide_eq_true h1⟩
    · exact absurd h1 (by decide)
  choose! o ho1 ho2 using hex
  have hou : ∀ c < t.clauses.length, o c ∈ t.used := fun c hc => Proofs.vars_used hf hc (ho1 c hc)
  have hone : ∀ v ∈ S \ T, w v ≤ ∑ c ∈ (Finset.range t.clauses.length).filter (fun c => v ∈ varsOf t.clauses c), w (o c) := by
    intro v hv
    obtain ⟨hv1, hv2⟩ := Finset.mem_sdiff.mp hv
    obtain ⟨hvu, hle⟩ := hSu v hv1
    obtain ⟨b', hb', hlow, -⟩ := C106_bounds hf hk hg w (flag := flag) (alpha := alpha) ha hvu o
      (fun c hc _ => ⟨ho1 c hc, fun e => hv2 (e ▸ ho2 c hc)⟩) hN
    have hbb : b' v = b v := by
      rw [hb] at hb'
      have hvn := hf.tables.used_lt v hvu
      have := congrArg (fun l => l[v]?) (Option.some.inj hb').symm
      simpa [listOf, hvn] using this
    rw [hbb] at hlow
    push_cast at hlow
    have e : ∑ c ∈ (Finset.range t.clauses.length).filter (fun c => v ∈ varsOf t.clauses c), max 0 (w (o c) * 1) =
        ∑ c ∈ (Finset.range t.clauses.length).filter (fun c => v ∈ varsOf t.clauses c), w (o c) :=
      Finset.sum_congr rfl fun c hc => by
        rw [mul_one, max_eq_right (hw _ (hou c (Finset.mem_range.mp (Finset.mem_filter.mp hc).1)))]
    rw [e] at hlow
    linarith
  have hswap : ∑ v ∈ S \ T, ∑ c ∈ (Finset.range t.clauses.length).filter (fun c => v ∈ varsOf t.clauses c), w (o c) =
      ∑ c ∈ Finset.range t.clauses.length, ∑ v ∈ (S \ T).filter (fun v => v ∈ varsOf t.clauses c), w (o c) := by
    simp only [Finset.sum_filter]
    exact Finset.sum_comm
  have hclause : ∀ c ∈ Finset.range t.clauses.length, ∑ v ∈ (S \ T).filter (fun v => v ∈ varsOf t.clauses c), w (o c) ≤ (k - 1) * w (o c) := by
    intro c hc
    have hc := Finset.mem_range.mp hc
    rw [Finset.sum_const, nsmul_eq_mul]
    refine mul_le_mul_of_nonneg_right ?_ (hw _ (hou c hc))
    have h1 : (S \ T).filter (fun v => v ∈ varsOf t.clauses c) ⊆ (varsOf t.clauses c).erase (o c) := by
      intro v hv
      obtain ⟨h1, h2⟩ := Finset.mem_filter.mp hv
      exact Finset.mem_erase.mpr ⟨fun e => (Finset.mem_sdiff.mp h1).2 (e ▸ ho2 c hc), h2⟩
    have h2 : (varsOf t.clauses c).card ≤ k := by
      refine (List.toFinset_card_le _).trans ?_
      rw [List.length_map, (hf.clause _ (Proofs.getD_mem hf hc)).1]
    have h3 := Finset.card_le_card h1
    rw [Finset.card_erase_of_mem (ho1 c hc)] at h3
    have h4 : ((S \ T).filter (fun v => v ∈ varsOf t.clauses c)).card + 1 ≤ k := by omega
    have h5 : ((((S \ T).filter (fun v => v ∈ varsOf t.clauses c)).card + 1 : ℕ) : ℚ) ≤ (k : ℚ) := by exact_mod_cast h4
    push_cast at h5
    linarith
  have hfib : ∑ c ∈ Finset.range t.clauses.length, w (o c) ≤ D * cost w T := by
    have e : ∑ u ∈ T, ∑ c ∈ (Finset.range t.clauses.length).filter (fun c => o c = u), w (o c) = ∑ c ∈ Finset.range t.clauses.length, w (o c) :=
      Finset.sum_fiberwise_of_maps_to (fun c hc => ho2 c (Finset.mem_range.mp hc)) _
    rw [← e, cost, Finset.mul_sum]
    refine Finset.sum_le_sum fun u hu => ?_
    have e2 : ∑ c ∈ (Finset.range t.clauses.length).filter (fun c => o c = u), w (o c) =
        ∑ c ∈ (Finset.range t.clauses.length).filter (fun c => o c = u), w u :=
      Finset.sum_congr rfl fun c hc => by rw [(Finset.mem_filter.mp hc).2]
    rw [e2, Finset.sum_const, nsmul_eq_mul]
    refine mul_le_mul_of_nonneg_right ?_ (hw _ (hTu u hu))
    have h1 : (Finset.range t.clauses.length).filter (fun c => o c = u) ⊆ (Finset.range t.clauses.length).filter (fun c => u ∈ varsOf t.clauses c) := by
      intro c hc
      obtain ⟨h1, h2⟩ := Finset.mem_filter.mp hc
      exact Finset.mem_filter.mpr ⟨h1, h2 ▸ ho1 c (Finset.mem_range.mp h1)⟩
    exact_mod_cast (Finset.card_le_card h1).trans (hD u (hTu u hu))
  have hk1 : (0 : ℚ) ≤ (k : ℚ) - 1 := by
    have : ((1 : ℕ) : ℚ) ≤ (k : ℚ) := by exact_mod_cast (by omega : 1 ≤ k)
    push_cast at this
    linarith
  have hout : cost w (S \ T) ≤ (k - 1) * (D * cost w T) := by
    refine (Finset.sum_le_sum hone).trans ?_
    rw [hswap]
    refine (Finset.sum_le_sum hclause).trans ?_
    rw [← Finset.mul_sum]
    exact mul_le_mul_of_nonneg_left hfib hk1
  have hin : cost w (S ∩ T) ≤ cost w T :=
    Finset.sum_le_sum_of_subset_of_nonneg Finset.inter_subset_right fun v hv _ => hw v (hTu v hv)
  have hsplit : cost w S = cost w (S ∩ T) + cost w (S \ T) := (Finset.sum_inter_add_sum_sdiff S T w).symm
  rw [hsplit]
  linarith

/-- C115, calls: without damping, a call with an odd number of iterations and threshold zero reports a satisfying assignment that costs at most `1 + (k - 1) D` times
as much as any satisfying assignment. -/
theorem C115_call (hu : flag = false ∨ alpha = 0) {order order' : List ℕ → List ℕ} (ho : ∀ l, (order l).Perm l) (ho' : ∀ l, (order' l).Perm l) (post : Bool) (pp : ℕ)
    {sol : List Bool} (hs : sol = [] ∨ sol.length = n) {N : ℕ} (hN : ¬ Even N) : ∃ res,
    ksatCall n k N flag alpha (fin 0) order order' post pp sol t (listOf n (fun v => fin (w v))) = some res ∧ res.post.flag = true ∧
    Satisfies t.clauses (t.used.toFinset.filter (· ∈ res.post.sum.active)) ∧
    ∀ T ⊆ t.used.toFinset, Satisfies t.clauses T → cost w (t.used.toFinset.filter (· ∈ res.post.sum.active)) ≤ (1 + (k - 1) * D) * cost w T := by
  obtain ⟨b, hb, -⟩ := C112_odd_beliefs hf hk hg w hu hN
  obtain ⟨res, h1, h2, h3, -, h5⟩ := C112_odd hf hk hg w hu ho ho' post pp hs hN hb (fun _ _ h => absurd h (by decide))
  have e : t.used.toFinset.filter (· ∈ res.post.sum.active) = t.used.toFinset.filter (fun v => b v ≤ 0) := by
    refine Finset.filter_congr fun v hv => ?_
    rw [h5]
    exact ⟨fun h => h.2, fun h => ⟨List.mem_toFinset.mp hv, h⟩⟩
  refine ⟨res, h1, h2, ?_, fun T hT hsat => ?_⟩
  · rw [e]
    refine Proofs.unmixed_satisfied hf hg fun c hc => ?_
    obtain ⟨b', hb', hodd⟩ := C112_odd_beliefs hf hk hg w hu hN
    obtain ⟨v, hv, hle⟩ := hodd c hc
    have hvu := Proofs.vars_used hf hc hv
    have hbb : b' v = b v := by
      rw [hb] at hb'
      have hvn := hf.tables.used_lt v hvu
      have := congrArg (fun l => l[v]?) (Option.some.inj hb').symm
      simpa [listOf, hvn] using this
    rw [hbb] at hle
    push_cast at hle
    exact ⟨v, hv, Or.inl ⟨rfl, decide_eq_true (Finset.mem_filter.mpr ⟨List.mem_toFinset.mpr hvu, by linarith⟩)⟩⟩
  · rw [e]
    have hN1 : 1 ≤ N := by
      rcases Nat.eq_zero_or_pos N with e | e
      · exact absurd (by rw [e]; decide) hN
      · exact e
    refine C115_bound hf hk hg hw hD (fun h => ?_) hN1 hb hT hsat
    rcases hu with hu | hu
    · exact absurd h (by rw [hu]; decide)
    · rw [hu]; norm_num

end

/-! ## Two hubs and many leaves -/

/-- Vertex covers of the graph in which nodes 0 and 1 are each joined to `m` further nodes. -/
def c115Graph (m : ℕ) : KsatTables where
  used := List.range (m + 2)
  clauses := (List.range (2 * m)).map (fun c => [(c % 2, 1), (c / 2 + 2, 1)])
  conns := occTable (m + 2) ((List.range (2 * m)).map (fun c => [(c % 2, 1), (c / 2 + 2, 1)]))

theorem c115_length (m : ℕ) : (c115Graph m).clauses.length = 2 * m := by simp [c115Graph]

theorem c115_clause {m c : ℕ} (hc : c < 2 * m) : (c115Graph m).clauses.getD c [] = [(c % 2, 1), (c / 2 + 2, 1)] := by
  simp [c115Graph, List.getD_eq_getElem?_getD, hc]

theorem c115_vars {m c v : ℕ} (hc : c < 2 * m) : v ∈ varsOf (c115Graph m).clauses c ↔ v = c % 2 ∨ v = c / 2 + 2 := by
  rw [varsOf, c115_clause hc]
  simp

theorem c115Graph_ok (m : ℕ) : KFormula (m + 2) 2 (c115Graph m).clauses (c115Graph m).used (c115Graph m).conns := by
  refine ⟨?_, occTable_ok ?_, by simp [c115Graph, occTable], ?_⟩
  · intro cl hcl
    obtain ⟨c, -, rfl⟩ := List.mem_map.mp hcl
    refine ⟨rfl, ?_, by simp⟩
    simp
    omega
  · intro cl hcl l hl
    obtain ⟨c, hc, rfl⟩ := List.mem_map.mp hcl
    have hc := List.mem_range.mp hc
    simp at hl
    rcases hl with rfl | rfl
    · show c % 2 < m + 2
      omega
    · show c / 2 + 2 < m + 2
      omega
  · intro v
    by_cases hv : v < m + 2
    · have e : (c115Graph m).conns.getD v [] = (List.range (2 * m)).flatMap (fun c => (((c115Graph m).clauses.getD c []).filter (fun l => l.1 == v)).map (fun l => (c, l.2))) := by
        simp [c115Graph, occTable, List.getD_eq_getElem?_getD, hv]
      rw [e, List.map_flatMap, List.nodup_flatMap]
      constructor
      · intro c hc
        rw [c115_clause (List.mem_range.mp hc)]
        by_cases h1 : c % 2 = v
        · have h2 : c / 2 + 2 ≠ v := by omega
          simp [h1, h2]
        · by_cases h2 : c / 2 + 2 = v <;> simp [h1, h2]
      · refine (List.nodup_range).imp_of_mem ?_
        intro c c' _ _ hne x hx hx'
        simp only [List.map_map, List.mem_map, List.mem_filter] at hx hx'
        obtain ⟨l, -, rfl⟩ := hx
        obtain ⟨l', -, e'⟩ := hx'
        exact hne e'.symm
    · have e : (c115Graph m).conns.getD v [] = [] := by
        rw [List.getD_eq_getElem?_getD, List.getElem?_eq_none (by simp [c115Graph, occTable]; omega)]; rfl
      rw [e]
      exact List.nodup_nil

theorem c115Graph_unmixed (m : ℕ) : Unmixed (c115Graph m).clauses (fun _ => 1) := by
  intro cl hcl l hl
  obtain ⟨c, -, rfl⟩ := List.mem_map.mp hcl
  simp at hl
  rcases hl with rfl | rfl <;> rfl

/-- Every node is in at least two edges. -/
theorem c115_occ {m : ℕ} (hm : 2 ≤ m) {v : ℕ} (hv : v < m + 2) :
    2 ≤ ((Finset.range (c115Graph m).clauses.length).filter (fun c => v ∈ varsOf (c115Graph m).clauses c)).card := by
  rw [c115_length]
  have pair : ∀ c c', c < 2 * m → c' < 2 * m → c ≠ c' → (v = c % 2 ∨ v = c / 2 + 2) → (v = c' % 2 ∨ v = c' / 2 + 2) →
      2 ≤ ((Finset.range (2 * m)).filter (fun c => v ∈ varsOf (c115Graph m).clauses c)).card := by
    intro c c' h1 h2 hne h3 h4
    refine (Finset.card_pair hne).symm.le.trans (Finset.card_le_card fun x hx => ?_)
    simp only [Finset.mem_insert, Finset.mem_singleton] at hx
    rcases hx with rfl | rfl
    · exact Finset.mem_filter.mpr ⟨Finset.mem_range.mpr h1, (c115_vars h1).mpr h3⟩
    · exact Finset.mem_filter.mpr ⟨Finset.mem_range.mpr h2, (c115_vars h2).mpr h4⟩
  by_cases h : v < 2
  · exact pair v (v + 2) (by omega) (by omega) (by omega) (by omega) (by omega)
  · exact pair (2 * (v - 2)) (2 * (v - 2) + 1) (by omega) (by omega) (by omega) (by omega) (by omega)

/-- C115, growth: with unit costs, every odd number of iterations on this graph selects all `m + 2` nodes, although the two hubs are a cover. -/
theorem C115_hubs {m : ℕ} (hm : 2 ≤ m) {N : ℕ} (hN : ¬ Even N) : ∃ res,
    ksatCall (m + 2) 2 N false 0 (fin 0) id id false 0 [] (c115Graph m) (listOf (m + 2) (fun _ => fin 1)) = some res ∧
    cost (fun _ => (1 : ℚ)) ((Finset.range (m + 2)).filter (· ∈ res.post.sum.active)) = m + 2 ∧
    Satisfies (c115Graph m).clauses {0, 1} ∧ cost (fun _ => (1 : ℚ)) ({0, 1} : Finset ℕ) = 2 := by
  have hN1 : 1 ≤ N := by
    rcases Nat.eq_zero_or_pos N with e | e
    · exact absurd (by rw [e]; decide) hN
    · exact e
  have hf := c115Graph_ok m
  have hg := c115Graph_unmixed m
  obtain ⟨res, b, h1, h2, h3, -⟩ := C112_often hf le_rfl hg (fun _ => 1) (flag := false) (alpha := 0) (Or.inl rfl) (order := id) (order' := id)
    (fun l => List.Perm.refl l) (fun l => List.Perm.refl l) 0 (sol := []) (Or.inl rfl) (d := 1)
    (fun v hv => c115_occ hm (List.mem_range.mp hv)) (fun v _ => by norm_num) (fun u _ v _ => by norm_num) hN1
  replace h3 := (h3 hN).1
  obtain ⟨b', hb', -⟩ := C112_odd_beliefs hf le_rfl hg (fun _ => 1) (flag := false) (alpha := 0) (Or.inl rfl) hN
  obtain ⟨res', r1, -, -, -, r5⟩ := C112_odd hf le_rfl hg (fun _ => 1) (flag := false) (alpha := 0) (Or.inl rfl) (order := id) (order' := id)
    (fun l => List.Perm.refl l) (fun l => List.Perm.refl l) false 0 (sol := []) (Or.inl rfl) hN hb' (fun _ _ h => absurd h (by decide))
  rw [h1] at r1
  obtain rfl := Option.some.inj r1
  obtain ⟨K, rfl⟩ : ∃ K, N = K + 1 := ⟨N - 1, by omega⟩
  obtain ⟨res', s1, s2, -⟩ := Proofs.call_report hf le_rfl (order := id) (order' := id) (fun l => List.Perm.refl l) (fun l => List.Perm.refl l)
    (post := false) (pp := 0) (sol := []) (Or.inl rfl) (thr := 0) hb' (Or.inl rfl)
  rw [h1] at s1
  obtain rfl := Option.some.inj s1
  have hall : (Finset.range (m + 2)).filter (· ∈ res.post.sum.active) = Finset.range (m + 2) := by
    refine Finset.filter_true_of_mem fun v hv => (r5 v).mpr ?_
    have hv := Finset.mem_range.mp hv
    refine ⟨List.mem_range.mpr hv, ?_⟩
    have hbb : b' v = b v := by
      rw [h2] at s2
      have := congrArg (fun l => l[v]?) s2.symm
      simpa [listOf, hv] using this
    obtain ⟨c, hc⟩ := Finset.card_pos.mp (lt_of_lt_of_le (by norm_num) (c115_occ hm hv))
    obtain ⟨hc1, hc2⟩ := Finset.mem_filter.mp hc
    have := h3 c (Finset.mem_range.mp hc1) v hc2
    push_cast at this
    rw [hbb]
    linarith
  refine ⟨res, h1, ?_, ?_, by simp [cost]⟩
  · rw [hall]
    simp [cost]
  · refine Proofs.unmixed_satisfied hf hg fun c hc => ?_
    rw [c115_length] at hc
    refine ⟨c % 2, (c115_vars hc).mpr (Or.inl rfl), Or.inl ⟨rfl, decide_eq_true ?_⟩⟩
    rw [Finset.mem_insert, Finset.mem_singleton]
    omega

/-- The claim: there is a factor such that all odd numbers of iterations find assignments at most that much more expensive than necessary, on all formulas with two literals per
clause, none of them negated, and unit costs. -/
def C115_claim : Prop := ∃ R : ℚ, ∀ (n : ℕ) (t : KsatTables), KFormula n 2 t.clauses t.used t.conns → Unmixed t.clauses (fun _ => 1) →
  ∃ J, ∀ N ≥ J, ¬ Even N → ∀ res, ksatCall n 2 N false 0 (fin 0) id id false 0 [] t (listOf n (fun _ => fin 1)) = some res →
    ∀ T ⊆ t.used.toFinset, Satisfies t.clauses T →
      cost (fun _ => (1 : ℚ)) (t.used.toFinset.filter (· ∈ res.post.sum.active)) ≤ R * cost (fun _ => 1) T

/-- C115, the claim fails: two hubs with many leaves need two nodes, and all are taken. -/
theorem C115_claim_false : ¬ C115_claim := by
  rintro ⟨R, h⟩
  obtain ⟨m, hm⟩ := exists_nat_gt (2 * R)
  obtain ⟨J, hJ⟩ := h (m + 2 + 2) (c115Graph (m + 2)) (c115Graph_ok _) (c115Graph_unmixed _)
  have hN : ¬ Even (2 * J + 1) := by simp
  obtain ⟨res, h1, h2, h3, h4⟩ := C115_hubs (m := m + 2) (by omega) hN
  have h5 := hJ _ (by omega) hN res h1 {0, 1} (by
    intro v hv
    simp only [Finset.mem_insert, Finset.mem_singleton] at hv
    exact List.mem_toFinset.mpr (List.mem_range.mpr (by omega))) h3
  have e : (c115Graph (m + 2)).used.toFinset = Finset.range (m + 2 + 2) := by ext v; simp [c115Graph]
  rw [e, h2, h4] at h5
  push_cast at h5
  linarith

/-- C115, what holds of the claim: a factor for the formulas in which each variable is in at most `D` clauses, from the first iteration on. -/
theorem C115_claim_partial (D : ℕ) : ∃ R : ℚ, ∀ (n : ℕ) (t : KsatTables), KFormula n 2 t.clauses t.used t.conns → Unmixed t.clauses (fun _ => 1) →
    (∀ v ∈ t.used, ((Finset.range t.clauses.length).filter (fun c => v ∈ varsOf t.clauses c)).card ≤ D) →
    ∀ N, ¬ Even N → ∀ res, ksatCall n 2 N false 0 (fin 0) id id false 0 [] t (listOf n (fun _ => fin 1)) = some res →
      ∀ T ⊆ t.used.toFinset, Satisfies t.clauses T →
        cost (fun _ => (1 : ℚ)) (t.used.toFinset.filter (· ∈ res.post.sum.active)) ≤ R * cost (fun _ => 1) T := by
  refine ⟨1 + ((2 : ℕ) - 1) * D, fun n t hf hg hD N hN res hr T hT hsat => ?_⟩
  obtain ⟨res', h1, -, -, h2⟩ := C115_call hf le_rfl hg (w := fun _ => 1) (fun _ _ => by norm_num) hD (flag := false) (alpha := 0) (Or.inl rfl)
    (order := id) (order' := id) (fun l => List.Perm.refl l) (fun l => List.Perm.refl l) false 0 (sol := []) (Or.inl rfl) hN
  rw [hr] at h1
  obtain rfl := Option.some.inj h1
  exact h2 T hT hsat

/-! ## Examples -/

/-- The star with three leaves after one iteration: all four nodes are taken, and one would do; here the bound `1 + 3` is attained. -/
def c115Star : KsatTables where
  used := [0, 1, 2, 3]
  clauses := [[(0, 1), (1, 1)], [(0, 1), (2, 1)], [(0, 1), (3, 1)]]
  conns := [[(0, 1), (1, 1), (2, 1)], [(0, 1)], [(1, 1)], [(2, 1)]]

theorem c115Star_ok : KFormula 4 2 c115Star.clauses c115Star.used c115Star.conns :=
  Proofs.kformula_of_checks (by decide) rfl (by decide) (by decide) (by decide) (by decide) (by decide)

theorem C115_attained : ksatBeliefs 1 false 0 (ksatObject 4 2 c115Star (listOf 4 (fun _ => fin 1))) = some (listOf 4 (fun v => fin (if v = 0 then -2 else 0))) ∧
    cost (fun _ => (1 : ℚ)) (c115Star.used.toFinset.filter (fun v => (if v = 0 then (-2 : ℚ) else 0) ≤ 0)) = (1 + ((2 : ℕ) - 1) * (3 : ℕ)) * cost (fun _ => 1) {0} ∧
    Satisfies c115Star.clauses {0} := by
  refine ⟨by decide +kernel, ?_, by unfold Satisfies; decide +kernel⟩
  have e : c115Star.used.toFinset.filter (fun v => (if v = 0 then (-2 : ℚ) else 0) ≤ 0) = {0, 1, 2, 3} := by decide +kernel
  rw [e]
  simp [cost]
  norm_num

example {N : ℕ} (hN : 1 ≤ N) {b : ℕ → ℚ} (hb : ksatBeliefs N true (1 / 2) (ksatObject 4 2 c115Star (listOf 4 (fun _ => fin 1))) = some (listOf 4 (fun v => fin (b v)))) :
    cost (fun _ => (1 : ℚ)) (c115Star.used.toFinset.filter (fun v => b v ≤ 0)) ≤ (1 + ((2 : ℕ) - 1) * (3 : ℕ)) * cost (fun _ => 1) {0} :=
  C115_bound c115Star_ok le_rfl (by unfold Unmixed; decide) (w := fun _ => 1) (fun _ _ => by norm_num) (D := 3) (by decide) (fun _ => by norm_num) hN hb
    (by decide) C115_attained.2.2

end Verif.Properties
