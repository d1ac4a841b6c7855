import Verif.Proofs.UnitDraws

/-! # C100: the unit tests on the inputs their drivers draw -/

namespace Verif.Properties
open Verif Num Spec Model

/-! ## Assignment -/

/-- Options for which the driver builds a problem: known team types, and every department can form every team alone. -/
structure UtOptions (caps types : List ℕ) : Prop where
  departments : caps ≠ []
  someType : types ≠ []
  known : TypesOk types
  room : ∀ c ∈ caps, ∀ t ∈ types, (crew t).1 + (crew t).2 ≤ c

section kc
variable {caps types : List ℕ} (h : UtOptions caps types)
include h

/-- C100, drawn inputs of `KnapsackForward`: the test passes for all capacities, team types and costs. -/
theorem C100_drawn_forward (r : ℕ → ℚ) : utDrawnForward caps types (fun t => fin (r t)) = some true := by
  obtain ⟨T, wf, h1, h2, -⟩ := Proofs.utTable_spec h.departments h.known h.someType h.room
  rw [utDrawnForward, Proofs.utDrawnDepts_eq h1, Option.bind_some]
  exact C100_forward (by simpa using h.departments) (Proofs.utDepts_ok (h2 1 one_pos) r)

/-- C100, drawn inputs of `KnapsackBackward`. -/
theorem C100_drawn_backward (r : ℕ → ℚ) : utDrawnBackward caps types (fun t => fin (r t)) = some true := by
  obtain ⟨T, wf, h1, h2, -⟩ := Proofs.utTable_spec h.departments h.known h.someType h.room
  rw [utDrawnBackward, Proofs.utDrawnDepts_eq h1, Option.bind_some]
  exact C100_backward (by simpa using h.departments) (Proofs.utDepts_ok (h2 1 one_pos) r)

/-- C100, drawn inputs of `ExtrinsicOutputDepartment`, with any numbers (also infinite ones) in the tables. -/
theorem C100_drawn_output (r : ℕ → ℚ) (fwd bwd : ℕ → ℕ → ℕ → Num) : utDrawnOutput caps types (fun t => fin (r t)) fwd bwd = some true := by
  obtain ⟨T, wf, h1, h2, -⟩ := Proofs.utTable_spec h.departments h.known h.someType h.room
  have hT : 0 < T := by
    obtain ⟨t, ht, -⟩ := (h2 1 one_pos).used 0 (h2 1 one_pos).departments
    omega
  have hd := Proofs.utDepts_ok (h2 1 one_pos) r
  simp only [utDrawnOutput, Proofs.utDrawnDepts_eq h1, Option.bind_eq_bind, Option.bind_some]
  refine C100_output (by simpa using h.departments) hT fun u hu => ?_
  obtain ⟨⟨v, i⟩, hv, rfl⟩ := List.mem_map.mp hu
  exact ⟨hd v (List.mem_iff_getElem?.mpr ⟨i, List.mem_zipIdx_iff_getElem?.mp hv⟩), rfl, rfl, rfl, rfl⟩

/-- C100, drawn inputs of `Team2KnapsackUpdate`. -/
theorem C100_drawn_department (r : ℕ → ℚ) (x : ℕ → ℕ → ℚ) (c : ℕ → ℚ) :
    utDrawnTeamToKnapsack caps types (fun t => fin (r t)) (fun d t => fin (x d t)) (fun t => fin (c t)) = some true := by
  obtain ⟨T, wf, h1, h2, -⟩ := Proofs.utTable_spec h.departments h.known h.someType h.room
  obtain ⟨inp, A, a1, a2, a3, -, -, -, a7, -⟩ := Proofs.utDrawnInputs_ok (h2 1 one_pos) h1 false 0 r (fun _ _ => 0)
  have hT : 0 < T := by
    obtain ⟨t, ht, -⟩ := (h2 1 one_pos).used 0 (h2 1 one_pos).departments
    omega
  have e : utDrawnInputs caps types 1 false 0 (fun t => fin (r t)) (fun _ _ => 0) = some (inp, A) := a1
  simp only [utDrawnTeamToKnapsack, e, Option.bind_eq_bind, Option.bind_some]
  exact C100_department a7 ⟨rfl, rfl, fun _ _ _ _ => rfl⟩ ⟨rfl, fun _ _ => rfl⟩ (by rw [a2]; exact (h2 1 one_pos).departments) (by omega)

/-- C100, drawn inputs of `Iterate` of the assignment program: both comparisons pass for every number of iterations (at least one), for at
most 11 departments, at least two projects, and costs up to 300 as the driver draws them, unless there are as many teams as projects.  The
number of teams is at least two.  Missing for the full claim: as many teams as projects, and more departments, for which the driver fails. -/
theorem C100_drawn_kc_iterate_partial (h11 : caps.length ≤ 11) (hlen : 2 ≤ caps.length) : ∃ T ws, utTable caps types = some (T, ws) ∧ 2 ≤ T ∧
    ∀ (P : ℕ) (flag : Bool) (alpha : ℚ) (w : ℕ → ℚ) (R : ℕ → ℕ → ℚ) (K : ℕ), 2 ≤ P → P ≠ T → (flag = true → 0 < alpha ∧ alpha ≤ 1) →
      (∀ t, |w t| ≤ 300) → (∀ p t, |R p t| ≤ 300) →
      utDrawnIterate caps types P flag alpha (fun t => fin (w t)) (fun p t => fin (R p t)) (K + 1) = some (true, true) := by
  obtain ⟨T, wf, h1, h2, h3⟩ := Proofs.utTable_spec h.departments h.known h.someType h.room
  refine ⟨T, _, h1, h3 hlen, fun P flag alpha w R K hP hPT hfa hw hR => ?_⟩
  obtain ⟨inp, A, a1, a2, a3, a4, a5, a6, a7, a8⟩ := Proofs.utDrawnInputs_ok (h2 P (by omega)) h1 flag alpha w R
  rw [← a2, ← a3] at a8
  have hT := h3 hlen
  obtain ⟨pext, pintr, ext, intr, b1, b2, b3, b4, b5, b6, b7⟩ := C70_programs_agree a7 (by rw [a5, a6]; exact hfa)
    (cheap_of_bound (B := 300) (by omega) (fun t _ => hw t) (fun p _ t _ => hR p t) (by norm_num)) (by omega) (by omega) (by omega) a8 K
  have c1 := Proofs.compareArr_pass (by omega) (⟨pext, ext, rfl, rfl, b3⟩ : AgreeArr _ (some pext) (some ext))
  have c2 := Proofs.compareFlat_pass (show 0 < inp.numProjects by omega) (show 0 < inp.numTeams by omega)
    (p := some pintr) (q := some intr) ⟨pintr, intr, rfl, rfl, b4, b5, b6, b7⟩
  simp only [utDrawnIterate, a1, Option.bind_eq_bind, Option.bind_some]
  rw [if_pos h11]
  simp only [utKcIterate, b1, b2, Option.map_some, c1, c2, Option.bind_eq_bind, Option.bind_some]

end kc

/-- C100, drawn inputs of `Iterate`: more than 11 departments make the driver fail, whatever it draws. -/
theorem C100_drawn_many_departments {caps types : List ℕ} (h : 11 < caps.length) (P : ℕ) (flag : Bool) (alpha : ℚ) (w : ℕ → Num) (R : ℕ → ℕ → Num)
    (N : ℕ) : utDrawnIterate caps types P flag alpha w R N = none := by
  simp only [utDrawnIterate, Option.bind_eq_bind, show ¬ caps.length ≤ 11 by omega, if_false]
  cases utDrawnInputs caps types P flag alpha w R <;> rfl

/-! ## k-SAT -/

section ksat
variable {n m k : ℕ} {order : List ℕ → List ℕ} {sol : List Bool} {first : ℕ → ℕ} {pick : ℕ → ℕ → ℕ} {sign : ℕ → ℕ → Bool}

/-- C100, drawn inputs of `VariableEc2KsatConstraintUpdate`: passes for every formula that can be drawn (at least one clause), all costs and all
messages. -/
theorem C100_drawn_variable (hk : 1 ≤ k) (hm : 0 < m) (hsol : sol.length = n) (hf : ∀ c < m, first c < n)
    (hp : ∀ c < m, ∀ j < k - 1, pick c j < n - 1 - j) (ho : ∀ l, (order l).Perm l) (w : ℕ → ℚ) (q : ℕ → ℕ → ℚ) :
    utDrawnVariable n m k order sol first pick sign (fun v => fin (w v)) (fun c v => fin (q c v)) = some true := by
  obtain ⟨t, h1, h2, h3⟩ := Proofs.generate_formula (sign := sign) hk hsol hf hp ho
  obtain ⟨-, a2, a3, a4⟩ := Proofs.ksatTables_ready h2 false 0 w
  have hn : 0 < n := by have := hf 0 hm; omega
  simp only [utDrawnVariable, h1, Option.bind_eq_bind, Option.bind_some]
  refine C100_variable (w := w) a2 a3 (x := fun c v => if ((t.clauses.getD c []).map Prod.fst).contains v then q c v else 0) ⟨rfl, rfl, fun c _ v _ => ?_⟩
    (fun c hc v _ hv => ?_) (List.length_pos_iff.mpr (h3 (by omega))) hn
  · simp only [utClauseMessages]
    split <;> rfl
  · have e : v ∉ varsOf t.clauses c := by rw [← a4 c hc]; exact hv
    rw [varsOf, List.mem_toFinset] at e
    exact if_neg (by simpa using e)

/-- C100, drawn inputs of `KsatConstraint2VariableEcUpdate`. -/
theorem C100_drawn_clause (hk : 1 ≤ k) (hm : 0 < m) (hsol : sol.length = n) (hf : ∀ c < m, first c < n)
    (hp : ∀ c < m, ∀ j < k - 1, pick c j < n - 1 - j) (ho : ∀ l, (order l).Perm l) (w : ℕ → ℚ) (q : ℕ → ℕ → ℚ) :
    utDrawnClause n m k order sol first pick sign (fun v => fin (w v)) (fun c v => fin (q c v)) = some true := by
  obtain ⟨t, h1, h2, h3⟩ := Proofs.generate_formula (sign := sign) hk hsol hf hp ho
  obtain ⟨a1, -⟩ := Proofs.ksatTables_ready h2 false 0 w
  have hn : 0 < n := by have := hf 0 hm; omega
  simp only [utDrawnClause, h1, Option.bind_eq_bind, Option.bind_some]
  refine C100_clause a1 (x := fun c v => if v < k ∧ ((t.clauses.getD c []).map Prod.fst).contains v = false then 0 else q c v) ⟨rfl, rfl, fun c _ v _ => ?_⟩
    (List.length_pos_iff.mpr (h3 (by omega))) hn
  simp only [utVariableMessages]
  split <;> rfl

/-- C100, the formula that `Iterate` of the k-SAT program draws: exactly `m` clauses of `k` literals on different variables, all satisfied by the
hidden solution.  Unlike the generator of the solver (C29) it keeps clauses on the same variables. -/
theorem C100_plain_formula (hk : 1 ≤ k) (hsol : sol.length = n) (hf : ∀ c < m, first c < n) (hp : ∀ c < m, ∀ j < k - 1, pick c j < n - 1 - j)
    (ho : ∀ l, (order l).Perm l) :
    ∃ t, plainFormula n m k order sol first pick sign = some t ∧ KFormula n k t.clauses t.used t.conns ∧ t.clauses.length = m ∧
      violated t.clauses (asgn sol) = [] := by
  obtain ⟨t, h1, h2, h3, h4⟩ := Proofs.plainFormula_spec (sign := sign) hk hsol hf hp ho
  refine ⟨t, h1, h2, h3, ?_⟩
  rw [violated, List.filter_eq_nil_iff]
  intro c hc hv
  rw [List.mem_range] at hc
  obtain ⟨l, hl, hs⟩ := (h4 _ (Proofs.getD_mem h2 hc)).sat
  exact (by simpa using hv : ∀ l ∈ t.clauses.getD c [], ¬ LitTrue (asgn sol) l) l hl hs

/-- C100, drawn inputs of `Iterate` of the k-SAT program: passes for every number of iterations. -/
theorem C100_drawn_ksat_iterate (hk : 2 ≤ k) (hn : 0 < n) (hsol : sol.length = n) (hf : ∀ c < m, first c < n)
    (hp : ∀ c < m, ∀ j < k - 1, pick c j < n - 1 - j) (ho : ∀ l, (order l).Perm l) {flag : Bool} {alpha : ℚ} (hfa : flag = true → alpha ≠ 0)
    (w : ℕ → ℚ) (N : ℕ) : utDrawnKsatIterate n m k flag alpha order sol first pick sign (fun v => fin (w v)) N = some true := by
  obtain ⟨t, h1, h2, -⟩ := Proofs.plainFormula_spec (sign := sign) (by omega) hsol hf hp ho
  obtain ⟨a1, a2, a3, -⟩ := Proofs.ksatTables_ready h2 flag alpha w
  obtain ⟨V, x, b1, b2⟩ := Proofs.ksatStart_ready h2 w
  have b1 : ksatStart (ksatObject n k t ((List.range n).map (fun v => fin (w v)))) = some V := b1
  simp only [utDrawnKsatIterate, h1, b1, Option.bind_eq_bind, Option.bind_some]
  exact C100_ksat_iterate a1 a2 a3 hk hfa b2 hn N

end ksat

/-! ## TSP -/

section tsp
variable {n : ℕ} {r : ℕ → ℕ → ℚ} (sym : Bool) (hr : ∀ i j, r i j ≠ 0)

theorem edges_pos (hn : 2 ≤ n) : 0 < n * n - n := by
  have : n * 2 ≤ n * n := Nat.mul_le_mul_left n hn
  omega

include hr

/-- C100, drawn inputs of `ExtrinsicOutputEdgeEcRelaxedGraphUpdate`: passes for every matrix without zero costs (they are drawn from 1 to 1000) and
all messages. -/
theorem C100_drawn_extrinsic_relaxed (hn : 2 ≤ n) (q : ℕ → ℕ → ℚ) :
    utDrawnExtrinsicRelaxed sym n (fun i j => fin (r i j)) (fun e v => fin (q e v)) = some true := by
  obtain ⟨x, h1, -⟩ := Proofs.utEdgeMessages_is (sym := sym) (n := n) hr q
  exact C100_tsp_extrinsic_relaxed h1 (edges_pos hn)

/-- C100, drawn inputs of `ExtrinsicOutputEdgeEcAugmentedGraphUpdate`. -/
theorem C100_drawn_extrinsic_augmented (hn : 2 ≤ n) (q y : ℕ → ℕ → ℚ) (cuts : List (List ℕ)) :
    utDrawnExtrinsicAugmented sym n (fun i j => fin (r i j)) (fun e v => fin (q e v)) cuts (fun i e => fin (y i e)) = some true := by
  obtain ⟨x, h1, -⟩ := Proofs.utEdgeMessages_is (sym := sym) (n := n) hr q
  obtain ⟨s, h2⟩ := Proofs.utCutMessages_is n cuts y
  exact C100_tsp_extrinsic_augmented h1 h2 (edges_pos hn)

/-- C100, drawn inputs of `DegreeConstraint2EdgeEcUpdate`, for at least three nodes. -/
theorem C100_drawn_degree (hn : 3 ≤ n) (q : ℕ → ℕ → ℚ) : utDrawnDegree sym n (fun i j => fin (r i j)) (fun e v => fin (q e v)) = some true := by
  obtain ⟨h1, h2⟩ := Proofs.utEdges_spec (sym := sym) (n := n) hr
  exact C100_degree h1.2.1 h2 (C12_complete_two_ways hn h1.2.2) (x := q) ⟨rfl, rfl, fun _ _ _ _ => rfl⟩ (edges_pos (by omega)) (by omega)

omit hr in
/-- C100, drawn inputs of `SubtourConstraints2EdgeEcUpdate`: at least one cut, every cut a sample of at least two edges without repetition. -/
theorem C100_drawn_subtour (hn : 2 ≤ n) {cuts : List (List ℕ)} (hc : CutsOk (n * n - n) cuts) (hne : cuts ≠ []) (y : ℕ → ℕ → ℚ) :
    utDrawnSubtour n cuts (fun i e => fin (y i e)) = some true :=
  C100_cut hc hne (y := y) ⟨rfl, rfl, fun _ _ _ _ => rfl⟩ (edges_pos hn)

/-- C100, drawn inputs of `EdgeEc2DegreeConstraintRelaxedGraphUpdate`. -/
theorem C100_drawn_edge_relaxed (hn : 2 ≤ n) (q : ℕ → ℕ → ℚ) :
    utDrawnEdgeRelaxed sym n (fun i j => fin (r i j)) (fun e v => fin (q e v)) = some true := by
  obtain ⟨h1, h2⟩ := Proofs.utEdges_spec (sym := sym) (n := n) hr
  obtain ⟨x, h3, -⟩ := Proofs.utEdgeMessages_is (sym := sym) (n := n) hr q
  obtain ⟨costs, table, c, c2, t1, -, t3, -⟩ := Proofs.utTables_is (n := n) sym hr
  simp only [utDrawnEdgeRelaxed, t1, Option.bind_eq_bind, Option.bind_some]
  exact C100_edge_relaxed h1.2.1 h2 h3 t3 (edges_pos hn) (by omega)

/-- C100, drawn inputs of `EdgeEc2SubtourConstraintsUpdate`. -/
theorem C100_drawn_edge_cut (hn : 2 ≤ n) (q y : ℕ → ℕ → ℚ) {cuts : List (List ℕ)} (hc : CutsOk (n * n - n) cuts) (hne : cuts ≠ []) :
    utDrawnEdgeCut sym n (fun i j => fin (r i j)) (fun e v => fin (q e v)) cuts (fun i e => fin (y i e)) = some true := by
  obtain ⟨h1, h2⟩ := Proofs.utEdges_spec (sym := sym) (n := n) hr
  obtain ⟨x, h3, h4⟩ := Proofs.utEdgeMessages_is (sym := sym) (n := n) hr q
  obtain ⟨s, h5⟩ := Proofs.utCutMessages_is n cuts y
  obtain ⟨costs, table, c, c2, t1, t2, -⟩ := Proofs.utTables_is (n := n) sym hr
  simp only [utDrawnEdgeCut, t1, Option.bind_eq_bind, Option.bind_some]
  exact C100_edge_cut h1.2.1 h2 (fun l hl => (hc l hl).2.2) hne t2 h3 h5 h4 (edges_pos hn)

/-- C100, drawn inputs of `EdgeEc2DegreeConstraintAugmentedGraphUpdate`. -/
theorem C100_drawn_edge_augmented (hn : 2 ≤ n) (q y : ℕ → ℕ → ℚ) {cuts : List (List ℕ)} (hne : cuts ≠ []) :
    utDrawnEdgeAugmented sym n (fun i j => fin (r i j)) (fun e v => fin (q e v)) cuts (fun i e => fin (y i e)) = some true := by
  obtain ⟨h1, h2⟩ := Proofs.utEdges_spec (sym := sym) (n := n) hr
  obtain ⟨x, h3, h4⟩ := Proofs.utEdgeMessages_is (sym := sym) (n := n) hr q
  obtain ⟨s, h5⟩ := Proofs.utCutMessages_is n cuts y
  obtain ⟨costs, table, c, c2, t1, -, t3, t4⟩ := Proofs.utTables_is (n := n) sym hr
  simp only [utDrawnEdgeAugmented, t1, Option.bind_eq_bind, Option.bind_some]
  exact C100_edge_augmented h1.2.1 h2 (by simpa using hne) h3 h5 t3 (fun e he v hv a b => ⟨h4 e he v hv a b, t4 e he v hv a b⟩) (edges_pos hn) (by omega)

/-- C100, drawn inputs of `IterateRelaxedGraph`: passes for every number of iterations (at least one). -/
theorem C100_drawn_tsp_iterate (hn : 3 ≤ n) {flag : Bool} {alpha : ℚ} (hfa : flag = true → alpha ≠ 0) (K : ℕ) :
    utDrawnTspRelaxed sym n (fun i j => fin (r i j)) flag alpha (K + 1) = some true := by
  obtain ⟨h1, h2⟩ := Proofs.utEdges_spec (sym := sym) (n := n) hr
  obtain ⟨C, hC, -⟩ := C34_matrix sym n r
  obtain ⟨inp, a, d1, d2, d3, -, d5, d6, d7, -, d9⟩ := C48_instance flag alpha hC h1 hn
  have d1 : utTspInputs sym n (fun i j => fin (r i j)) flag alpha = some (inp, a) := d1
  simp only [utDrawnTspRelaxed, d1, Option.bind_eq_bind, Option.bind_some]
  exact C100_tsp_iterate d7 (by rw [d5, d6]; exact hfa) (by rw [d2, d3]; exact d9) (by rw [d3]; exact edges_pos (by omega)) K

/-- C100, drawn inputs of `IterateAugmentedGraph`: passes if the C++ program, visiting its hash maps in the order of insertion, ends with a tour and
the relaxed run selected a cycle.  Missing for the full claim: relaxed runs without a cycle, for which the Python program fails
(`C100_augmented_claim_false`), runs of the C++ program that end by one of its limits, which the Python program does not have, and other
orders of the hash maps. -/
theorem C100_drawn_tsp_augmented_partial (hn : 3 ≤ n) {flag : Bool} {alpha : ℚ} (hfa : flag = true → alpha ≠ 0) {thr : Num} (hthr : thr ≠ nan)
    {K fuel : ℕ} {inp : TspInputs} {e2d : Mat Num} (hinp : utTspInputs sym n (fun i j => fin (r i j)) flag alpha = some (inp, e2d)) {st : TspState}
    (hst : tspSolve (tspSetup inp (K + 1) false true thr 50 50 (fun _ sel => (buildGraph sel).map Prod.fst)) fuel (tspStart inp e2d) = some (some st))
    (htour : st.an.tourFlag = true) (hfuel : st.numAugm < fuel)
    (hcyc : ∀ st1, iterateRelaxed (tspSetup inp (K + 1) false true thr 50 50 (fun _ sel => (buildGraph sel).map Prod.fst)) (tspStart inp e2d) = some st1 →
      ¬ Acyclic st1.selected) :
    utDrawnTspAugmented sym n (fun i j => fin (r i j)) flag alpha thr (fun _ sel => (buildGraph sel).map Prod.fst) (K + 1) fuel = some (some true) := by
  obtain ⟨h1, h2⟩ := Proofs.utEdges_spec (sym := sym) (n := n) hr
  obtain ⟨C, hC, -⟩ := C34_matrix sym n r
  obtain ⟨inp', a', d1, d2, d3, d4, d5, d6, d7, d8, d9⟩ := C48_instance flag alpha hC h1 hn
  have d1 : utTspInputs sym n (fun i j => fin (r i j)) flag alpha = some (inp', a') := d1
  rw [hinp] at d1
  obtain ⟨rfl, rfl⟩ := Prod.mk.inj (Option.some.inj d1)
  obtain ⟨f, g, -, b2, -, b4, b5, -⟩ := C60_same_run_partial d7 (by rw [d5, d6]; exact hfa) (by rw [d2]; exact d8) (by omega)
    (by rw [d2, d4]; exact h1.2.2) hthr (by rw [d2, d3]; exact d9) (by norm_num) hst (fun _ => hcyc)
  have b5 := b5 (Or.inl htour) fuel hfuel
  have b6 := (b4 st.numAugm le_rfl).intrinsic
  rw [b2] at b6
  have b5 : pyTspSolve ⟨inp, K + 1, false, true, thr⟩ fuel ⟨e2d, none, none, ⟨0, inp.numEdges, fun _ _ => 0⟩, none⟩ = some (some (g st.numAugm)) := b5
  simp only [utDrawnTspAugmented, hinp, utTspAugmented, b5, hst, Option.bind_eq_bind, Option.bind_some, Option.map_some]
  rw [Proofs.compareArr_pass (by rw [d3]; exact edges_pos (by omega)) (⟨_, _, rfl, rfl, b6⟩ : AgreeArr inp.numEdges (some (g st.numAugm).intr) (some st.intr))]

end tsp

/-- C100, full claim for `IterateAugmentedGraph`: the test passes whenever the C++ program, visiting its hash maps in the order of insertion, ends with a tour. -/
def C100_augmented_claim : Prop := ∀ (sym : Bool) (n : ℕ) (r : ℕ → ℕ → ℚ) (flag : Bool) (alpha : ℚ) (thr : ℚ) (K fuel : ℕ) (inp : TspInputs) (e2d : Mat Num)
    (st : TspState), 3 ≤ n → (∀ i j, 1 ≤ r i j ∧ r i j ≤ 1000) → (flag = true → 0 < alpha ∧ alpha ≤ 1) →
    utTspInputs sym n (fun i j => fin (r i j)) flag alpha = some (inp, e2d) →
    tspSolve (tspSetup inp (K + 1) false true (fin thr) 50 50 (fun _ sel => (buildGraph sel).map Prod.fst)) fuel (tspStart inp e2d) = some (some st) →
    st.an.tourFlag = true → st.numAugm < fuel →
    utDrawnTspAugmented sym n (fun i j => fin (r i j)) flag alpha (fin thr) (fun _ sel => (buildGraph sel).map Prod.fst) (K + 1) fuel = some (some true)

/-- A cost matrix that the driver can draw. -/
def c100Costs (i j : ℕ) : ℚ := ([[1, 4, 3], [4, 1, 1], [2, 3, 1]].getD i []).getD j 1

theorem c100Costs_range (i j : ℕ) : 1 ≤ c100Costs i j ∧ c100Costs i j ≤ 1000 := by
  unfold c100Costs
  match i with
  | 0 => match j with
    | 0 | 1 | 2 => constructor <;> norm_num
    | j + 3 => constructor <;> simp
  | 1 => match j with
    | 0 | 1 | 2 => constructor <;> norm_num
    | j + 3 => constructor <;> simp
  | 2 => match j with
    | 0 | 1 | 2 => constructor <;> norm_num
    | j + 3 => constructor <;> simp
  | i + 3 => constructor <;> simp

/-- C100 is false for `IterateAugmentedGraph`: on a matrix that the driver can draw the C++ program ends with a tour and the Python program fails. -/
theorem C100_augmented_claim_false : ¬ C100_augmented_claim := by
  intro h
  have h1 : ((utTspInputs false 3 (fun i j => fin (c100Costs i j)) true (1 / 2)).bind fun p =>
      (tspSolve (tspSetup p.1 2 false true (fin (-1 / 10000)) 50 50 (fun _ sel => (buildGraph sel).map Prod.fst)) 20 (tspStart p.1 p.2)).map
        (Option.map fun (s : TspState) => (s.an.tourFlag, s.numAugm))) = some (some (true, 1)) := by decide +kernel
  have h2 : utDrawnTspAugmented false 3 (fun i j => fin (c100Costs i j)) true (1 / 2) (fin (-1 / 10000)) (fun _ sel => (buildGraph sel).map Prod.fst) 2 20 =
      some none := by decide +kernel
  obtain ⟨⟨inp, e2d⟩, hi, h3⟩ := Option.bind_eq_some_iff.mp h1
  simp only [Option.map_eq_some_iff] at h3
  obtain ⟨-, ho, st, rfl, hr⟩ := h3
  simp only [Prod.mk.injEq] at hr
  have := h false 3 c100Costs true (1 / 2) (-1 / 10000) 1 20 inp e2d st le_rfl c100Costs_range (fun _ => by norm_num) hi ho hr.1 (by omega)
  rw [h2] at this
  simp at this

/-! ## Examples -/

/-- The options of the script `unit_test_kc_mwm.sh`: 584 teams. -/
example : UtOptions [20, 30, 10, 7, 8] [1, 2, 3, 4, 5] ∧ (utTable [20, 30, 10, 7, 8] [1, 2, 3, 4, 5]).map Prod.fst = some 584 :=
  ⟨⟨by decide, by decide, by unfold TypesOk; decide, by decide⟩, by decide +kernel⟩
example : utDrawnForward [4, 5] [5, 1] (fun t => fin (-t)) = some true ∧ utDrawnBackward [4, 5] [5, 1] (fun t => fin (-t)) = some true ∧
    utDrawnIterate [4, 5] [5, 1] 3 true (1 / 2) (fun t => fin (-t)) (fun p t => fin (p * 7 + t)) 2 = some (true, true) := by decide +kernel
/-- Without room for a team the rows have different lengths and the driver fails before it tests anything. -/
example : utDrawnForward [3, 1, 3] [5, 1] (fun t => fin (-t)) = none := by decide +kernel
/-- Three times the same clause. -/
example : (plainFormula 3 3 2 id [true, false, true] (fun _ => 1) (fun _ _ => 0) (fun _ _ => true)).map (fun t => (t.clauses, t.used)) =
    some ([[(1, -1), (0, 1)], [(1, -1), (0, 1)], [(1, -1), (0, 1)]], [1, 0]) := by decide +kernel
example : utDrawnKsatIterate 3 3 2 true (1 / 2) id [true, false, true] (fun _ => 1) (fun _ _ => 0) (fun _ _ => true) (fun v => fin (v - 1)) 3 = some true ∧
    utDrawnVariable 3 3 2 id [true, false, true] (fun c => c) (fun _ _ => 0) (fun _ _ => true) (fun v => fin (v - 1)) (fun c v => fin (3 * c - v)) = some true ∧
    utDrawnClause 3 3 2 id [true, false, true] (fun c => c) (fun _ _ => 0) (fun _ _ => true) (fun v => fin (v - 1)) (fun c v => fin (3 * c - v)) = some true := by
  decide +kernel
example : utDrawnTspRelaxed false 3 (fun i j => fin (c100Costs i j)) true (1 / 2) 2 = some true ∧
    utDrawnDegree true 3 (fun i j => fin (c100Costs i j)) (fun e v => fin (e - v)) = some true ∧
    utDrawnEdgeCut true 3 (fun i j => fin (c100Costs i j)) (fun e v => fin (e - v)) [[0, 3], [5, 1, 2]] (fun i e => fin (i + e)) = some true ∧
    utDrawnEdgeAugmented true 3 (fun i j => fin (c100Costs i j)) (fun e v => fin (e - v)) [[0, 3], [5, 1, 2]] (fun i e => fin (i + e)) = some true := by
  decide +kernel

/-- Another matrix on which the relaxed run selects two cycles and `IterateAugmentedGraph` passes. -/
def c100Pairs (i j : ℕ) : ℚ := if i / 2 = j / 2 then 1 else 10 + i + 3 * j

example : utDrawnTspAugmented false 4 (fun i j => fin (c100Pairs i j)) true (1 / 2) (fin (-1 / 10000)) (fun _ sel => (buildGraph sel).map Prod.fst) 4 3 =
    some (some true) := by decide +kernel

end Verif.Properties
