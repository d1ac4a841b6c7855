import Verif.Properties.UnmixedSingle
import Verif.Properties.EvenRuns
import Verif.Properties.OddCost
import Verif.Properties.CostBracket
import Mathlib.Tactic.IntervalCases

/-! # C117: results of odd and even numbers of iterations in single precision -/

namespace Verif.Properties
open Verif Num Spec Model

section
variable {n k : ℕ} {t : KsatTables} (hf : KFormula n k t.clauses t.used t.conns) (hk : 2 ≤ k) {w : ℕ → ℚ}
  {flag : Bool} {alpha : ℚ} (hd : flag = false ∨ alpha = 0) {order order' : List ℕ → List ℕ} (ho : ∀ l, (order l).Perm l) (ho' : ∀ l, (order' l).Perm l)
  {sol : List Bool} (hs : sol = [] ∨ sol.length = n) {D : ℕ}
  (hD : ∀ v ∈ t.used, ((Finset.range t.clauses.length).filter (fun c => v ∈ varsOf t.clauses c)).card ≤ D + 1)
  {p emax : ℕ} (hp : 1 ≤ p) {e : ℤ} (he : e + p ≤ emax) (he' : 2 - (emax : ℤ) - p ≤ e) {B : ℕ}
  (hw : ∀ v < n, ∃ z : ℤ, |z| ≤ B ∧ w v = z * 2 ^ e) (hM1 : 2 * k * ((D + 1) * B) ≤ 2 ^ p) (hM2 : B + (D + 2) * ((D + 1) * B) ≤ 2 ^ p)
include hf hk hd ho ho' hs hD hp he he' hw hM1 hM2

/-- C117, odd numbers of iterations.  Let no literal be negated, no variable be in more than `D + 1` clauses, and the costs be whole multiples of a power of two, not negative and
small enough for the format (24 bits for `float`).  Then the call in this format reports a satisfying assignment that costs at most `1 + (k - 1) (D + 1)` times as much as any
other satisfying assignment. -/
theorem C117_odd (hg : Unmixed t.clauses (fun _ => 1)) (hw0 : ∀ v ∈ t.used, 0 ≤ w v) (post : Bool) (pp : ℕ) {N : ℕ} (hN : ¬ Even N) : ∃ res,
    Rounded.ksatCall (ieee p emax) n k N flag alpha (fin 0) order order' post pp sol t (listOf n (fun v => fin (w v))) = some res ∧ res.post.flag = true ∧
    Satisfies t.clauses (t.used.toFinset.filter (· ∈ res.post.sum.active)) ∧
    ∀ T ⊆ t.used.toFinset, Satisfies t.clauses T →
      cost w (t.used.toFinset.filter (· ∈ res.post.sum.active)) ≤ (1 + (k - 1) * (D + 1)) * cost w T := by
  have hN1 : 1 ≤ N := by
    rcases Nat.eq_zero_or_pos N with e | e
    · exact absurd (by rw [e]; decide) hN
    · exact e
  obtain ⟨res, h1, h2⟩ := C107_ieee hf hk hg hd ho ho' hs hD hp he he' hw hM1 hM2 hN1 (fin 0) post pp
  obtain ⟨res', h3, h4, h5, h6⟩ := C115_call hf hk hg hw0 hD hd ho ho' post pp hs hN
  rw [h1] at h3
  obtain rfl := Option.some.inj h3
  push_cast at h6
  exact ⟨res, h2, h4, h5, h6⟩

/-- C117, even numbers of iterations.  Let no variable occur with both signs.  If the call in this format reports that all clauses are satisfied, without post-processing, and
no reported belief is zero, then the reported assignment is the only cheapest satisfying one. -/
theorem C117_even {g : ℕ → ℤ} (hg : Unmixed t.clauses g) {post : Bool} {pp : ℕ} {N : ℕ} (hN : 1 ≤ N) (hNe : Even N) {res : KsatResult}
    (hc : Rounded.ksatCall (ieee p emax) n k N flag alpha (fin 0) order order' post pp sol t (listOf n (fun v => fin (w v))) = some res)
    (hne : ∀ v ∈ t.used, res.beliefs[v]? ≠ some (fin 0)) (hflag : res.post.flag = true) (hpp : res.requiredPP = false) :
    OnlyCheapest t.used.toFinset (Satisfies t.clauses) w (t.used.toFinset.filter (· ∈ res.post.sum.active)) := by
  obtain ⟨res', h1, h2⟩ := C107_ieee hf hk hg hd ho ho' hs hD hp he he' hw hM1 hM2 hN (fin 0) post pp
  rw [hc] at h2
  obtain rfl := Option.some.inj h2
  obtain ⟨b, hb, -⟩ := C106_bracket hf hk hg w hd
  have hb := hb N hN
  obtain ⟨res', r1, r2, -⟩ := Proofs.call_of_beliefs hf ho ho' (thr := fin 0) (post := post) (pp := pp) hs hb (by simp [listOf])
  rw [h1] at r1
  obtain rfl := Option.some.inj r1
  refine C114_call hf hk hg hd ho ho' hs hN hNe hb (fun v hv h0 => hne v hv ?_) h1 hflag hpp
  rw [r2]
  simp [listOf, hf.tables.used_lt v hv, h0]

/-- C117, lower bounds.  If no variable occurs with both signs and no reported belief of a call in this format with an even number of iterations and no post-processing is zero,
then the reported assignment costs at most as much as any satisfying one. -/
theorem C117_lower {g : ℕ → ℤ} (hg : Unmixed t.clauses g) {pp : ℕ} {N : ℕ} (hN : 1 ≤ N) (hNe : Even N) {res : KsatResult}
    (hc : Rounded.ksatCall (ieee p emax) n k N flag alpha (fin 0) order order' false pp sol t (listOf n (fun v => fin (w v))) = some res)
    (hne : ∀ v ∈ t.used, res.beliefs[v]? ≠ some (fin 0)) {T : Finset ℕ} (hT : T ⊆ t.used.toFinset) (hsat : Satisfies t.clauses T) :
    cost w (t.used.toFinset.filter (· ∈ res.post.sum.active)) ≤ cost w T := by
  obtain ⟨res', h1, h2⟩ := C107_ieee hf hk hg hd ho ho' hs hD hp he he' hw hM1 hM2 hN (fin 0) false pp
  rw [hc] at h2
  obtain rfl := Option.some.inj h2
  obtain ⟨q, hb, -⟩ := C106_bracket hf hk hg w hd
  have hb := hb N hN
  obtain ⟨K, rfl⟩ : ∃ K, N = K + 1 := ⟨N - 1, by omega⟩
  obtain ⟨res', r1, r2, -, -, -, r6⟩ := Proofs.call_report hf hk ho ho' (post := false) (pp := pp) hs (thr := 0) hb (Or.inl rfl)
  rw [h1] at r1
  obtain rfl := Option.some.inj r1
  have e : t.used.toFinset.filter (· ∈ res.post.sum.active) = t.used.toFinset.filter (fun v => q (K + 1) v ≤ 0) := by
    refine Finset.filter_congr fun v hv => ?_
    rw [r6]
    exact ⟨fun h => h.2, fun h => ⟨List.mem_toFinset.mp hv, h⟩⟩
  rw [e]
  refine C116_lower hf hk hg hd hN hNe hb (fun v hv h0 => hne v hv ?_) hT hsat
  rw [r2]
  simp [listOf, hf.tables.used_lt v hv, h0]

end

/-! ## Examples -/

theorem c117_costs : ∀ v < 5, ∃ z : ℤ, |z| ≤ (3 : ℕ) ∧ c106Costs v = z * 2 ^ (0 : ℤ) := by
  intro v hv
  refine ⟨[1, 3, 1, 3, 2].getD v 0, ?_, ?_⟩ <;> interval_cases v <;> simp [c106Costs]

/-- Covers of the cycle of C106 in `float`: every odd number of iterations finds one that costs at most three times the optimum. -/
example {N : ℕ} (hN : ¬ Even N) : ∃ res, Rounded.ksatCall single 5 2 N false 0 (fin 0) id id true 3 [] c106Cycle (listOf 5 (fun v => fin (c106Costs v))) = some res ∧
    res.post.flag = true ∧ ∀ T ⊆ c106Cycle.used.toFinset, Satisfies c106Cycle.clauses T →
      cost c106Costs (c106Cycle.used.toFinset.filter (· ∈ res.post.sum.active)) ≤ 3 * cost c106Costs T := by
  obtain ⟨res, h1, h2, -, h3⟩ := C117_odd c106Cycle_ok le_rfl (w := c106Costs) (flag := false) (alpha := 0) (Or.inl rfl) (order := id) (order' := id)
    (fun _ => List.Perm.refl _) (fun _ => List.Perm.refl _)
    (sol := []) (Or.inl rfl) (D := 1) (by decide) (p := 24) (emax := 127) (by norm_num) (e := 0) (by norm_num) (by norm_num) (B := 3) c117_costs (by norm_num) (by norm_num)
    c106Cycle_unmixed (by decide +kernel) true 3 hN
  norm_num at h3
  exact ⟨res, h1, h2, h3⟩

/-- Four iterations in `float`, as run: the reported cover is the only cheapest one. -/
example {res : KsatResult} (hc : Rounded.ksatCall single 5 2 4 false 0 (fin 0) id id false 0 [] c106Cycle (listOf 5 (fun v => fin (c106Costs v))) = some res)
    (hne : ∀ v ∈ c106Cycle.used, res.beliefs[v]? ≠ some (fin 0)) (hflag : res.post.flag = true) (hpp : res.requiredPP = false) :
    OnlyCheapest c106Cycle.used.toFinset (Satisfies c106Cycle.clauses) c106Costs (c106Cycle.used.toFinset.filter (· ∈ res.post.sum.active)) :=
  C117_even c106Cycle_ok le_rfl (w := c106Costs) (flag := false) (alpha := 0) (Or.inl rfl) (order := id) (order' := id)
    (fun _ => List.Perm.refl _) (fun _ => List.Perm.refl _)
    (sol := []) (Or.inl rfl) (D := 1) (by decide) (p := 24) (emax := 127) (by norm_num) (e := 0) (by norm_num) (by norm_num) (B := 3) c117_costs (by norm_num) (by norm_num)
    c106Cycle_unmixed (by norm_num) (by decide) hc hne hflag hpp

/-- The conditions of the last example hold. -/
example : (Rounded.ksatCall single 5 2 4 false 0 (fin 0) id id false 0 [] c106Cycle (listOf 5 (fun v => fin (c106Costs v)))).map
    (fun res => (res.post.flag, res.requiredPP, res.beliefs)) = some (true, false, [fin (-2), fin 2, fin (-2), fin 1, fin (-1)]) := by decide +kernel

/-! ## Costs that are too large -/

/-- Vertex covers of the path 2, 0, 3, 1. -/
def c117Path : KsatTables where
  used := [0, 1, 2, 3]
  clauses := [[(2, 1), (0, 1)], [(3, 1), (0, 1)], [(3, 1), (1, 1)]]
  conns := [[(0, 1), (1, 1)], [(2, 1)], [(0, 1)], [(1, 1), (2, 1)]]

theorem c117Path_ok : KFormula 4 2 c117Path.clauses c117Path.used c117Path.conns :=
  Proofs.kformula_of_checks (by decide) rfl (by decide) (by decide) (by decide) (by decide) (by decide)

/-- Costs that `float` can hold. -/
def c117Costs (v : ℕ) : ℚ := [3, 2 ^ 24 + 2, 2 ^ 26, 2 ^ 24 + 2].getD v 0

/-- The claim: without bounds on the costs, as long as `float` holds them, odd numbers of iterations in `float` satisfy every formula without negated literals. -/
def C117_claim : Prop := ∀ (n k : ℕ) (t : KsatTables) (w : ℕ → ℚ), KFormula n k t.clauses t.used t.conns → 2 ≤ k → Unmixed t.clauses (fun _ => 1) →
  (∀ v < n, 0 < w v ∧ single (w v) = fin (w v)) → ∀ N, ¬ Even N → ∀ res,
    Rounded.ksatCall single n k N false 0 (fin 0) id id false 0 [] t (listOf n (fun v => fin (w v))) = some res → res.post.sum.unsat = []

/-- C117, rounding: on this path three iterations in `float` leave the last edge uncovered. -/
theorem C117_rounding : (Rounded.ksatCall single 4 2 3 false 0 (fin 0) id id false 0 [] c117Path (listOf 4 (fun v => fin (c117Costs v)))).map
    (fun res => (res.beliefs, res.post.flag, res.post.sum.unsat)) = some ([fin (-67108860), fin 2, fin 67108860, fin 2], false, [2]) := by decide +kernel

/-- C117, the claim fails, although the graph has no cycle. -/
theorem C117_claim_false : ¬ C117_claim := by
  intro h
  obtain ⟨res, h1, h2⟩ := Option.map_eq_some_iff.mp C117_rounding
  have h3 := h 4 2 c117Path c117Costs c117Path_ok le_rfl (by unfold Unmixed; decide) (by decide +kernel) 3 (by decide) res h1
  simp only [Prod.mk.injEq] at h2
  rw [h2.2.2] at h3
  cases h3

/-- It is not only the third iteration. -/
example : (Rounded.ksatCall single 4 2 9 false 0 (fin 0) id id false 0 [] c117Path (listOf 4 (fun v => fin (c117Costs v)))).map
    (fun res => res.post.sum.unsat) = some [2] := by decide +kernel

/-- C117, other formats: the same happens in `double` with costs 3, 2^53 + 2, 2^55 and 2^53 + 2. -/
theorem C117_double : (Rounded.ksatCall double 4 2 3 false 0 (fin 0) id id false 0 [] c117Path [fin 3, fin (2 ^ 53 + 2), fin (2 ^ 55), fin (2 ^ 53 + 2)]).map
    (fun res => (res.post.flag, res.post.sum.unsat)) = some (false, [2]) := by decide +kernel

/-- Vertex covers of the path 1, 2, 3, 0. -/
def c117Tenths : KsatTables where
  used := [0, 1, 2, 3]
  clauses := [[(2, 1), (1, 1)], [(3, 1), (0, 1)], [(3, 1), (2, 1)]]
  conns := [[(1, 1)], [(0, 1)], [(0, 1), (2, 1)], [(1, 1), (2, 1)]]

/-- C117, everyday costs: with costs 0.4, 0.5, 0.9 and 0.8 (as `float` rounds them) three iterations in `float` leave the edge between nodes 3 and 0 uncovered.  With the same
costs and exact arithmetic all edges are covered. -/
theorem C117_tenths : [single (4 / 10), single (5 / 10), single (9 / 10), single (8 / 10)] = [fin (13421773 / 33554432), fin (1 / 2), fin (7549747 / 8388608), fin (13421773 / 16777216)] ∧
    KFormula 4 2 c117Tenths.clauses c117Tenths.used c117Tenths.conns ∧ Unmixed c117Tenths.clauses (fun _ => 1) ∧
    (Rounded.ksatCall single 4 2 3 false 0 (fin 0) id id false 0 [] c117Tenths [fin (13421773 / 33554432), fin (1 / 2), fin (7549747 / 8388608), fin (13421773 / 16777216)]).map
      (fun res => (res.post.flag, res.post.sum.unsat)) = some (false, [1]) ∧
    (ksatCall 4 2 3 false 0 (fin 0) id id false 0 [] c117Tenths [fin (13421773 / 33554432), fin (1 / 2), fin (7549747 / 8388608), fin (13421773 / 16777216)]).map
      (fun res => (res.post.flag, res.post.sum.unsat)) = some (true, []) :=
  ⟨by decide +kernel, Proofs.kformula_of_checks (by decide) rfl (by decide) (by decide) (by decide) (by decide) (by decide), by unfold Unmixed; decide, by decide +kernel,
    by decide +kernel⟩

/-- Vertex covers of the triangle. -/
def c117Triangle : KsatTables where
  used := [0, 1, 2]
  clauses := [[(0, 1), (1, 1)], [(2, 1), (0, 1)], [(1, 1), (2, 1)]]
  conns := [[(0, 1), (1, 1)], [(0, 1), (2, 1)], [(1, 1), (2, 1)]]

theorem c117Triangle_ok : KFormula 3 2 c117Triangle.clauses c117Triangle.used c117Triangle.conns :=
  Proofs.kformula_of_checks (by decide) rfl (by decide) (by decide) (by decide) (by decide) (by decide)

/-- The costs 0.4, 0.3 and 0.7, as `float` rounds them. -/
def c117Third (v : ℕ) : ℚ := [13421773 / 33554432, 5033165 / 16777216, 11744051 / 16777216].getD v 0

/-- The claim: without bounds on the costs, as long as `float` holds them, a call in `float` with an even number of iterations that satisfies a formula without negated literals
and reports no belief zero has found a cheapest solution. -/
def C117_even_claim : Prop := ∀ (n k : ℕ) (t : KsatTables) (w : ℕ → ℚ), KFormula n k t.clauses t.used t.conns → 2 ≤ k → Unmixed t.clauses (fun _ => 1) →
  (∀ v < n, 0 < w v ∧ single (w v) = fin (w v)) → ∀ N, 1 ≤ N → Even N → ∀ res,
    Rounded.ksatCall single n k N false 0 (fin 0) id id false 0 [] t (listOf n (fun v => fin (w v))) = some res → (∀ v ∈ t.used, res.beliefs[v]? ≠ some (fin 0)) →
    res.post.flag = true → res.requiredPP = false → ∀ T ⊆ t.used.toFinset, Satisfies t.clauses T → cost w (t.used.toFinset.filter (· ∈ res.post.sum.active)) ≤ cost w T

/-- C117, rounding and optimality: six iterations in `float` take all three nodes of the triangle. -/
theorem C117_triangle : (Rounded.ksatCall single 3 2 6 false 0 (fin 0) id id false 0 [] c117Triangle (listOf 3 (fun v => fin (c117Third v)))).map
    (fun res => (res.beliefs, res.post.flag, res.requiredPP, res.post.sum.active)) =
      some ([fin (-1 / 2 ^ 25), fin (-1 / 2 ^ 25), fin (-1 / 2 ^ 24)], true, false, [0, 1, 2]) := by decide +kernel

/-- C117, the claim fails: the nodes of cost 0.4 and 0.3 are enough, so twice the necessary cost is reported. -/
theorem C117_even_claim_false : ¬ C117_even_claim := by
  intro h
  obtain ⟨res, h1, h2⟩ := Option.map_eq_some_iff.mp C117_triangle
  simp only [Prod.mk.injEq] at h2
  have h3 := h 3 2 c117Triangle c117Third c117Triangle_ok le_rfl (by unfold Unmixed; decide) (by decide +kernel) 6 (by norm_num) (by decide) res h1
    (by rw [h2.1]; decide +kernel) h2.2.1 h2.2.2.1 {0, 1} (by decide) (by unfold Satisfies; decide +kernel)
  rw [h2.2.2.2] at h3
  revert h3
  decide +kernel

end Verif.Properties
