import Verif.Properties.SettledKsat
import Verif.Properties.Unmixed

/-! # C110: formulas with at most one cycle in each connected part -/

namespace Verif.Properties
open Verif Num Spec Model

/-- C110, a criterion: if the graph of clauses and variables has no cycle once a variable is struck from one clause, it has at most one cycle in each part. -/
theorem C110_criterion {C : ℕ} {V : ℕ → Finset ℕ} (c v : ℕ) (h : (incidence C (Function.update V c ((V c).erase v))).IsAcyclic) : AtMostOneCycle (incidence C V) := by
  refine Proofs.oneCycle_of_delete (a := .inl c) (b := .inr v) (h.anti ?_)
  rintro a b hab
  rw [SimpleGraph.deleteEdges_adj] at hab
  obtain ⟨⟨c', hc', v', hv', hh⟩, hne⟩ := hab
  refine ⟨c', hc', v', ?_, hh⟩
  by_cases hcc : c' = c
  · subst hcc
    rw [Function.update_self, Finset.mem_erase]
    refine ⟨fun e => hne ?_, hv'⟩
    subst e
    rcases hh with ⟨rfl, rfl⟩ | ⟨rfl, rfl⟩
    · rfl
    · exact Sym2.eq_swap
  · rwa [Function.update_of_ne hcc]

section
variable {n k : ℕ} {t : KsatTables} (hf : KFormula n k t.clauses t.used t.conns) (hk : 2 ≤ k) {w : ℕ → ℚ} {flag : Bool} {alpha : ℚ}
  {x r : ℕ → ℕ → ℕ → ℚ} (ht : FormulaTrace n k t w flag alpha x r) (ha : flag = true → alpha ≠ 1) {K : ℕ}
  (hset : ∀ c < t.clauses.length, ∀ v ∈ varsOf t.clauses c, damped flag alpha (fun i => r i c v) K = damped flag alpha (fun i => r i c v) (K + 1))
  {b : ℕ → ℚ} (hb : ksatBeliefs (K + 1) flag alpha (ksatObject n k t (listOf n (fun v => fin (w v)))) = some (listOf n (fun v => fin (b v))))
  (hone : AtMostOneCycle (incidence t.clauses.length (varsOf t.clauses)))
include hf hk ht ha hset hb hone

/-- C110.  If the graph of clauses and variables has at most one cycle in each connected part, the clause messages have settled, and every belief is clearly
negative or clearly positive, then the call with this or any larger number of iterations reports a satisfying assignment, without post-processing, and no
satisfying assignment costs less. -/
theorem C110_optimal {thr : ℚ} (hsign : ∀ v ∈ t.used, b v < 0 ∧ b v ≤ thr ∨ 0 < b v ∧ thr < b v) {N : ℕ} (hN : K + 1 ≤ N)
    {order order' : List ℕ → List ℕ} (ho : ∀ l, (order l).Perm l) (ho' : ∀ l, (order' l).Perm l) {post : Bool} {pp : ℕ} {sol : List Bool}
    (hs : sol = [] ∨ sol.length = n) :
    ∃ res, ksatCall n k N flag alpha (fin thr) order order' post pp sol t (listOf n (fun v => fin (w v))) = some res ∧
      res.post.flag = true ∧ res.post.sum.unsat = [] ∧ res.requiredPP = false ∧ Satisfies t.clauses res.post.sum.active.toFinset ∧
      ∀ S ⊆ t.used.toFinset, Satisfies t.clauses S → cost w res.post.sum.active.toFinset ≤ cost w S := by
  obtain ⟨res, h1, h2, h3, h4, h5, -, h6⟩ := C67_ksat hf hk ht ha hset hb hsign hN ho ho' (post := post) (pp := pp) hs
  refine ⟨res, h1, h2, h3, h4, h5, fun S hS hsat => h6 S hS hsat ?_⟩
  refine Proofs.oneCycle_hom (G := incidence t.clauses.length (varsOf t.clauses)) ⟨id, ?_⟩ Function.injective_id hone
  rintro a b ⟨c, hc, v, hv, hh⟩
  exact ⟨c, Finset.mem_range.mp hc, v, (Finset.mem_filter.mp hv).1, hh⟩

end

/-! ## Examples -/

/-- The entry of a table that no longer changes after the listed ones. -/
def lastOf (l : List (List (List ℚ))) (j c v : ℕ) : ℚ := ((l.getD (min j (l.length - 1)) []).getD c []).getD v 0

/-- The ring of clauses `¬x0 ∨ x1`, `¬x1 ∨ x2`, `x2 ∨ x0`. -/
def c110Ring : KsatTables where
  used := [0, 1, 2]
  clauses := [[(0, -1), (1, 1)], [(1, -1), (2, 1)], [(2, 1), (0, 1)]]
  conns := [[(0, -1), (2, 1)], [(0, 1), (1, -1)], [(1, 1), (2, 1)]]

def c110RingCosts (v : ℕ) : ℚ := [-1, 2, 0].getD v 0

theorem c110Ring_ok : KFormula 3 2 c110Ring.clauses c110Ring.used c110Ring.conns :=
  Proofs.kformula_of_checks (by decide) rfl (by decide) (by decide) (by decide) (by decide) (by decide)

theorem c110Ring_one : AtMostOneCycle (incidence c110Ring.clauses.length (varsOf c110Ring.clauses)) :=
  C110_criterion 0 0 ((C52_forest_iff (by decide)).mpr ⟨[0, 1, 2], List.Perm.refl _, ⟨1, by decide, by decide⟩, ⟨2, by decide, by decide⟩, ⟨2, by decide, by decide⟩, trivial⟩)

theorem c110Ring_trace : FormulaTrace 3 2 c110Ring c110RingCosts false 0
    (lastOf [[[-1, 2, 0], [0, 2, 0], [-1, 0, 0]], [[-1, 2, 0], [0, 1, 0], [1, 0, 0]], [[-1, 2, 0], [0, 1, -1], [1, 0, 0]]])
    (lastOf [[[2, -1, 0], [0, 0, 0], [0, 0, 0]], [[2, -1, 0], [0, 0, 0], [0, 0, -1]]]) := by
  have hm : ∀ j, min j 2 = 0 ∧ min j 1 = 0 ∧ min (j + 1) 2 = 1 ∨ min j 2 = 1 ∧ min j 1 = 1 ∧ min (j + 1) 2 = 2 ∨ min j 2 = 2 ∧ min j 1 = 1 ∧ min (j + 1) 2 = 2 := fun j => by omega
  have hd : ∀ (s : ℕ → ℚ) j, damped false 0 s j = s j := Proofs.undamped (Or.inl rfl)
  refine ⟨by decide +kernel, fun j c hc v hv => ?_, fun j c hc v hv => ?_⟩
  · refine Proofs.message_of_check (fun S _ => Iff.rfl) ?_
    revert c v
    unfold lastOf ClauseSat
    rcases hm j with ⟨e, e', -⟩ | ⟨e, e', -⟩ | ⟨e, e', -⟩ <;> simp only [List.length_cons, List.length_nil, Nat.add_one_sub_one, Nat.reduceAdd, e, e'] <;> decide +kernel
  · simp only [hd]
    revert c v
    unfold lastOf
    rcases hm j with ⟨-, e, e'⟩ | ⟨-, e, e'⟩ | ⟨-, e, e'⟩ <;> simp only [List.length_cons, List.length_nil, Nat.add_one_sub_one, Nat.reduceAdd, e, e'] <;> decide +kernel

/-- Every call with two or more iterations reports `{2}`, although variable 0 alone would pay off, and no satisfying assignment is cheaper. -/
example (N : ℕ) (hN : 2 ≤ N) : ∃ res, ksatCall 3 2 N false 0 (fin 0) id id true 2 [] c110Ring (listOf 3 (fun v => fin (c110RingCosts v))) = some res ∧
    res.post.flag = true ∧ ∀ S ⊆ c110Ring.used.toFinset, Satisfies c110Ring.clauses S → cost c110RingCosts res.post.sum.active.toFinset ≤ cost c110RingCosts S := by
  have hd : ∀ (s : ℕ → ℚ) j, damped false 0 s j = s j := Proofs.undamped (Or.inl rfl)
  obtain ⟨res, h1, h2, -, -, -, h3⟩ := C110_optimal c110Ring_ok le_rfl c110Ring_trace (by decide) (K := 1) (fun c hc v hv => by rw [hd, hd]; rfl)
    (b := fun v => [1, 1, -1].getD v 0) (by decide +kernel) c110Ring_one (thr := 0) (by decide) hN (order := id) (order' := id) (fun _ => List.Perm.refl _)
    (fun _ => List.Perm.refl _) (post := true) (pp := 2) (Or.inl rfl)
  exact ⟨res, h1, h2, h3⟩

example : (ksatCall 3 2 2 false 0 (fin 0) id id true 2 [] c110Ring (listOf 3 (fun v => fin (c110RingCosts v)))).map (fun r => r.post.sum.active) = some [2] := by
  decide +kernel

/-- The clause `¬x0 ∨ x1` and three copies of `x0 ∨ x2`: the copies close several cycles. -/
def c110Copies : KsatTables where
  used := [0, 1, 2]
  clauses := [[(0, -1), (1, 1)], [(0, 1), (2, 1)], [(0, 1), (2, 1)], [(0, 1), (2, 1)]]
  conns := [[(0, -1), (1, 1), (2, 1), (3, 1)], [(0, 1)], [(1, 1), (2, 1), (3, 1)]]

def c110CopiesCosts (v : ℕ) : ℚ := [0, 3, 2].getD v 0

theorem c110Copies_ok : KFormula 3 2 c110Copies.clauses c110Copies.used c110Copies.conns :=
  Proofs.kformula_of_checks (by decide) rfl (by decide) (by decide) (by decide) (by decide) (by decide)

theorem c110Copies_trace : FormulaTrace 3 2 c110Copies c110CopiesCosts false 0
    (lastOf [[[0, 3, 0], [0, 0, 2], [0, 0, 2], [0, 0, 2]], [[-6, 3, 0], [-1, 0, 2], [-1, 0, 2], [-1, 0, 2]]])
    (lastOf [[[3, 0, 0], [-2, 0, 0], [-2, 0, 0], [-2, 0, 0]], [[3, -6, 0], [-2, 0, 0], [-2, 0, 0], [-2, 0, 0]]]) := by
  have hm : ∀ j, min j 1 = 0 ∧ min (j + 1) 1 = 1 ∨ min j 1 = 1 ∧ min (j + 1) 1 = 1 := fun j => by omega
  have hd : ∀ (s : ℕ → ℚ) j, damped false 0 s j = s j := Proofs.undamped (Or.inl rfl)
  refine ⟨by decide +kernel, fun j c hc v hv => ?_, fun j c hc v hv => ?_⟩
  · refine Proofs.message_of_check (fun S _ => Iff.rfl) ?_
    revert c v
    unfold lastOf ClauseSat
    rcases hm j with ⟨e, -⟩ | ⟨e, -⟩ <;> simp only [List.length_cons, List.length_nil, Nat.add_one_sub_one, Nat.reduceAdd, e] <;> decide +kernel
  · simp only [hd]
    revert c v
    unfold lastOf
    rcases hm j with ⟨e, e'⟩ | ⟨e, e'⟩ <;> simp only [List.length_cons, List.length_nil, Nat.add_one_sub_one, Nat.reduceAdd, e, e'] <;> decide +kernel

/-- C110, more cycles: then the reported assignment need not be a cheapest one, even if the messages settle and no belief is zero.  Here `{0, 1}` is reported at cost
three, whatever the number of iterations from two on, and `{2}` costs two. -/
theorem C110_more_cycles : ∃ x r, FormulaTrace 3 2 c110Copies c110CopiesCosts false 0 x r ∧
    (∀ j ≥ 1, ∀ c v, r j c v = r 1 c v) ∧
    ksatBeliefs 2 false 0 (ksatObject 3 2 c110Copies (listOf 3 (fun v => fin (c110CopiesCosts v)))) = some [fin (-3), fin (-3), fin 2] ∧
    (∀ N ≥ 2, ∃ res, ksatCall 3 2 N false 0 (fin 0) id id true 2 [] c110Copies (listOf 3 (fun v => fin (c110CopiesCosts v))) = some res ∧ res.post.flag = true ∧
      res.post.sum.active = [0, 1]) ∧
    Satisfies c110Copies.clauses {2} ∧ cost c110CopiesCosts {2} < cost c110CopiesCosts {0, 1} := by
  have hd : ∀ (s : ℕ → ℚ) j, damped false 0 s j = s j := Proofs.undamped (Or.inl rfl)
  refine ⟨_, _, c110Copies_trace, fun j hj c v => ?_, by decide +kernel, fun N hN => ?_, by unfold Satisfies; decide, by decide +kernel⟩
  · unfold lastOf
    simp only [List.length_cons, List.length_nil, Nat.add_one_sub_one, Nat.reduceAdd, min_eq_right hj, min_self]
  · rw [C66_ksat_settled c110Copies_ok le_rfl c110Copies_trace (K := 1) (fun c hc v hv => by rw [hd, hd]; rfl) hN]
    have h : (ksatCall 3 2 2 false 0 (fin 0) id id true 2 [] c110Copies (listOf 3 (fun v => fin (c110CopiesCosts v)))).map
        (fun r => (r.post.flag, r.post.sum.active)) = some (true, [0, 1]) := by decide +kernel
    obtain ⟨res, e, h2⟩ := Option.map_eq_some_iff.mp h
    exact ⟨res, e, congrArg Prod.fst h2, congrArg Prod.snd h2⟩

end Verif.Properties
