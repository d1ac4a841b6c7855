import Verif.Proofs.KsatSearchCall
import Verif.Properties.KsatPost

/-!
C74: what the post-processing of the k-SAT solver is guaranteed to find.

Trusted base: Lean kernel; axioms propext, Classical.choice, Quot.sound.
-/

namespace Verif.Properties
open Verif Num Spec Model Proofs

/-- C74, the full claim: if some satisfying assignment differs from the first decisions in at most `pp_elements` variables, all of them in
violated clauses or clauses near them, then post-processing ends with a satisfying assignment. -/
def C74_claim : Prop :=
  ∀ (n k : ℕ) (t : KsatTables) (order order' : List ℕ → List ℕ) (pp : ℕ) (threshold : Num) (beliefs : List Num) (st : PostState)
    (τ : ℕ → Bool) (D : Finset ℕ),
    KFormula n k t.clauses t.used t.conns → 2 ≤ k → beliefs.length = n → (∀ l, (order l).Perm l) → (∀ l, (order' l).Perm l) → 2 ≤ pp →
    (∀ v, v ∉ D → τ v = asgn (hardDecisions threshold beliefs) v) →
    (∀ v ∈ D, ∃ c ∈ violated t.clauses (asgn (hardDecisions threshold beliefs)), Region t.clauses (asgn (hardDecisions threshold beliefs)) c v) →
    D.card ≤ pp → violated t.clauses τ = [] →
    decideAndPost t threshold order order' true pp beliefs = some st → st.flag = true

/-- Four clauses over three variables. -/
def stuckFormula : List (List (ℕ × ℤ)) := [[(0, -1), (2, -1)], [(0, 1), (2, 1)], [(1, 1), (2, 1)], [(0, 1), (2, -1)]]

/-- Its tables. -/
def stuckTables : KsatTables := ⟨List.range 3, stuckFormula, occTable 3 stuckFormula⟩

theorem stuckTables_ok : KFormula 3 2 stuckTables.clauses stuckTables.used stuckTables.conns := by
  refine ⟨by decide, occTable_ok (by decide), by decide, fun v => ?_⟩
  by_cases hv : v < 3
  · have : v = 0 ∨ v = 1 ∨ v = 2 := by omega
    rcases this with rfl | rfl | rfl <;> decide
  · have : stuckTables.conns.getD v [] = [] := by
      rw [List.getD_eq_getElem?_getD, List.getElem?_eq_none (by show 3 ≤ v; omega)]; rfl
    rw [this]; exact List.nodup_nil

/-- C74: the full claim is false.  All variables false violates clauses 1 and 2; making variables 0 and 1 true satisfies the formula.  The
first phase accepts variable 2 alone, which leaves clause 3 violated, and from there three changes are needed. -/
theorem C74_claim_false : ¬ C74_claim := by
  intro h
  have hr : (decideAndPost stuckTables 0 asc asc true 2 [fin 1, fin 1, fin 1]).map (fun st => st.flag) = some false := by decide +kernel
  cases hd : decideAndPost stuckTables 0 asc asc true 2 [fin 1, fin 1, fin 1] with
  | none => rw [hd] at hr; cases hr
  | some st =>
    rw [hd] at hr
    have := h 3 2 stuckTables asc asc 2 0 [fin 1, fin 1, fin 1] st (fun v => decide (v < 2)) {0, 1} stuckTables_ok le_rfl rfl asc_perm
      asc_perm le_rfl (by
        intro v hv
        have hv : ¬ v < 2 := by
          simp only [Finset.mem_insert, Finset.mem_singleton, not_or] at hv
          omega
        by_cases h2 : v = 2
        · subst h2; decide +kernel
        · have : asgn (hardDecisions 0 [fin 1, fin 1, fin 1]) v = false := by
            rw [asgn, List.getD_eq_default]
            show 3 ≤ v
            omega
          rw [this]; simpa using hv)
      (by decide +kernel) (by decide) (by decide +kernel) hd
    rw [Option.map_some, this] at hr
    cases hr

section
variable {n : ℕ} {t : KsatTables} (h : FormulaTables n t.clauses t.used t.conns) {order order' : List ℕ → List ℕ}
  (ho : ∀ l, (order l).Perm l) (ho' : ∀ l, (order' l).Perm l) {pp : ℕ} {threshold : Num} {beliefs : List Num} (hb : beliefs.length = n)
  {st : PostState} (hst : decideAndPost t threshold order order' true pp beliefs = some st)
include h ho ho' hb hst

/-- C74, partial: the claim holds when the first decisions violate exactly one clause (with at least two variables).  Then every
combination of changes is tried until one satisfies the formula.  Missing: two or more violated clauses (false in general,
`C74_claim_false`). -/
theorem C74_brute_force_partial {c : ℕ} (hc : violated t.clauses (asgn (hardDecisions threshold beliefs)) = [c])
    (h2 : 2 ≤ (varsOf t.clauses c).card) (hpp : 2 ≤ pp) {τ : ℕ → Bool} {D : Finset ℕ}
    (hτ : ∀ v, v ∉ D → τ v = asgn (hardDecisions threshold beliefs) v)
    (hD : ∀ v ∈ D, Region t.clauses (asgn (hardDecisions threshold beliefs)) c v) (hcard : D.card ≤ pp) (hsat : violated t.clauses τ = []) :
    st.flag = true ∧ violated t.clauses (asgn st.hard) = [] := by
  obtain ⟨st0, e, a1, a2, a3, a4⟩ := post_start h ho ho' hb hst (by rw [hc]; simp)
  rw [← e] at hc hτ hD
  have := brute_force h ho ho' a1 a2 hc h2 hpp hτ hD hcard hsat a3
  exact ⟨a4.mpr this, List.length_eq_zero_iff.mp this⟩

/-- C74, second part: already without brute force (any `pp_elements`), when exactly one clause is violated and changing its variable `x`
satisfies the formula, a satisfying assignment is found, provided some near clause contains the same literal of `x` and every near
clause with `x` has a second variable in common with the violated clause. -/
theorem C74_single_flip {c : ℕ} (hc : violated t.clauses (asgn (hardDecisions threshold beliefs)) = [c])
    (hnd : ∀ cl ∈ t.clauses, (cl.map Prod.fst).Nodup) {x : ℕ} {s : ℤ} (hx : (x, s) ∈ t.clauses.getD c []) (hs1 : s = 1 ∨ s = -1)
    {i : ℕ} (hi : i < t.clauses.length) (hnear : Near t.clauses (asgn (hardDecisions threshold beliefs)) c i) (hxi : (x, s) ∈ t.clauses.getD i [])
    (hforb : ∀ j < t.clauses.length, Near t.clauses (asgn (hardDecisions threshold beliefs)) c j → x ∈ varsOf t.clauses j →
      ∃ y ≠ x, y ∈ varsOf t.clauses c ∧ y ∈ varsOf t.clauses j)
    (hsat : violated t.clauses (flipped (asgn (hardDecisions threshold beliefs)) x) = []) :
    st.flag = true ∧ violated t.clauses (asgn st.hard) = [] := by
  obtain ⟨st0, e, a1, a2, a3, a4⟩ := post_start h ho ho' hb hst (by rw [hc]; simp)
  rw [← e] at hc hnear hforb hsat
  have := pool_flip h ho ho' a1 a2 hc hnd hx hs1 hi hnear hxi hforb hsat a3
  exact ⟨a4.mpr this, List.length_eq_zero_iff.mp this⟩

/-- C74, third part: when exactly two clauses are violated and changing a literal that they share leaves at most one violated clause, at
most one clause is violated after post-processing (any `pp_elements`). -/
theorem C74_shared_literal {c d : ℕ} (hcd : c ≠ d) (hc : violated t.clauses (asgn (hardDecisions threshold beliefs)) = [c, d])
    {v : ℕ} {s : ℤ} (hvc : (v, s) ∈ t.clauses.getD c []) (hvd : (v, s) ∈ t.clauses.getD d []) (hs1 : s = 1 ∨ s = -1)
    (hfl : (violated t.clauses (flipped (asgn (hardDecisions threshold beliefs)) v)).length ≤ 1) :
    (violated t.clauses (asgn st.hard)).length ≤ 1 := by
  obtain ⟨st0, e, a1, a2, a3, a4⟩ := post_start h ho ho' hb hst (by rw [hc]; simp)
  rw [← e] at hc hfl
  exact two_violated h ho ho' a1 a2 hcd hc hvc hvd hs1 hfl a3

end

/-- Five clauses over four variables; all variables false violates only clause 0. -/
def repairFormula : List (List (ℕ × ℤ)) :=
  [[(0, 1), (1, 1)], [(0, -1), (2, 1)], [(1, -1), (3, 1)], [(0, -1), (1, -1)], [(2, -1), (3, -1)]]

/-- Its tables. -/
def repairTables : KsatTables := ⟨List.range 4, repairFormula, occTable 4 repairFormula⟩

/-- Non-vacuity of the brute force: no single change satisfies the formula, changing variables 0 and 2 does, and it is found, whatever
the iteration orders. -/
example : (∀ x < 4, violated repairFormula (flipped (fun _ => false) x) ≠ []) ∧
    ∀ (order order' : List ℕ → List ℕ), (∀ l, (order l).Perm l) → (∀ l, (order' l).Perm l) →
      ∃ st, decideAndPost repairTables 0 order order' true 2 [fin 1, fin 1, fin 1, fin 1] = some st ∧ violated repairFormula (asgn st.hard) = [] := by
  refine ⟨by decide +kernel, fun order order' ho ho' => ?_⟩
  have hf : FormulaTables 4 repairTables.clauses repairTables.used repairTables.conns := occTable_ok (by decide)
  obtain ⟨st, hst, -⟩ := C30_reported hf ho ho' true 2 (0 : Num) (beliefs := [fin 1, fin 1, fin 1, fin 1]) rfl
  refine ⟨st, hst, (C74_brute_force_partial hf ho ho' rfl hst (c := 0) (by decide +kernel) (by decide +kernel) le_rfl
    (τ := fun v => decide (v = 0 ∨ v = 2)) (D := {0, 2}) (fun v hv => ?_) (by decide +kernel) (by decide) (by decide +kernel)).2⟩
  simp only [Finset.mem_insert, Finset.mem_singleton] at hv
  rw [decide_eq_false hv]
  by_cases h4 : v < 4
  · have : v = 0 ∨ v = 1 ∨ v = 2 ∨ v = 3 := by omega
    rcases this with rfl | rfl | rfl | rfl <;> decide +kernel
  · rw [asgn, List.getD_eq_default]
    show 4 ≤ v
    omega

/-- Three clauses over four variables; all variables false violates only clause 0. -/
def flipTables : KsatTables :=
  ⟨List.range 4, [[(0, 1), (1, 1), (2, 1)], [(0, 1), (1, -1), (3, 1)], [(1, -1), (2, -1), (3, -1)]],
    occTable 4 [[(0, 1), (1, 1), (2, 1)], [(0, 1), (1, -1), (3, 1)], [(1, -1), (2, -1), (3, -1)]]⟩

/-- Non-vacuity of the second part: clause 1 is near and contains the same literal of variable 0; the change is found without brute force. -/
example : ∀ (order order' : List ℕ → List ℕ), (∀ l, (order l).Perm l) → (∀ l, (order' l).Perm l) →
      ∃ st, decideAndPost flipTables 0 order order' true 0 [fin 1, fin 1, fin 1, fin 1] = some st ∧ violated flipTables.clauses (asgn st.hard) = [] := by
  intro order order' ho ho'
  have hf : FormulaTables 4 flipTables.clauses flipTables.used flipTables.conns := occTable_ok (by decide)
  obtain ⟨st, hst, -⟩ := C30_reported hf ho ho' true 0 (0 : Num) (beliefs := [fin 1, fin 1, fin 1, fin 1]) rfl
  refine ⟨st, hst, (C74_single_flip hf ho ho' rfl hst (c := 0) (by decide +kernel) (by decide) (x := 0) (s := 1) (by decide) (Or.inl rfl)
    (i := 1) (by decide) (by decide +kernel) (by decide) (fun j hj _ hx => ?_) (by decide +kernel)).2⟩
  have : j = 0 ∨ j = 1 ∨ j = 2 := by have : j < 3 := hj; omega
  rcases this with rfl | rfl | rfl
  · exact ⟨1, by decide, by decide, by decide⟩
  · exact ⟨1, by decide, by decide, by decide⟩
  · exact absurd hx (by decide)

/-- Non-vacuity of the third part: the two violated clauses of the formula of the counterexample share the literal of variable 2. -/
example : violated stuckFormula (asgn (hardDecisions 0 [fin 1, fin 1, fin 1])) = [1, 2] ∧
    ∀ pp (order order' : List ℕ → List ℕ), (∀ l, (order l).Perm l) → (∀ l, (order' l).Perm l) →
      ∃ st, decideAndPost stuckTables 0 order order' true pp [fin 1, fin 1, fin 1] = some st ∧ (violated stuckFormula (asgn st.hard)).length ≤ 1 := by
  refine ⟨by decide +kernel, fun pp order order' ho ho' => ?_⟩
  obtain ⟨st, hst, -⟩ := C30_reported stuckTables_ok.tables ho ho' true pp (0 : Num) (beliefs := [fin 1, fin 1, fin 1]) rfl
  exact ⟨st, hst, C74_shared_literal stuckTables_ok.tables ho ho' rfl hst (c := 1) (d := 2) (by decide) (by decide +kernel) (v := 2) (s := 1)
    (by decide) (by decide) (Or.inl rfl) (by decide +kernel)⟩

end Verif.Properties
