import Verif.Spec.Assume
import Verif.Spec.KsatRun
import Verif.Model.KsatRun
import Verif.Proofs.AssumeRun

/-!
# C85: infinite metrics as assumptions in the k-SAT solver

An incoming metric of minus infinity asks for a variable to be true, one of plus infinity for it to be false.  On
clauses with two literals the solver then performs unit propagation: after `K` iterations the beliefs at minus and plus
infinity are exactly the variables that at most `K` rounds of unit propagation make true and false, and no belief is
NaN.  On clauses with three literals it can force a variable that the formula leaves free.
-/

namespace Verif.Properties
open Verif Num Spec Model Proofs

/-- What the solver gets: well-formed tables of clauses, a damping factor below one, initial messages equal to the
metrics, and an assignment `S` that satisfies all clauses and has the values the infinite metrics ask for. -/
structure Assumed (inp : KsatInputs) (V : Mat Num) (S : Finset ℕ) : Prop where
  tables : ClauseTables inp.numConstraints inp.k inp.numVars inp.conx inp.conxType
  conns : ConnectionsOk inp.numConstraints inp.k inp.numVars inp.conx inp.used inp.conns
  alpha_nonneg : 0 ≤ inp.alpha
  alpha_lt : inp.alpha < 1
  cost_size : inp.cost.size = inp.numVars
  rows : V.rows = inp.numConstraints
  cols : V.cols = inp.numVars
  start : ∀ c < inp.numConstraints, ∀ s < inp.k, V.data c (inp.conx.data c s) = inp.cost.data (inp.conx.data c s)
  sat : ∀ c < inp.numConstraints, ClauseSat inp.k (inp.conx.data c) (inp.conxType.data c) S
  agrees : ∀ v < inp.numVars, Agrees (decide (v ∈ S)) (inp.cost.data v)

/-- The full claim: infinite beliefs have the values that every admissible assignment has, for clauses of any length. -/
def C85_claim : Prop := ∀ (inp : KsatInputs) (V : Mat Num) (S : Finset ℕ), 2 ≤ inp.k → Assumed inp V S →
  ∀ K, ∃ out, ksatSolve inp V K = some out ∧ ∀ v < inp.numVars, Agrees (decide (v ∈ S)) (out.data v + inp.cost.data v)

/-- Proved for clauses with two literals (missing: longer clauses, where the claim is false). -/
theorem C85_agrees_partial (inp : KsatInputs) (V : Mat Num) (S : Finset ℕ) (hk : inp.k = 2) (h : Assumed inp V S) (K : ℕ) :
    ∃ out, ksatSolve inp V K = some out ∧ ∀ v < inp.numVars, Agrees (decide (v ∈ S)) (out.data v + inp.cost.data v) := by
  obtain ⟨ht, hco, ha0, ha1, hcs, vr, vc, hV, hs, hca⟩ := h
  rw [hk] at ht hco hV hs
  obtain ⟨out, h1, -, h2⟩ := assume_beliefs (τ := fun v => decide (v ∈ S)) hk ht hco hcs hca ha0 ha1 (by
    intro c hc
    obtain ⟨j, hj, h | h⟩ := hs c hc
    · exact ⟨j, hj, by simp [h.1, h.2]⟩
    · exact ⟨j, hj, by simp [h.1, h.2]⟩) vr vc hV K
  exact ⟨out, h1, fun v hv => (h2 v hv).1⟩

/-- On clauses with two literals the infinite beliefs are exactly what unit propagation derives (missing: longer
clauses). -/
theorem C85_unit_propagation_partial (inp : KsatInputs) (V : Mat Num) (S : Finset ℕ) (hk : inp.k = 2) (h : Assumed inp V S)
    (K : ℕ) :
    ∃ out, ksatSolve inp V K = some out ∧ ∀ v < inp.numVars, out.data v + inp.cost.data v ≠ nan ∧
      (out.data v + inp.cost.data v = ninf ↔
        Implied inp.numConstraints inp.k inp.numVars inp.conx inp.conxType inp.cost.data K v true) ∧
      (out.data v + inp.cost.data v = pinf ↔
        Implied inp.numConstraints inp.k inp.numVars inp.conx inp.conxType inp.cost.data K v false) := by
  obtain ⟨ht, hco, ha0, ha1, hcs, vr, vc, hV, hs, hca⟩ := h
  rw [hk] at ht hco hV hs ⊢
  obtain ⟨out, h1, -, h2⟩ := assume_beliefs (τ := fun v => decide (v ∈ S)) hk ht hco hcs hca ha0 ha1 (by
    intro c hc
    obtain ⟨j, hj, h | h⟩ := hs c hc
    · exact ⟨j, hj, by simp [h.1, h.2]⟩
    · exact ⟨j, hj, by simp [h.1, h.2]⟩) vr vc hV K
  exact ⟨out, h1, fun v hv => ⟨(h2 v hv).1.1, (h2 v hv).2⟩⟩

/-- Example: `¬x0 ∨ x1`, `¬x1 ∨ x2`, `x2 ∨ x3`, with `x0` assumed true. -/
def chainInputs (damp : Bool) : KsatInputs where
  numVars := 4
  numConstraints := 3
  k := 2
  flag := damp
  alpha := 1 / 2
  used := [0, 1, 2, 3]
  conns := [[0], [0, 1], [1, 2], [2]]
  conx := ⟨3, 2, fun c s => c + s⟩
  conxType := ⟨3, 2, fun c s => if s = 0 ∧ c < 2 then -1 else 1⟩
  cost := ⟨4, fun v => if v = 0 then ninf else fin (v + 1)⟩

def chainStart : Mat Num := ⟨3, 4, fun _ v => if v = 0 then ninf else fin (v + 1)⟩

/-- The hypotheses hold of the example. -/
theorem chain_assumed (damp : Bool) : Assumed (chainInputs damp) chainStart {0, 1, 2} := by
  refine ⟨⟨rfl, rfl, rfl, rfl, by decide +revert, ?_, by decide +revert⟩, ⟨by decide +revert, by decide +revert, rfl, by decide +revert, ?_⟩,
    by simp only [chainInputs]; norm_num, by simp only [chainInputs]; norm_num, rfl, rfl, rfl, fun _ _ _ _ => rfl, ?_, ?_⟩
  · intro c hc i hi j hj h
    simp only [chainInputs] at h
    omega
  · intro v hv c
    by_cases hc : c < 3
    · have h3 : ∀ v < 4, ∀ c < 3, (c ∈ (chainInputs damp).conns.getD v [] ↔ c ∈ occurrences 3 2 (chainInputs damp).conx v) := by
        decide +revert
      exact h3 v hv c hc
    · have h1 : c ∉ occurrences 3 2 (chainInputs damp).conx v := by simp [occurrences, hc]
      have h2 : ∀ v < 4, ∀ c ∈ (chainInputs damp).conns.getD v [], c < 3 := by clear h1 hc hv; decide +revert
      exact ⟨fun h => absurd (h2 v hv c h) hc, fun h => absurd h h1⟩
  · intro c hc
    have h : ∀ c < 3, ∃ j < 2, ((chainInputs damp).conxType.data c j = 1 ∧ (chainInputs damp).conx.data c j ∈ ({0, 1, 2} : Finset ℕ)) ∨
        ((chainInputs damp).conxType.data c j = -1 ∧ (chainInputs damp).conx.data c j ∉ ({0, 1, 2} : Finset ℕ)) := by decide +revert
    exact h c hc
  · intro v hv
    have h : ∀ v < 4, (chainInputs damp).cost.data v ≠ nan ∧
        ((chainInputs damp).cost.data v = pinf → decide (v ∈ ({0, 1, 2} : Finset ℕ)) = false) ∧
        ((chainInputs damp).cost.data v = ninf → decide (v ∈ ({0, 1, 2} : Finset ℕ)) = true) := by decide +revert +kernel
    exact h v hv

/-- The assumption reaches `x1` in the first and `x2` in the second iteration, with and without damping; `x3` stays
open. -/
example : (ksatSolve (chainInputs false) chainStart 1).map (fun o => (List.range 4).map o.data) =
      some [fin 0, ninf, fin (-4), fin (-3)] ∧
    (ksatSolve (chainInputs false) chainStart 2).map (fun o => (List.range 4).map o.data) =
      some [fin 0, ninf, ninf, fin (-3)] ∧
    (ksatSolve (chainInputs true) chainStart 2).map (fun o => (List.range 4).map fun v => decide (o.data v = ninf)) =
      some [false, true, true, false] := by
  decide +kernel

/-- One clause `x0 ∨ x1 ∨ x2` with `x0` assumed true and `x2` assumed false. -/
def satisfiedInputs : KsatInputs where
  numVars := 3
  numConstraints := 1
  k := 3
  flag := false
  alpha := 0
  used := [0, 1, 2]
  conns := [[0], [0], [0]]
  conx := ⟨1, 3, fun _ s => s⟩
  conxType := ⟨1, 3, fun _ _ => 1⟩
  cost := ⟨3, fun v => if v = 0 then ninf else if v = 2 then pinf else fin 1⟩

def satisfiedStart : Mat Num := ⟨1, 3, fun _ v => if v = 0 then ninf else if v = 2 then pinf else fin 1⟩

theorem satisfied_assumed : Assumed satisfiedInputs satisfiedStart {0} := by
  refine ⟨⟨rfl, rfl, rfl, rfl, by decide, by decide, by decide⟩, ⟨by decide, by decide, rfl, by decide, ?_⟩,
    le_refl _, by simp only [satisfiedInputs]; norm_num, rfl, rfl, rfl, by decide, ?_, ?_⟩
  · intro v hv c
    by_cases hc : c < 1
    · have h3 : ∀ v < 3, ∀ c < 1, (c ∈ satisfiedInputs.conns.getD v [] ↔ c ∈ occurrences 1 3 satisfiedInputs.conx v) := by decide
      exact h3 v hv c hc
    · have h1 : c ∉ occurrences 1 3 satisfiedInputs.conx v := fun h => hc (Finset.mem_range.mp (Finset.mem_filter.mp h).1)
      have h2 : ∀ v < 3, ∀ c ∈ satisfiedInputs.conns.getD v [], c < 1 := by decide
      exact ⟨fun h => absurd (h2 v hv c h) hc, fun h => absurd h h1⟩
  · intro c hc
    obtain rfl : c = 0 := by simp only [satisfiedInputs] at hc; omega
    exact ⟨0, by decide, Or.inl ⟨rfl, by decide⟩⟩
  · intro v hv
    have h : ∀ v < 3, satisfiedInputs.cost.data v ≠ nan ∧
        (satisfiedInputs.cost.data v = pinf → decide (v ∈ ({0} : Finset ℕ)) = false) ∧
        (satisfiedInputs.cost.data v = ninf → decide (v ∈ ({0} : Finset ℕ)) = true) := by decide +kernel
    exact h v hv

/-- The clause is satisfied by `x0`, so `x1` is free and its metric asks for false; the solver nevertheless sends minus
infinity to `x1`: minus infinity after plus infinity in the forward table is NaN, the comparison with it is false, and
what remains says that all other literals are false. -/
theorem C85_claim_false : ¬ C85_claim := by
  intro h
  obtain ⟨out, h1, h2⟩ := h satisfiedInputs satisfiedStart {0} (by decide) satisfied_assumed 1
  have hb : (ksatSolve satisfiedInputs satisfiedStart 1).map (fun o => o.data 1 + satisfiedInputs.cost.data 1) = some ninf := by
    decide +kernel
  rw [h1, Option.map_some, Option.some.injEq] at hb
  exact absurd ((h2 1 (by decide)).2.2 hb) (by decide)

end Verif.Properties
