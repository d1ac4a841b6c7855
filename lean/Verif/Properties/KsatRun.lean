import Verif.Proofs.KsatRun

/-! # C13: whole runs of the k-SAT solver -/

namespace Verif.Properties
open Verif Num Spec Model

section
variable {inp : KsatInputs} {w : ℕ → ℚ}

/-- C13.  The mathematical min-sum algorithm on the formula is well defined with finite messages, and for every number
of iterations the solver returns normally, with only finite outputs: the output of a variable is the sum, over the
clauses that contain it, of the (damped) messages of the last iteration of the mathematical algorithm. -/
theorem C13_ksat_run (ht : ClauseTables inp.numConstraints inp.k inp.numVars inp.conx inp.conxType)
    (hco : ConnectionsOk inp.numConstraints inp.k inp.numVars inp.conx inp.used inp.conns) (hw : inp.cost.Is inp.numVars w)
    (hk : 2 ≤ inp.k) {V : Mat Num} {x0 : ℕ → ℕ → ℚ} (hV : V.Is inp.numConstraints inp.numVars x0) :
    (∃ x r, IsKsatTrace inp.numConstraints inp.k inp.numVars inp.conx inp.conxType w inp.flag inp.alpha x0 x r) ∧
      ∀ x r, IsKsatTrace inp.numConstraints inp.k inp.numVars inp.conx inp.conxType w inp.flag inp.alpha x0 x r →
        ∀ K, ∃ out, ksatSolve inp V (K + 1) = some out ∧ out.Is inp.numVars (fun v =>
          ∑ c ∈ occurrences inp.numConstraints inp.k inp.conx v, damped inp.flag inp.alpha (fun i => r i c v) K) := by
  obtain ⟨x, r, h1, h2⟩ := Proofs.ksat_run ht hco hw hk hV
  refine ⟨⟨x, r, h1⟩, fun x' r' h' K => ?_⟩
  obtain ⟨out, o1, o2⟩ := h2 K
  refine ⟨out, o1, o2.congr fun v _ => Finset.sum_congr rfl fun c hc => ?_⟩
  have hm := Finset.mem_filter.mp hc
  exact Proofs.damped_congr fun i _ => (Proofs.ksatTrace_unique ht h1 h' i c (Finset.mem_range.mp hm.1) v hm.2).2

/-- C13, the messages of the mathematical algorithm are determined by the inputs. -/
theorem C13_trace_unique {C k n : ℕ} {conx : Mat ℕ} {ty : Mat ℤ} {flag : Bool} {alpha : ℚ} {x0 : ℕ → ℕ → ℚ}
    {x r x' r' : ℕ → ℕ → ℕ → ℚ} (ht : ClauseTables C k n conx ty) (h : IsKsatTrace C k n conx ty w flag alpha x0 x r)
    (h' : IsKsatTrace C k n conx ty w flag alpha x0 x' r') (j : ℕ) :
    ∀ c < C, ∀ v ∈ clauseVars k (conx.data c), x j c v = x' j c v ∧ r j c v = r' j c v :=
  Proofs.ksatTrace_unique ht h h' j

/-- C13, no iterations: the outputs are all zero. -/
theorem C13_no_iterations (V : Mat Num) :
    ∃ out, ksatSolve inp V 0 = some out ∧ out.Is inp.numVars (fun _ => 0) := by
  obtain ⟨out, o1, o2⟩ := Proofs.ksatExtrinsic_is (K := Mat.fill inp.numConstraints inp.numVars 0)
    (x := fun _ _ => 0) (C := inp.numConstraints) (n := inp.numVars) ⟨rfl, rfl, fun _ _ _ _ => rfl⟩ (Arr.fill_is inp.numVars 0)
  refine ⟨out, ?_, o2.congr fun v _ => by simp⟩
  simp only [ksatSolve, ksatIterate, ksatInit, loopUp, Option.bind_eq_bind, Option.bind_some]
  rw [show (Arr.fill inp.numVars (0 : Num)) = Arr.fill inp.numVars (fin 0) from rfl, o1]
  rfl

end

/-- The formula `(a ∨ b) ∧ (¬b ∨ c)`, no damping. -/
def c13Inputs : KsatInputs where
  numVars := 3
  numConstraints := 2
  k := 2
  flag := false
  alpha := 0
  used := [0, 1, 2]
  conns := [[0], [0, 1], [1]]
  conx := ⟨2, 2, fun c s => c + s⟩
  conxType := ⟨2, 2, fun c s => if c = 1 ∧ s = 0 then -1 else 1⟩
  cost := ⟨3, fun v => fin (v + 1)⟩

/-- The start messages of the example. -/
def c13Start : Mat Num := ⟨2, 3, fun _ v => fin (v + 1)⟩

/-- The hypotheses of C13 hold of the example, and after two iterations its outputs are these. -/
example : ClauseTables 2 2 3 c13Inputs.conx c13Inputs.conxType ∧
    ConnectionsOk 2 2 3 c13Inputs.conx c13Inputs.used c13Inputs.conns ∧
    (ksatSolve c13Inputs c13Start 2).map (fun o => (List.range 3).map o.data) = some [fin (-5), fin 2, fin 0] := by
  refine ⟨⟨rfl, rfl, rfl, rfl, by decide, ?_, by decide⟩, ⟨by decide, by decide, rfl, by decide, ?_⟩, by decide +kernel⟩
  · intro c hc i hi j hj h
    simp only [c13Inputs] at h
    omega
  · intro v hv c
    by_cases hc : c < 2
    · have h3 : ∀ v < 3, ∀ c < 2, (c ∈ c13Inputs.conns.getD v [] ↔ c ∈ occurrences 2 2 c13Inputs.conx v) := by decide
      exact h3 v hv c hc
    · have h1 : c ∉ occurrences 2 2 c13Inputs.conx v := by simp [occurrences, hc]
      have h2 : ∀ v < 3, ∀ c ∈ c13Inputs.conns.getD v [], c < 2 := by decide
      exact ⟨fun h => absurd (h2 v hv c h) hc, fun h => absurd h h1⟩

end Verif.Properties
