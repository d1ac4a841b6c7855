import Verif.Proofs.Demos
import Verif.Properties.Autarky
import Verif.Properties.KcIO
import Verif.Properties.TspIO
import Verif.Properties.TspSolve

/-!
C99: the three example programs, for every number of iterations and every damping: they hand the library what the Python programs would build for the
same data, they stay inside their arrays, and the k-SAT example confirms the satisfying assignment that its costs prefer.
-/

namespace Verif.Properties
open Verif Num Model Spec

/-! ## k-SAT -/

/-- C99, k-SAT: the arrays of the example are those that Python builds from the formula and the costs. -/
theorem C99_ksat_arrays : ksatFlatten (ksatObject 5 3 demoFormula (listOf 5 (fun v => fin (demoCost v)))) = some ksatDemoFlat := by rfl

theorem demoFormula_ok : KFormula 5 3 demoFormula.clauses demoFormula.used demoFormula.conns :=
  Proofs.kformula_of_checks (by decide) rfl (by decide) (by decide) (by decide) (by decide) (by decide)

/-- C99, k-SAT: the example prints five numbers, the outcome `out`; the beliefs of the Python call for the same formula are these numbers plus the costs
of the used variables.  The variable that occurs in no clause gets zero. -/
theorem C99_ksat_python (flag : Bool) (alpha : ℚ) (K : ℕ) : ∃ out : ℕ → ℚ, ksatDemo (K + 1) flag alpha = some (listOf 5 (fun v => fin (out v))) ∧ out 1 = 0 ∧
    ksatBeliefs (K + 1) flag alpha (ksatObject 5 3 demoFormula (listOf 5 (fun v => fin (demoCost v)))) =
      some (listOf 5 (fun v => fin (out v + if v ∈ demoFormula.used then demoCost v else 0))) := by
  obtain ⟨x, r, -, hb⟩ := Proofs.call_trace demoFormula_ok (by omega) demoCost flag alpha
  have hb := hb K
  generalize hS : (fun v => ∑ c ∈ occurrences demoFormula.clauses.length 3 ⟨demoFormula.clauses.length, 3, Proofs.litVar demoFormula⟩ v, damped flag alpha (fun i => r i c v) K) = S at *
  have hS' : ∀ v, ∑ c ∈ occurrences demoFormula.clauses.length 3 ⟨demoFormula.clauses.length, 3, Proofs.litVar demoFormula⟩ v, damped flag alpha (fun i => r i c v) K = S v :=
    fun v => congrFun hS v
  simp only [hS'] at hb
  refine ⟨S, ?_, ?_, hb⟩
  · obtain ⟨out, h1, h2⟩ := Proofs.ksatDemo_list (K + 1) flag alpha
    rw [h1]
    have e : ksatBeliefs (K + 1) flag alpha (ksatObject 5 3 demoFormula (listOf 5 (fun v => fin (demoCost v)))) =
      (ksatWrapper (K + 1) 5 2 4 3 flag alpha ksatDemoFlat (List.replicate 5 0)).bind fun ext =>
        if ext.length = 5 then some (List.zipWith (· + ·) ext [fin (demoCost 0), 0, fin (demoCost 2), fin (demoCost 3), fin (demoCost 4)]) else none := rfl
    rw [e, h2] at hb
    simp only [Option.bind_some, List.length_cons, List.length_nil, if_true, List.zipWith_cons_cons, List.zipWith_nil_left, listOf, List.range, List.range.loop, List.map,
      Option.some.injEq, List.cons.injEq, and_true, zero_add, Nat.reduceAdd] at hb
    obtain ⟨b0, b1, b2, b3, b4⟩ := hb
    have key : ∀ (a : Num) (p q : ℚ), a + fin p = fin (q + p) → a = fin q := by
      intro a p q h
      cases a with
      | fin x => rw [fin_add, Num.fin.injEq] at h; rw [add_right_cancel h]
      | _ => cases h
    have g0 := key _ _ _ b0
    have g1 := key _ _ _ (show out 1 + fin 0 = fin (S 1 + 0) from b1)
    have g2 := key _ _ _ b2
    have g3 := key _ _ _ b3
    have g4 := key _ _ _ b4
    rw [g0, g1, g2, g3, g4]; rfl
  · rw [← hS' 1, show occurrences demoFormula.clauses.length 3 ⟨demoFormula.clauses.length, 3, Proofs.litVar demoFormula⟩ 1 = ∅ by decide]
    simp

/-- C99, k-SAT: after any number of iterations, with any damping between 0 and 1, the printed numbers speak for variables 0, 3 and 4 being true and 2 being
false, or for nothing.  With the costs they give the assignment that satisfies both clauses and that the costs alone prefer. -/
theorem C99_ksat_signs {flag : Bool} {alpha : ℚ} (ha : flag = true → 0 ≤ alpha ∧ alpha ≤ 1) (K : ℕ) : ∃ out : ℕ → ℚ,
    ksatDemo (K + 1) flag alpha = some (listOf 5 (fun v => fin (out v))) ∧ out 0 ≤ 0 ∧ out 1 = 0 ∧ 0 ≤ out 2 ∧ out 3 ≤ 0 ∧ out 4 ≤ 0 := by
  obtain ⟨out, h1, h2, h3⟩ := C99_ksat_python flag alpha K
  obtain ⟨b, h4, h5⟩ := C80_beliefs demoFormula_ok (by omega) (w := demoCost) ha (A := {0, 2, 3, 4}) (σ := fun v => decide (v ≠ 2))
    (by unfold Autarky; decide) (by unfold Favours; decide +kernel) K
  rw [h3] at h4
  have h6 := Option.some.inj h4
  simp only [listOf, List.range, List.range.loop, List.map, List.cons.injEq, Num.fin.injEq, and_true] at h6
  obtain ⟨b0, -, b2, b3, b4⟩ := h6
  rw [if_pos (by decide)] at b0 b2 b3 b4
  have c0 := (h5 0 (by decide) (by decide)).1 (by decide)
  have c2 := (h5 2 (by decide) (by decide)).2 (by decide)
  have c3 := (h5 3 (by decide) (by decide)).1 (by decide)
  have c4 := (h5 4 (by decide) (by decide)).1 (by decide)
  exact ⟨out, h1, by linarith, h2, by linarith, by linarith, by linarith⟩

/-- What the k-SAT example prints after two iterations. -/
example : ksatDemo 2 true (1 / 2) = some [fin (-382388809 / 100000000), 0, fin (646802391 / 400000000), 0, 0] := by decide +kernel

/-! ## Assignment -/

/-- examples/KcMwm/demo.cpp:37, 50, 38: team costs, weights and pair costs. -/
def demoTeam (t : ℕ) : ℚ := [-22, -31, -68, -39, -84].getD t 0
def demoWeight (d t : ℕ) : ℕ := (([[2, 1, 1, 1, 0], [0, 1, 1, 1, 2]] : List (List ℕ)).getD d []).getD t 0
def demoPair (p t : ℕ) : ℚ := (([[44, 1, 41, 10, 3], [7, 17, 56, 98, 63]] : List (List ℚ)).getD p []).getD t 0

/-- The Python object for the data of the example. -/
def demoKc : KcPy := pythonTables 2 5 2 demoWeight (fun _ => 3) (fun t => fin (demoTeam t)) (fun p t => fin (demoPair p t))

set_option maxRecDepth 10000 in
/-- C99, assignment: the library decodes the arrays of the example to the same tables as those that Python passes, although the list of team numbers is
two entries longer. -/
theorem C99_kc_arrays (flag : Bool) (alpha : ℚ) : (kcFlatten demoKc).bind (kcDecode 2 5 2 flag alpha) = kcDecode 2 5 2 flag alpha kcDemoFlat := by rfl

theorem demoKc_ok : KcProblemOk 2 5 2 demoWeight (fun _ => 3) := ⟨by decide, by decide, by decide, by decide, by decide⟩

/-- C99, assignment: the example prints exactly the intrinsic outputs that the Python call returns for the same data; both stay inside their arrays. -/
theorem C99_kc (flag : Bool) (alpha : ℚ) (K : ℕ) : ∃ out m, kcDemo (K + 1) flag alpha = some out ∧ kcIteratePy (K + 1) flag alpha demoKc = some (out, m) ∧ out.length = 5 := by
  obtain ⟨a, raw, o, y, e, c, ht⟩ := C23_trace (w := demoTeam) (R := demoPair) demoKc_ok flag alpha
  obtain ⟨m, hm, -⟩ := C23_call demoKc_ok flag alpha ht K
  refine ⟨_, m, ?_, hm, by simp [listOf]⟩
  have hm : kcIteratePy (K + 1) flag alpha demoKc = _ := hm
  unfold kcIteratePy at hm
  obtain ⟨f, h1, hm⟩ := Option.bind_eq_some_iff.mp hm
  obtain ⟨⟨ext, intr⟩, h2, hm⟩ := Option.bind_eq_some_iff.mp hm
  obtain ⟨mwm, h3, hm⟩ := Option.bind_eq_some_iff.mp hm
  obtain ⟨o', h4, hm⟩ := Option.bind_eq_some_iff.mp hm
  have e1 : o' = _ := (Prod.mk.inj (Option.some.inj hm)).1
  rw [← e1, ← h4]
  have hd := C99_kc_arrays flag alpha
  rw [h1, Option.bind_some] at hd
  have h2 : kcWrapper (K + 1) 2 5 2 flag alpha f (List.replicate 5 0) (List.replicate 10 0) = some (ext, intr) := h2
  obtain ⟨⟨inp, a'⟩, g1, h2⟩ := Option.bind_eq_some_iff.mp h2
  obtain ⟨⟨x, y'⟩, g2, h2⟩ := Option.bind_eq_some_iff.mp h2
  obtain ⟨x', g3, h2⟩ := Option.bind_eq_some_iff.mp h2
  obtain ⟨z, g4, h2⟩ := Option.bind_eq_some_iff.mp h2
  obtain ⟨z', g5, h2⟩ := Option.bind_eq_some_iff.mp h2
  obtain ⟨z'', g6, h2⟩ := Option.bind_eq_some_iff.mp h2
  obtain ⟨rfl, rfl⟩ := Prod.mk.inj (Option.some.inj h2)
  rw [g1] at hd
  have hrew : inp.reward = Arr.ofList [fin (-22), fin (-31), fin (-68), fin (-39), fin (-84)] := by
    have : (kcDecode 2 5 2 flag alpha kcDemoFlat).map (fun p => p.1.reward) = some (Arr.ofList [fin (-22), fin (-31), fin (-68), fin (-39), fin (-84)]) := rfl
    rw [← hd] at this
    exact Option.some.inj this
  obtain ⟨hx, g3⟩ : 5 ≤ x.size ∧ x' = [x.data 0, x.data 1, x.data 2, x.data 3, x.data 4] := Proofs.slice_five g3
  subst g3
  have g4 : z = [x.data 0, x.data 1, x.data 2, x.data 3, x.data 4] := (Option.some.inj g4).symm
  subst g4
  simp only [kcDemo, ← hd, g2, hrew, Option.bind_eq_bind, Option.bind_some]
  exact Proofs.mapM_sum hx

/-- Without damping the assignment example settles: it prints the same after four and after five iterations. -/
example : kcDemo 4 false 0 = some [fin (-1), fin 1, fin 3, fin 46, fin (-51)] ∧ kcDemo 5 false 0 = kcDemo 4 false 0 := by decide +kernel

/-! ## TSP -/

/-- The edges and the cost matrix of examples/Tsp/demo.cpp. -/
def demoPairs : List (ℕ × ℕ) := [(0, 1), (0, 2), (0, 3), (0, 4), (1, 0), (1, 2), (1, 3), (1, 4), (2, 0), (2, 1), (2, 3), (2, 4), (3, 0), (3, 1), (3, 2), (3, 4), (4, 0), (4, 1), (4, 2), (4, 3)]
def demoDistance (u v : ℕ) : ℚ :=
  (([[0, 15175578773, 5618610887, 71831915651, 29302503715], [15175578773, 0, 56842312860, 8325740946, 54545357536],
    [5618610887, 56842312860, 0, 44555107005, 88809445172], [71831915651, 8325740946, 44555107005, 0, 71905730714],
    [29302503715, 54545357536, 88809445172, 71905730714, 0]] : List (List ℚ)).getD u []).getD v 0 / 100000000

deriving instance DecidableEq for TspFlat

/-- C99, TSP: the arrays of the example are those that Python builds from the matrix; the edges are all entries that are not zero. -/
theorem C99_tsp_arrays : nonzeroEdges (Mat.ofRat 5 5 demoDistance) = demoPairs ∧
    (tspTables 5 (Mat.ofRat 5 5 demoDistance) demoPairs).map (fun t => tspFlatten (Mat.ofRat 5 5 demoDistance) demoPairs t.1 t.2) = some tspDemoFlat := by
  decide +kernel

theorem demoPairs_all : AllEdges 5 demoPairs := by
  refine ⟨by decide, by unfold EdgesOk; decide, ?_⟩
  unfold Complete
  intro u hu v hv
  interval_cases u <;> interval_cases v <;> decide

theorem demoDistance_pos : ∀ u < 5, ∀ v < 5, u ≠ v → 0 < demoDistance u v := by decide +kernel

/-- C99, TSP: with any settings the example comes to its end, or the library ends it (`exit(0)`) because a round selects no edge at all.  If it ends with
a tour, every node is visited once, along selected edges. -/
theorem C99_tsp (numIter : ℕ) (augmentation reset flag : Bool) (alpha : ℚ) (thr : Num) (maxCount : ℕ) {maxAugm : ℤ} (hm : 1 ≤ maxAugm)
    {order : ℕ → List (ℕ × ℕ) → List ℕ} (ho : ∀ k sel, StartOrder sel (order k sel)) {fuel : ℕ} (hf : maxAugm < fuel) :
    (∃ st, tspDemo numIter augmentation reset flag alpha thr maxCount maxAugm order fuel = some (some st) ∧
      (st.an.tourFlag = true → IsTour (Joined st.selected) 5 st.an.tour)) ∨
    tspDemo numIter augmentation reset flag alpha thr maxCount maxAugm order fuel = some none ∧
      ∃ (inp : TspInputs) (a : Mat Num) (k : ℕ) (f : ℕ → TspState) (st1 : TspState) (m : TspMsgs),
        tspDecode 5 20 flag alpha tspDemoFlat = some (inp, a) ∧
        iterateRelaxed (tspSetup inp numIter reset augmentation thr maxCount maxAugm order) (tspStart inp a) = some st1 ∧ f 0 = { st1 with msgs := m } ∧
        AugRun (tspSetup inp numIter reset augmentation thr maxCount maxAugm order) f k ∧ (f k).selected = [] := by
  obtain ⟨inp, a, d1, d2, d3, d4, d5, d6, d7, d8, d9⟩ := C48_instance flag alpha (Mat.ofRat_is 5 5 demoDistance) demoPairs_all (by norm_num)
  have hd : tspDecode 5 20 flag alpha tspDemoFlat = some (inp, a) := by
    obtain ⟨t, h1, h2⟩ := Option.map_eq_some_iff.mp C99_tsp_arrays.2
    rw [tspInputs, h1, Option.bind_some, h2] at d1
    exact d1
  have hdemo : tspDemo numIter augmentation reset flag alpha thr maxCount maxAugm order fuel =
      tspSolve (tspSetup inp numIter reset augmentation thr maxCount maxAugm order) fuel (tspStart inp a) := by
    unfold tspDemo; rw [hd]
  rw [hdemo]
  have hpos : ∀ e < inp.numEdges, 0 < demoDistance (src demoPairs e) (dst demoPairs e) := by
    rw [d3]; decide +kernel
  rcases C39_returns_partial (numIter := numIter) (maxCount := maxCount) (reset := reset) (augmentation := augmentation) (thr := thr) d7 (by rw [d2]; exact d8) (by omega)
    (by rw [d2, d4]; exact demoPairs_all.2.2) ho (by rw [d2, d3]; exact d9) hm hf with ⟨st, h⟩ | ⟨h, k, f, st1, m, h1, h2, h3, -, -, h4⟩
  · left
    refine ⟨st, h, fun ht => ?_⟩
    · have := (C20_tour (c := tspSetup inp numIter reset augmentation thr maxCount maxAugm order) ho d7.edges ⟨_, _, _, rfl⟩ hm h).1 ht
      rwa [show (tspSetup inp numIter reset augmentation thr maxCount maxAugm order).numNodes = 5 from d2] at this
  · exact Or.inr ⟨h, inp, a, k, f, st1, m, hd, h1, h2, h3, h4 hpos⟩

/-- With four iterations per round the TSP example finds a tour in its sixth round. -/
example : (tspDemo 4 true false true (1 / 2) (fin (-1 / 10000)) 50 50 someOrder 52).map (Option.map fun st => (st.numAugm, st.an.tour, st.cost)) =
    some (some (6, [2, 3, 1, 4, 0, 2], dec8 142347320089)) := by decide +kernel

end Verif.Properties
