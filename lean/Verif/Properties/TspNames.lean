import Verif.Proofs.TspNamedRun
import Verif.Properties.TspOrder
import Verif.Properties.TspScale
import Mathlib.Tactic.IntervalCases

/-! # C79: names, the order of the edge list and units do not matter to the TSP solver in any round -/

namespace Verif.Properties
open Verif Num Spec Model

section
variable {inp inp' : TspInputs} {w w' : ℕ → ℚ} {cc cc' C C' x0 x0' : ℕ → ℕ → ℚ} {e2d e2d' : Mat Num} {numIter maxCount : ℕ}
  {reset augmentation : Bool} {θ a : ℚ} {maxAugm : ℤ} {order order' : ℕ → List (ℕ × ℕ) → List ℕ} {π : ℕ → ℕ}

/-- C79, the solver.  Rename the nodes by a permutation `π`, list the edges in another order, multiply all costs and the threshold by `a > 0`
and visit the hash maps in another order.  Let `f 0, ..., f k` be the rounds of the first call.  If in each of them selected cycles with a common
node are the same cycle, the second call has the renamed outcome: either both end the process, or both return after `k` augmentations with the
renamed selection, loops and tour, the same flags, and the cost and all beliefs multiplied by `a`. -/
theorem C79_same_outcome (h : TspOk inp w cc) (h' : TspOk inp' w' cc') (hC : inp.costMatrix.Is inp.numNodes inp.numNodes C)
    (hC' : inp'.costMatrix.Is inp.numNodes inp.numNodes C') (hn : 3 ≤ inp.numNodes)
    (hsame : inp'.numNodes = inp.numNodes ∧ inp'.flag = inp.flag ∧ inp'.alpha = inp.alpha)
    (hall : AllEdges inp.numNodes inp.edges) (hall' : AllEdges inp.numNodes inp'.edges)
    (hπ : ∀ v < inp.numNodes, π v < inp.numNodes) (hinj : ∀ u < inp.numNodes, ∀ v < inp.numNodes, π u = π v → u = v) (ha : 0 < a)
    (hw : ∀ e e' u v, inp.edges[e]? = some (u, v) → inp'.edges[e']? = some (π u, π v) → w' e' = a * w e ∧
      (cc' e' (π u) = a * cc e u ∧ cc' e' (π v) = a * cc e v) ∧ (x0' e' (π u) = a * x0 e u ∧ x0' e' (π v) = a * x0 e v))
    (hcost : ∀ u < inp.numNodes, ∀ v < inp.numNodes, C' (π u) (π v) = a * C u v)
    (ho : ∀ k sel, StartOrder sel (order k sel)) (ho' : ∀ k sel, StartOrder sel (order' k sel))
    (he : e2d.Is inp.numEdges inp.numNodes x0) (he' : e2d'.Is inp'.numEdges inp.numNodes x0') (hm : 1 ≤ maxAugm) {fuel fuel' : ℕ}
    {o : Option TspState}
    (hs : tspSolve (tspSetup inp numIter reset augmentation (fin θ) maxCount maxAugm order) fuel (tspStart inp e2d) = some o)
    (hf : maxAugm < fuel') :
    ∃ (k : ℕ) (f : ℕ → TspState) (st1 : TspState),
      iterateRelaxed (tspSetup inp numIter reset augmentation (fin θ) maxCount maxAugm order) (tspStart inp e2d) = some st1 ∧
      (∃ m, f 0 = { st1 with msgs := m }) ∧ (0 < k → f 0 = addFirstRows st1) ∧
      AugRun (tspSetup inp numIter reset augmentation (fin θ) maxCount maxAugm order) f k ∧ (f k).numAugm = k ∧
      (∀ st', o = some st' → st' = f k) ∧
      ((∀ i ≤ k, CyclesApart (f i).selected) →
        ∃ o', tspSolve (tspSetup inp' numIter reset augmentation (fin (a * θ)) maxCount maxAugm order') fuel' (tspStart inp' e2d') = some o' ∧
          RenamedOutcome a π inp.edges inp'.edges o o') := by
  obtain ⟨e1, e2, e3⟩ := hsame
  rw [← e1] at hC' he'
  have hcomp' : Complete inp'.numNodes inp'.edges := by rw [e1]; exact hall'.2.2
  obtain ⟨st1, f, k, hr⟩ := Proofs.solve_run h hC hn hall.2.2 ho he hm hs
  refine ⟨k, f, st1, hr.relaxed, hr.f0, hr.rows, hr.run, hr.num k le_rfl, fun st' hst => ?_, fun hap => ?_⟩
  · rcases hr.fin with ⟨a, -⟩ | ⟨a, -⟩
    · rw [hst] at a; simpa using a
    · rw [hst] at a; simp at a
  · have hend := C20_terminates (c := tspSetup inp' numIter reset augmentation (fin (a * θ)) maxCount maxAugm order') (fuel := fuel')
      (st := tspStart inp' e2d') ⟨_, _, _, rfl⟩ hm hf
    cases hs' : tspSolve (tspSetup inp' numIter reset augmentation (fin (a * θ)) maxCount maxAugm order') fuel' (tspStart inp' e2d') with
    | none => exact absurd hs' hend
    | some o' =>
      obtain ⟨st1', f', k', hr'⟩ := Proofs.solve_run h' hC' (by rw [e1]; exact hn) hcomp' ho' he' hm hs'
      obtain ⟨ρ, hρ⟩ := Proofs.exists_same hall hall' hπ hinj
      have hat : ∀ e (_ : e < inp.edges.length), inp.edges[e]? = some (src inp.edges e, dst inp.edges e) ∧
          inp'.edges[ρ e]? = some (π (src inp.edges e), π (dst inp.edges e)) := by
        intro e l1
        have l2 : ρ e < inp'.edges.length := by rw [hρ.length]; exact hρ.place e l1
        exact ⟨by rw [List.getElem?_eq_getElem l1, Proofs.src_dst l1],
          by rw [List.getElem?_eq_getElem l2, Proofs.src_dst l2, hρ.src e l1, hρ.dst e l1]⟩
      have key : ∀ e (_ : e < inp.edges.length), w' (ρ e) = a * w e ∧
          (cc' (ρ e) (π (src inp.edges e)) = a * cc e (src inp.edges e) ∧ cc' (ρ e) (π (dst inp.edges e)) = a * cc e (dst inp.edges e)) ∧
          (x0' (ρ e) (π (src inp.edges e)) = a * x0 e (src inp.edges e) ∧ x0' (ρ e) (π (dst inp.edges e)) = a * x0 e (dst inp.edges e)) :=
        fun e l1 => hw e (ρ e) _ _ (hat e l1).1 (hat e l1).2
      refine ⟨o', rfl, Proofs.outcome_named ha h hC hn hall.2.2 hall.1 h' hC' hcomp' hall'.1
        ⟨e1, hρ, fun e l => (key e l).1, ?_, hcost, e2, e3, rfl, rfl, fun b => ?_⟩ ho ho' ?_ he he' hr hr' hm hap⟩
      · rintro e l v (rfl | rfl)
        · exact (key e l).2.1.1
        · exact (key e l).2.1.2
      · simp only [tspProblem, Above]
        rw [mul_lt_mul_iff_right₀ ha]
      · rintro e l v (rfl | rfl)
        · exact (key e l).2.2.1
        · exact (key e l).2.2.2
end

section
variable {s : TspSettings} {order order' : ℕ → List (ℕ × ℕ) → List ℕ} {fuel fuel' limit n : ℕ} {m m' : Mat Num} {C C' : ℕ → ℕ → ℚ}
  {edges edges' : List (ℕ × ℕ)} {r r' : TspResult} {done done' : Bool} {π : ℕ → ℕ} {a θ : ℚ}

/-- C79, a whole call.  Let `R 0, ..., R k` be the mathematical rounds behind the result of a call.  If in each of them selected cycles with a
common node are the same cycle, then every result of a call on the renamed instance agrees with it: the same number of augmentations, the
renamed selection, post-processing is entered by both or by neither, and if it is not entered, then the cost is multiplied by `a` and either both
calls or neither of them return a tour. -/
theorem C79_call (hm : m.Is n n C) (hm' : m'.Is n n C') (h : AllEdges n edges) (h' : AllEdges n edges') (hn : 3 ≤ n)
    (hπ : ∀ v < n, π v < n) (hinj : ∀ u < n, ∀ v < n, π u = π v → u = v) (ha : 0 < a) (hC : ∀ u < n, ∀ v < n, C' (π u) (π v) = a * C u v)
    (hth : s.thr = fin θ) (hmax : 1 ≤ s.maxAugm) (hlim : n ≤ limit)
    (ho : ∀ k sel, StartOrder sel (order k sel)) (ho' : ∀ k sel, StartOrder sel (order' k sel))
    (hr : runImpa s order fuel limit n m edges = some (some (r, done)))
    (hr' : runImpa { s with thr := fin (a * θ) } order' fuel' limit n m' edges' = some (some (r', done'))) :
    ∃ k R, TspRounds (callProblem s n C edges) (endCosts C edges) R k ∧ r.numAugm = k ∧ r.selected = (R k).sel ∧
      ((∀ i ≤ k, CyclesApart (R i).sel) →
        r'.numAugm = r.numAugm ∧ r'.selected.Perm (r.selected.map (fun p => (π p.1, π p.2))) ∧ done' = done ∧
        (done = false → (∃ q, r.cost = fin q ∧ r'.cost = fin (a * q)) ∧ r'.tour.isSome = r.tour.isSome)) := by
  obtain ⟨inp, x, d2, d3, d4, hP, hok, hCm, hx, hcomp, hrun⟩ := Proofs.call_run s order fuel limit hm h hn
  obtain ⟨inp', x', d2', d3', d4', hP', hok', hCm', hx', hcomp', hrun'⟩ :=
    Proofs.call_run { s with thr := fin (a * θ) } order' fuel' limit hm' h' hn
  rw [hrun, Option.map_eq_some_iff] at hr
  rw [hrun', Option.map_eq_some_iff] at hr'
  obtain ⟨o, hs, hr⟩ := hr
  obtain ⟨o', hs', hr'⟩ := hr'
  simp only [Option.bind_eq_some_iff] at hr hr'
  obtain ⟨st, rfl, b, hb, q, hq, hfin⟩ := hr
  obtain ⟨st', rfl, b', hb', q', hq', hfin'⟩ := hr'
  obtain ⟨st1, f, k, run⟩ := Proofs.solve_run hok hCm (by omega) hcomp ho hx hmax hs
  obtain ⟨st1', f', k', run'⟩ := Proofs.solve_run hok' hCm' (by omega) hcomp' ho' hx' hmax hs'
  obtain ⟨R, hR, hout⟩ := Proofs.run_rounds hok hCm (by omega) hcomp ho hx run.relaxed run.f0 run.rows run.run
  obtain ⟨R', hR', hout'⟩ := Proofs.run_rounds hok' hCm' (by omega) hcomp' ho' hx' run'.relaxed run'.f0 run'.rows run'.run
  have hst : st = f k := by
    rcases run.fin with ⟨z, -⟩ | ⟨z, -⟩
    · simpa using z
    · simp at z
  have hst' : st' = f' k' := by
    rcases run'.fin with ⟨z, -⟩ | ⟨z, -⟩
    · simpa using z
    · simp at z
  have hext := (hout k le_rfl).ext
  have hext' := (hout' k' le_rfl).ext
  rw [hP, ← hst] at hext
  rw [hP', ← hst'] at hext'
  obtain ⟨p, hp, c⟩ := Proofs.call_read hm h hn ho hmax hlim d2 d3 d4 hs hext hb
  obtain rfl : q = p := by rw [hq] at hp; simpa using hp
  obtain ⟨p', hp', c'⟩ := Proofs.call_read (s := { s with thr := fin (a * θ) }) hm' h' hn ho' hmax hlim d2' d3' d4' hs' hext' hb'
  obtain rfl : q' = p' := by rw [hq'] at hp'; simpa using hp'
  have hsel := (hout k le_rfl).selected
  rw [← hst] at hsel
  -- what `tspFinish` keeps
  have fin1 : ∀ {t : TspSettings} {M : Mat Num} {E : List (ℕ × ℕ)} {cs : List Num} {q r : TspResult} {done : Bool},
      tspFinish t limit n M E cs q = some (r, done) → r.numAugm = q.numAugm ∧ r.selected = q.selected ∧
        done = (q.tour.isNone && t.postProcess) ∧ (done = false → r = q) := by
    intro t M E cs q r done hh
    unfold tspFinish at hh
    split at hh
    · next hif =>
      simp only [Option.bind_eq_bind, Option.bind_eq_some_iff, Option.some.injEq, Prod.mk.injEq] at hh
      obtain ⟨⟨_, _⟩, -, rfl, rfl⟩ := hh
      exact ⟨rfl, rfl, hif.symm, by simp⟩
    · next hif =>
      obtain ⟨rfl, rfl⟩ : q = r ∧ false = done := by simpa using hh
      exact ⟨rfl, rfl, by simpa using hif, fun _ => rfl⟩
  obtain ⟨u1, u2, u3, u4⟩ := fin1 hfin
  obtain ⟨v1, v2, v3, v4⟩ := fin1 hfin'
  have hnum : st.numAugm = k := by rw [hst]; exact run.num k le_rfl
  refine ⟨k, R, by rw [← hP]; exact hR, by rw [u1, c.numAugm, hnum], by rw [u2, c.selected, hsel], fun hap => ?_⟩
  obtain ⟨ρ, hρ⟩ := Proofs.exists_same h h' hπ hinj
  have hlt : ∀ e (_ : e < edges.length), C' (src edges' (ρ e)) (dst edges' (ρ e)) = a * C (src edges e) (dst edges e) := fun e he => by
    rw [hρ.src e he, hρ.dst e he, hC _ (Proofs.src_lt h.2.1 he) _ (Proofs.dst_lt h.2.1 he)]
  have hend : ∀ e < edges.length, ∀ v, v = src edges e ∨ v = dst edges e → endCosts C' edges' (ρ e) (π v) = a * endCosts C edges e v := by
    intro e he v hv
    unfold endCosts
    rw [if_pos hv, hlt e he, if_pos]
    rw [hρ.src e he, hρ.dst e he]
    rcases hv with rfl | rfl
    · exact Or.inl rfl
    · exact Or.inr rfl
  have hprob : Proofs.SameProblem a π ρ (callProblem s n C edges) (callProblem { s with thr := fin (a * θ) } n C' edges') :=
    ⟨rfl, hρ, hlt, hend, hC, rfl, rfl, rfl, rfl, fun b => by
      simp only [callProblem, hth, Above]
      rw [mul_lt_mul_iff_right₀ ha]⟩
  rw [← hP, ← hP'] at hprob
  have key := Proofs.outcome_named ha hok hCm (by omega) hcomp (by rw [d4]; exact h.1) hok' hCm' hcomp' (by rw [d4']; exact h'.1) hprob ho ho'
    (by rw [d4]; exact hend) hx hx' run run' hmax (fun i hi => by rw [(hout i hi).selected]; exact hap i hi)
  have key : RenamedResult a π inp.edges inp'.edges st st' := key
  have htour : q'.tour.isNone = q.tour.isNone := by
    have h1 := c.none_iff
    have h2 := c'.none_iff
    rw [← key.flags.1, ← h1] at h2
    rw [Bool.eq_iff_iff, Option.isNone_iff_eq_none, Option.isNone_iff_eq_none]
    exact h2
  refine ⟨by rw [u1, v1, c.numAugm, c'.numAugm, key.rounds], by rw [u2, v2, c.selected, c'.selected]; exact key.selected, by rw [u3, v3, htour],
    fun hd => ?_⟩
  have hd' : done' = false := by rw [v3, htour, ← hd, u3]
  obtain rfl := u4 hd
  obtain rfl := v4 hd'
  refine ⟨by rw [c.cost, c'.cost]; exact key.cost, ?_⟩
  rw [← Option.not_isNone, ← Option.not_isNone, htour]
end

/-- Costs of four nodes: the relaxed round selects the loop of 0 and 3, one augmentation gives a tour. -/
def c79Cost (u v : ℕ) : ℚ := (([[0, 9, 2, 6], [4, 0, 1, 5], [3, 2, 0, 11], [2, 2, 2, 0]] : List (List ℚ)).getD u []).getD v 0
/-- New names of the four nodes. -/
def c79Name (v : ℕ) : ℕ := [2, 0, 3, 1].getD v 0
/-- The costs of the renamed nodes, multiplied by 3. -/
def c79Cost' (u v : ℕ) : ℚ := 3 * c79Cost ([1, 3, 0, 2].getD u 0) ([1, 3, 0, 2].getD v 0)
/-- The instance with edge list `E` and costs `C`. -/
def c79Inputs (E : List (ℕ × ℕ)) (C : ℕ → ℕ → ℚ) : TspInputs where
  numNodes := 4
  numEdges := 12
  edges := E
  cost := ⟨12, fun e => fin (C (src E e) (dst E e))⟩
  costMatrix := ⟨4, 4, fun u v => fin (C u v)⟩
  degCost := ⟨12, 4, fun e v => fin (endCosts C E e v)⟩
  flag := true
  alpha := 1 / 2

theorem c79_all : AllEdges 4 k4 ∧ AllEdges 4 k4.reverse := by
  unfold AllEdges EdgesOk Complete
  exact ⟨⟨by decide, by decide, fun u hu v hv => by interval_cases u <;> interval_cases v <;> decide⟩,
    ⟨by decide, by decide, fun u hu v hv => by interval_cases u <;> interval_cases v <;> decide⟩⟩
theorem c79_ok (C : ℕ → ℕ → ℚ) : TspOk (c79Inputs k4 C) (fun e => C (src k4 e) (dst k4 e)) (endCosts C k4) ∧
    TspOk (c79Inputs k4.reverse C) (fun e => C (src k4.reverse e) (dst k4.reverse e)) (endCosts C k4.reverse) :=
  ⟨⟨c79_all.1.2.1, rfl, show TwoWays 4 k4 by unfold TwoWays; decide, ⟨rfl, fun _ _ => rfl⟩, ⟨rfl, rfl, fun _ _ _ _ => rfl⟩⟩,
    ⟨c79_all.2.2.1, rfl, show TwoWays 4 k4.reverse by unfold TwoWays; decide, ⟨rfl, fun _ _ => rfl⟩, ⟨rfl, rfl, fun _ _ _ _ => rfl⟩⟩⟩

set_option synthInstance.maxSize 1000 in
set_option synthInstance.maxHeartbeats 100000 in
/-- All hypotheses hold together, with a loop in the relaxed round and a tour after one augmentation, so that C79 gives the outcome for the
renamed instance. -/
example : ∃ st st', tspSolve (tspSetup (c79Inputs k4 c79Cost) 4 true true (fin (-1 / 10)) 3 10 (c61Order false)) 20
      (tspStart (c79Inputs k4 c79Cost) (c79Inputs k4 c79Cost).degCost) = some (some st) ∧
    tspSolve (tspSetup (c79Inputs k4.reverse c79Cost') 4 true true (fin (3 * (-1 / 10))) 3 10 (c61Order true)) 20
      (tspStart (c79Inputs k4.reverse c79Cost') (c79Inputs k4.reverse c79Cost').degCost) = some (some st') ∧
    RenamedResult 3 c79Name k4 k4.reverse st st' ∧ st.numAugm = 1 ∧ st.an.tour = [2, 1, 3, 0, 2] ∧ st.cost = fin 11 := by
  have hrun : (tspSolve (tspSetup (c79Inputs k4 c79Cost) 4 true true (fin (-1 / 10)) 3 10 (c61Order false)) 20
      (tspStart (c79Inputs k4 c79Cost) (c79Inputs k4 c79Cost).degCost)).map (Option.map fun s => (s.numAugm, s.an.tour, s.cost, s.selected)) =
      some (some (1, [2, 1, 3, 0, 2], fin 11, [(0, 2), (1, 3), (2, 1), (3, 0)])) := by decide +kernel
  have hrel : (iterateRelaxed (tspSetup (c79Inputs k4 c79Cost) 4 true true (fin (-1 / 10)) 3 10 (c61Order false))
      (tspStart (c79Inputs k4 c79Cost) (c79Inputs k4 c79Cost).degCost)).map (fun s => s.selected) =
      some [(0, 3), (1, 3), (2, 1), (3, 0)] := by decide +kernel
  simp only [Option.map_eq_some_iff, Prod.mk.injEq] at hrun hrel
  obtain ⟨_, hs, st, rfl, g1, g2, g3, g4⟩ := hrun
  obtain ⟨st1, hst1, hsel⟩ := hrel
  obtain ⟨k, f, st1', a1, ⟨m, a2⟩, -, -, a5, a6, a7⟩ := C79_same_outcome (inp' := c79Inputs k4.reverse c79Cost') (a := 3) (π := c79Name)
    (order' := c61Order true) (fuel' := 20) (x0 := endCosts c79Cost k4) (x0' := endCosts c79Cost' k4.reverse) (C := c79Cost) (C' := c79Cost')
    (e2d' := (c79Inputs k4.reverse c79Cost').degCost) (c79_ok c79Cost).1 (c79_ok c79Cost').2
    ⟨rfl, rfl, fun _ _ _ _ => rfl⟩ ⟨rfl, rfl, fun _ _ _ _ => rfl⟩ (by decide) ⟨rfl, rfl, rfl⟩ c79_all.1 c79_all.2 (by decide) (by decide)
    (by norm_num) (by
      intro e e' u v h1 h2
      have l1 : e < 12 := by obtain ⟨l, -⟩ := List.getElem?_eq_some_iff.mp h1; exact l
      have l2 : e' < 12 := by obtain ⟨l, -⟩ := List.getElem?_eq_some_iff.mp h2; exact l
      have key : ∀ e < 12, ∀ e' < 12, (k4.reverse[e']? = (k4[e]?).map fun p => (c79Name p.1, c79Name p.2)) → ∀ p ∈ k4[e]?,
          c79Cost' (src k4.reverse e') (dst k4.reverse e') = 3 * c79Cost (src k4 e) (dst k4 e) ∧
          (endCosts c79Cost' k4.reverse e' (c79Name p.1) = 3 * endCosts c79Cost k4 e p.1 ∧
            endCosts c79Cost' k4.reverse e' (c79Name p.2) = 3 * endCosts c79Cost k4 e p.2) := by decide +kernel
      have := key e l1 e' l2 (by rw [show k4[e]? = some (u, v) from h1]; exact h2) (u, v) h1
      exact ⟨this.1, this.2, this.2⟩) (by decide +kernel) (fun k sel => c61Order_ok false k sel) (fun k sel => c61Order_ok true k sel)
    ⟨rfl, rfl, fun _ _ _ _ => rfl⟩ ⟨rfl, rfl, fun _ _ _ _ => rfl⟩ (by decide) hs (by decide)
  rw [a1, Option.some.injEq] at hst1
  subst hst1
  have hk := a6 st rfl
  rw [← hk, g1] at a5
  subst a5
  have hone : ∀ sel : List (ℕ × ℕ), (∀ p ∈ sel, ∀ q ∈ sel, p.1 = q.1 → p.2 = q.2) → CyclesApart sel := fun sel hh =>
    C61_one_out fun u v v' h1 h2 => hh (u, v) h1 (u, v') h2 rfl
  obtain ⟨o', b1, b2⟩ := a7 (fun i hi => by
    have : i = 0 ∨ i = 1 := by omega
    rcases this with rfl | rfl
    · rw [a2]
      simp only [hsel]
      exact hone _ (by decide)
    · rw [← hk, g4]
      exact hone _ (by decide))
  cases o' with
  | none => exact b2.elim
  | some st' => exact ⟨st, st', hs, b1, b2, g1, g2, g3⟩

/-- Whole calls: four augmentations on both sides, renamed selections, twice the cost. -/
example : (runImpa { callSettings false with thr := fin (-1 / 10) } someOrder 8 10 5 (Mat.ofRat 5 5 cycleCosts) (nonzeroEdges (Mat.ofRat 5 5 cycleCosts))).map
    (Option.map fun p => (p.1.selected, p.1.numAugm, p.1.cost, p.2)) = some (some ([(0, 1), (1, 0), (2, 3), (3, 4), (4, 2)], 4, fin 6, false)) := by
  decide +kernel
example : (runImpa { callSettings false with thr := fin (-2 / 10) } someOrder 8 10 5 (Mat.ofRat 5 5 renamedCosts)
    (nonzeroEdges (Mat.ofRat 5 5 renamedCosts)).reverse).map
    (Option.map fun p => (p.1.selected, p.1.numAugm, p.1.cost, p.2)) = some (some ([(4, 1), (3, 4), (2, 0), (1, 3), (0, 2)], 4, fin 12, false)) := by
  decide +kernel

end Verif.Properties
