import Verif.Proofs.ParamSolve
import Verif.Proofs.TspCall
import Verif.Spec.Rounding

/-! A call of the TSP solver with rounded arithmetic. -/

namespace Verif.Proofs
open Verif Num Filter Spec Model Properties

section
variable {n : ℕ} {m : Mat Num} {C : ℕ → ℕ → ℚ} {edges : List (ℕ × ℕ)}

theorem rounded_call_run (r : ℚ → Num) (s : TspSettings) (order : ℕ → List (ℕ × ℕ) → List ℕ) (fuel : ℕ) (hm : m.Is n n C) (h : AllEdges n edges)
    (hn : 3 ≤ n) : ∃ inp a, inp.numNodes = n ∧ inp.numEdges = n * n - n ∧ inp.edges = edges ∧ inp.flag = s.flag ∧ inp.alpha = s.alpha ∧
      TspOk inp (fun e => C (src edges e) (dst edges e)) (endCosts C edges) ∧ inp.costMatrix.Is inp.numNodes inp.numNodes C ∧
      a.Is inp.numEdges inp.numNodes (endCosts C edges) ∧
      Rounded.runImpa r s order fuel n m edges =
        (Rounded.tspSolve r (Rounded.tspSetup r inp s.numIter s.reset s.augmentation s.thr s.maxCount s.maxAugm order) fuel (tspStart inp a)).map
          (fun o => o.bind fun st => (processOutputs (n * n - n) st (newBuffers n)).bind fun b =>
            Rounded.processOutputsPy r s.augmentation (edges.map (fun e => fin (C e.1 e.2))) b) := by
  have hl := allEdges_length h
  obtain ⟨inp, a, d1, d2, d3, d4, d5, d6, hok, hC, hx⟩ := C48_instance s.flag s.alpha hm h hn
  obtain ⟨costs, table, t1, t2, t3, -⟩ := Proofs.tspTables_spec hm.1 hm.2.1 h.2.1 hl.le
  rw [tspInputs, t1, Option.bind_some] at d1
  refine ⟨inp, a, d2, d3, d4, d5, d6, hok, by rw [d2]; exact hC, by rw [d2, d3]; exact hx, ?_⟩
  have hcosts : costs.toList = edges.map (fun e => fin (C e.1 e.2)) := by
    refine List.ext_getElem (by simp [Arr.toList, t2, hl]) fun i i1 i2 => ?_
    have hi : i < edges.length := by simpa using i2
    obtain ⟨u1, u2⟩ := Proofs.src_dst_lt h.2.1 hi
    simp only [List.getElem_map, Arr.toList, List.getElem_range]
    rw [t3 i hi, hm.2.2 _ u1 _ u2]
    simp [src, dst, hi]
  simp only [Rounded.runImpa, t1, Rounded.tspWrapper, d1, Option.map_map, hcosts]
  congr 1
  funext o
  cases o <;> rfl

end

variable {ι : Type} {l : Filter ι} {r : ι → ℚ → Num} {R : Num → (ι → Num) → Prop}

/-- Reading the results of related states. -/
theorem rel_read (hR : Calc l r R) {E : ℕ} {st : TspState} {us : ι → TspState} {b0 b : TspBuffers} {aug : Bool} {costs : List Num}
    {costs' : ι → List Num} {q : TspResult} (hS : RelState l R st us) (hext : st.ext.size = E) (hlen : b0.ext.length = E) (hcl : costs.length = E)
    (hc : ∀ i, (costs' i).length = costs.length) (hcr : ∀ e < E, R (costs.getD e 0) (fun i => (costs' i).getD e 0))
    (hb : processOutputs E st b0 = some b) (hq : processOutputsPy aug costs b = some q) :
    ∃ qs : ι → TspResult, (∀ᶠ i in l, (processOutputs E (us i) b0).bind (fun b => Rounded.processOutputsPy (r i) aug (costs' i) b) = some (qs i) ∧
      SameAnswer q (qs i) ∧ (qs i).intrinsic.length = E) ∧ R q.cost (fun i => (qs i).cost) ∧
      ∀ e < E, R (q.intrinsic.getD e 0) (fun i => (qs i).intrinsic.getD e 0) := by
  obtain ⟨U, X, I, C, e0, e1, e2, e3, e4⟩ := hS
  unfold processOutputs at hb
  rw [hext, if_pos le_rfl] at hb
  simp only [Option.bind_eq_bind, Option.bind_eq_some_iff, Option.some.injEq] at hb
  obtain ⟨ext, f1, tour, f2, sel, f3, sub, f4, sizes, f5, rfl⟩ := hb
  have hput : ∀ d : ℕ → Num, putList b0.ext ((List.range E).map d) = some ((List.range E).map d) := by
    intro d
    unfold putList
    simp [hlen]
  rw [hput] at f1
  simp only [Option.some.injEq] at f1
  subst f1
  unfold processOutputsPy at hq
  simp only [Option.bind_eq_bind, Option.bind_eq_some_iff, Option.some.injEq] at hq
  obtain ⟨p, p1, i, p2, hqe⟩ := hq
  rw [if_pos (by simp [hcl]), Option.some.injEq] at p2
  subst p2
  refine ⟨fun i => { q with
    cost := C i, intrinsic := List.zipWith (fun x y => Rounded.rn (r i) (x + y)) ((List.range E).map (X i).data) (costs' i) }, ?_,
    by subst hqe; exact e4, fun e he => ?_⟩
  · filter_upwards [e0, e2.size, e1.s2e.rows] with i g0 g1 g2
    refine ⟨?_, ⟨rfl, rfl, rfl, rfl, rfl, rfl, rfl, rfl⟩, by simp [hc, hcl]⟩
    rw [g0]
    unfold processOutputs
    simp only [g1, hext, le_refl, if_true, hput, f2, f3, f4, f5, Option.bind_eq_bind, Option.bind_some]
    unfold Rounded.processOutputsPy processOutputsPy
    simp only [p1, Option.bind_eq_bind, Option.bind_some]
    rw [if_pos (by simp [hc, hcl])]
    simp only [g2]
    subst hqe
    rfl
  · subst hqe
    have g1 := hcr e he
    have g2 := e2.data e (by rw [hext]; exact he)
    have g3 := hR.add g2 g1
    have hl : ∀ (f : Num → Num → Num) (d : ℕ → Num) (cs : List Num), cs.length = E →
        (List.zipWith f ((List.range E).map d) cs).getD e 0 = f (d e) (cs.getD e 0) := by
      intro f d cs hcs
      rw [List.getD_eq_getElem _ _ (by simp [hcs, he]), List.getElem_zipWith, List.getD_eq_getElem _ _ (by rw [hcs]; exact he)]
      simp
    simp only
    rw [hl _ _ _ hcl]
    refine hR.congr g3 (Eventually.of_forall fun i => ?_)
    beta_reduce
    rw [hl _ _ _ (by rw [hc, hcl])]

section
variable {s : TspSettings} {order : ℕ → List (ℕ × ℕ) → List ℕ} {fuel limit n : ℕ} {m : Mat Num} {C : ℕ → ℕ → ℚ} {edges : List (ℕ × ℕ)}
  {q : TspResult} {M : ι → Mat Num} {D : ι → ℕ → ℕ → ℚ}

theorem rel_call (hR : Calc l r R) (hd : Damps r R s.flag s.alpha) (hm : m.Is n n C) (hM : ∀ i, (M i).Is n n (D i))
    (hMC : ∀ u < n, ∀ v < n, R (fin (C u v)) (fun i => fin (D i u v))) (h : AllEdges n edges) (hn : 3 ≤ n)
    (ho : ∀ k sel, StartOrder sel (order k sel)) (hmax : 1 ≤ s.maxAugm) (hlim : n ≤ limit)
    (hr : runImpa s order fuel limit n m edges = some (some (q, false))) :
    ∃ k Q, TspRounds (callProblem s n C edges) (endCosts C edges) Q k ∧ q.numAugm = k ∧ q.selected = (Q k).sel ∧ (∃ c, q.cost = fin c) ∧
      q.intrinsic = listOf (n * n - n) (fun e => fin (belief (callProblem s n C edges) (Q k) e)) ∧
      ((∀ i ≤ k, ∀ e < edges.length, Decides l R s.thr (fin (belief (callProblem s n C edges) (Q i) e))) →
        ∃ qs : ι → TspResult, (∀ᶠ i in l, Rounded.runImpa (r i) s order fuel n (M i) edges = some (some (qs i)) ∧ SameAnswer q (qs i) ∧
          (qs i).intrinsic.length = n * n - n) ∧ R q.cost (fun i => (qs i).cost) ∧
          ∀ e < n * n - n, R (q.intrinsic.getD e 0) (fun i => (qs i).intrinsic.getD e 0)) := by
  obtain ⟨inp, a, d2, d3, d4, hP, hok, hC, hx, hcomp, hrun⟩ := Proofs.call_run s order fuel limit hm h hn
  have hfl : inp.flag = s.flag ∧ inp.alpha = s.alpha := by
    simp only [tspProblem, callProblem, TspProblem.mk.injEq] at hP
    tauto
  rw [hrun, Option.map_eq_some_iff] at hr
  obtain ⟨o, hs, hr⟩ := hr
  simp only [Option.bind_eq_some_iff] at hr
  obtain ⟨st, rfl, b, hb, q1, hq, hfin⟩ := hr
  unfold Proofs.callSetup at hs
  have hqr : q1 = q := by
    unfold tspFinish at hfin
    split at hfin
    · simp only [Option.bind_eq_bind, Option.bind_eq_some_iff, Option.some.injEq, Prod.mk.injEq] at hfin
      obtain ⟨_, -, -, hh⟩ := hfin
      cases hh
    · simpa using hfin
  subst hqr
  have hl := allEdges_length h
  have hE : inp.numEdges = edges.length := by rw [d3, hl]
  choose J b2d j2 j3 j4 j5 j6 jok jC jx jrun using fun i => rounded_call_run (r i) s order fuel (hM i) h hn
  have hcost : ∀ e < edges.length, R (fin (C (src edges e) (dst edges e))) (fun i => fin (D i (src edges e) (dst edges e))) := fun e he =>
    hMC _ (src_dst_lt h.2.1 he).1 _ (src_dst_lt h.2.1 he).2
  have hend : ∀ e < edges.length, ∀ v, R (fin (endCosts C edges e v)) (fun i => fin (endCosts (D i) edges e v)) := by
    intro e he v
    unfold endCosts
    by_cases hv : v = src edges e ∨ v = dst edges e
    · simp only [if_pos hv]; exact hcost e he
    · simp only [if_neg hv]; exact hR.zero
  have hJ : RelInputs l R inp J := by
    refine ⟨fun i => ?_, ⟨Eventually.of_forall fun i => ?_, fun e he => ?_⟩, ⟨Eventually.of_forall fun i => ?_, Eventually.of_forall fun i => ?_, fun u hu v hv => ?_⟩,
      ⟨Eventually.of_forall fun i => ?_, Eventually.of_forall fun i => ?_, fun e he v hv => ?_⟩⟩
    · have k1 := (j2 i).trans d2.symm
      have k2 := (j3 i).trans d3.symm
      have k3 := (j4 i).trans d4.symm
      have k4 := (j5 i).trans hfl.1.symm
      have k5 := (j6 i).trans hfl.2.symm
      rw [← k1, ← k2, ← k3, ← k4, ← k5]
    · rw [(jok i).cost.1, hok.cost.1, j3, d3]
    · rw [hok.cost.1] at he
      rw [hok.cost.2 e he]
      refine hR.congr (hcost e (hE ▸ he)) (Eventually.of_forall fun i => ?_)
      exact ((jok i).cost.2 e (by rw [j3, ← d3]; exact he)).symm
    · rw [(jC i).1, hC.1, j2, d2]
    · rw [(jC i).2.1, hC.2.1, j2, d2]
    · rw [hC.1] at hu
      rw [hC.2.1] at hv
      rw [hC.2.2 u hu v hv]
      refine hR.congr (hMC u (d2 ▸ hu) v (d2 ▸ hv)) (Eventually.of_forall fun i => ?_)
      exact ((jC i).2.2 u (by rw [j2, ← d2]; exact hu) v (by rw [j2, ← d2]; exact hv)).symm
    · rw [(jok i).deg.1, hok.deg.1, j3, d3]
    · rw [(jok i).deg.2.1, hok.deg.2.1, j2, d2]
    · rw [hok.deg.1] at he
      rw [hok.deg.2.1] at hv
      rw [hok.deg.2.2 e he v hv]
      refine hR.congr (hend e (hE ▸ he) v) (Eventually.of_forall fun i => ?_)
      exact ((jok i).deg.2.2 e (by rw [j3, ← d3]; exact he) v (by rw [j2, ← d2]; exact hv)).symm
  have ha : RelMat l R a b2d := by
    refine ⟨Eventually.of_forall fun i => ?_, Eventually.of_forall fun i => ?_, fun e he v hv => ?_⟩
    · rw [(jx i).1, hx.1, j3, d3]
    · rw [(jx i).2.1, hx.2.1, j2, d2]
    · rw [hx.1] at he
      rw [hx.2.1] at hv
      rw [hx.2.2 e he v hv]
      refine hR.congr (hend e (hE ▸ he) v) (Eventually.of_forall fun i => ?_)
      exact ((jx i).2.2 e (by rw [j3, ← d3]; exact he) v (by rw [j2, ← d2]; exact hv)).symm
  obtain ⟨k, Q, g1, g2, g3, g4⟩ := rel_solve hR hJ (by rw [hfl.1, hfl.2]; exact hd) hok hC (by omega) hcomp ho ha hx hs
  rw [hP] at g1 g3 g4
  obtain ⟨q', hq', c⟩ := Proofs.call_read hm h hn ho hmax hlim d2 d3 d4 (by unfold Proofs.callSetup; exact hs) g3.ext hb
  obtain rfl : q1 = q' := by rw [hq] at hq'; simpa using hq'
  refine ⟨k, Q, g1, by rw [c.numAugm, g2], by rw [c.selected, g3.selected], by
    obtain ⟨c', -, hc'⟩ := g3.cost; exact ⟨c', by rw [c.cost, hc']⟩, c.beliefs, fun hne => ?_⟩
  obtain ⟨us, u1, u2⟩ := g4 (fun i hi e he => hne i hi e (hE ▸ he))
  obtain ⟨qs, v1, v2, v3⟩ := rel_read hR (costs' := fun i => edges.map (fun e => fin (D i e.1 e.2))) u2 (by rw [g3.ext.1, d3]) (by simp [newBuffers])
    (by simp [hl]) (fun i => by simp) (fun e he => by
      have he' : e < edges.length := by rw [hl]; exact he
      have := hcost e he'
      simp only [src, dst, he', List.getD_eq_getElem, List.length_map, List.getElem_map] at this ⊢
      exact this) hb hq
  refine ⟨qs, ?_, v2, v3⟩
  filter_upwards [u1, v1] with i w1 w2
  refine ⟨?_, w2.2⟩
  rw [jrun, w1]
  simp only [Option.map_some, Option.bind_some]
  rw [w2.1]
end

end Verif.Proofs
