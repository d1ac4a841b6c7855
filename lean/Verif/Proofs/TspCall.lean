import Verif.Properties.TspIO
import Verif.Properties.TspOut
import Verif.Properties.TspPost
import Verif.Spec.TspCall

/-! Lemmas about a whole call of the TSP solver. -/

namespace Verif.Proofs
open Verif Num Spec Model Properties

section
variable {s : TspSettings} {order : ℕ → List (ℕ × ℕ) → List ℕ} {fuel limit n : ℕ} {m : Mat Num} {C : ℕ → ℕ → ℚ} {edges : List (ℕ × ℕ)}

/-- The solver of a call. -/
def callSetup (s : TspSettings) (order : ℕ → List (ℕ × ℕ) → List ℕ) (inp : TspInputs) : TspSetup :=
  tspSetup inp s.numIter s.reset s.augmentation s.thr s.maxCount s.maxAugm order

/-- A call runs the solver on a well-formed instance and then reads the results. -/
theorem call_run (s : TspSettings) (order : ℕ → List (ℕ × ℕ) → List ℕ) (fuel limit : ℕ) (hm : m.Is n n C) (h : AllEdges n edges)
    (hn : 3 ≤ n) : ∃ inp a, inp.numNodes = n ∧ inp.numEdges = n * n - n ∧ inp.edges = edges ∧
      tspProblem inp (fun e => C (src edges e) (dst edges e)) (endCosts C edges) C s.numIter s.reset s.thr = callProblem s n C edges ∧
      TspOk inp (fun e => C (src edges e) (dst edges e)) (endCosts C edges) ∧ inp.costMatrix.Is inp.numNodes inp.numNodes C ∧
      a.Is inp.numEdges inp.numNodes (endCosts C edges) ∧ Complete inp.numNodes inp.edges ∧
      runImpa s order fuel limit n m edges = (tspSolve (callSetup s order inp) fuel (tspStart inp a)).map (fun o => o.bind fun st =>
        (processOutputs (n * n - n) st (newBuffers n)).bind fun b =>
          (processOutputsPy s.augmentation (edges.map (fun e => fin (C e.1 e.2))) b).bind
            (tspFinish s limit n m edges (edges.map (fun e => fin (C e.1 e.2))))) := by
  have hl := allEdges_length h
  obtain ⟨inp, a, d1, d2, d3, d4, d5, d6, hok, hC, hx⟩ := C48_instance s.flag s.alpha hm h hn
  obtain ⟨costs, table, t1, t2, t3, -⟩ := Proofs.tspTables_spec hm.1 hm.2.1 h.2.1 hl.le
  rw [tspInputs, t1, Option.bind_some] at d1
  refine ⟨inp, a, d2, d3, d4, by simp only [tspProblem, callProblem, d2, d4, d5, d6], hok, by rw [d2]; exact hC,
    by rw [d2, d3]; exact hx, by rw [d2, d4]; exact h.2.2, ?_⟩
  have hcosts : costs.toList = edges.map (fun e => fin (C e.1 e.2)) := by
    refine List.ext_getElem (by simp [Arr.toList, t2, hl]) fun i i1 i2 => ?_
    have hi : i < edges.length := by simpa using i2
    obtain ⟨u1, u2⟩ := Proofs.src_dst_lt h.2.1 hi
    simp only [List.getElem_map, Arr.toList, List.getElem_range]
    rw [t3 i hi, hm.2.2 _ u1 _ u2]
    simp [src, dst, hi]
  simp only [runImpa, t1, tspWrapper, d1, Option.map_map, hcosts]
  congr 1
  funext o
  cases o <;> rfl

/-- What Python reads after a run whose results fit the buffers. -/
structure CallRead (s : TspSettings) (limit n : ℕ) (m : Mat Num) (C : ℕ → ℕ → ℚ) (edges : List (ℕ × ℕ)) (st' : TspState) (R : TspRound)
    (q : TspResult) : Prop where
  numAugm : q.numAugm = st'.numAugm
  selected : q.selected = st'.selected
  cost : q.cost = st'.cost
  beliefs : q.intrinsic = listOf (n * n - n) (fun e => fin (belief (callProblem s n C edges) R e))
  subtours : ∀ ls, q.subtours = some ls → ls ≠ [] ∧
    ∀ p ∈ ls, p.head? = p.getLast? ∧ p.IsChain (Joined q.selected) ∧ p.tail.Nodup ∧ 2 ≤ p.length
  tour : ∀ t, q.tour = some t → IsTour (Joined q.selected) n t ∧ 5 ≤ n
  none_iff : q.tour = none ↔ st'.an.tourFlag = false
  post : PostInput { edges := edges, costs := edges.map (fun e => fin (C e.1 e.2)), intr := q.intrinsic, matrix := m, n := n } C limit
    q.selected q.subtours

theorem call_read (hm : m.Is n n C) (h : AllEdges n edges) (hn : 3 ≤ n) (ho : ∀ k sel, StartOrder sel (order k sel))
    (ha : 1 ≤ s.maxAugm) (hlim : n ≤ limit) {inp : TspInputs} {a : Mat Num} (d2 : inp.numNodes = n) (d3 : inp.numEdges = n * n - n)
    (d4 : inp.edges = edges) {st' : TspState} (hs : tspSolve (callSetup s order inp) fuel (tspStart inp a) = some (some st'))
    {R : TspRound} (g8 : st'.ext.Is inp.numEdges (R.output (callProblem s n C edges))) {b : TspBuffers}
    (hb : processOutputs (n * n - n) st' (newBuffers n) = some b) :
    ∃ q, processOutputsPy s.augmentation (edges.map (fun e => fin (C e.1 e.2))) b = some q ∧ CallRead s limit n m C edges st' R q := by
  have hl := allEdges_length h
  have c1 : (callSetup s order inp).numNodes = n := d2
  have c2 : (callSetup s order inp).numEdges = n * n - n := d3
  have c3 : (callSetup s order inp).edges = edges := d4
  have hedges : EdgesOk (callSetup s order inp).numNodes (callSetup s order inp).edges := by rw [c1, c3]; exact h.2.1
  have hE : (callSetup s order inp).numEdges = (callSetup s order inp).numNodes * (callSetup s order inp).numNodes - (callSetup s order inp).numNodes := by
    rw [c1, c2]
  have hb' : processOutputs (callSetup s order inp).numEdges st' (newBuffers (callSetup s order inp).numNodes) = some b := by
    rw [c1, c2]; exact hb
  have hext : st'.ext.size = (callSetup s order inp).numEdges := g8.1
  have hcl : (edges.map (fun e => fin (C e.1 e.2))).length = (callSetup s order inp).numEdges := by rw [c2]; simp [hl]
  have hnew : NewState (tspStart inp a) := ⟨_, _, _, rfl⟩
  obtain ⟨q, w1, w2, w3, w4, w5, w6, w7, w8, w9, w10, w11⟩ := C22_decoded ho hedges hE (by omega) hnew ha hs hext hcl hb'
  obtain ⟨m1, m2⟩ := C22_meaning ho hedges hE (by omega) hnew ha hs hext hcl hb' w1
  have hint : q.intrinsic = listOf (n * n - n) (fun e => fin (belief (callProblem s n C edges) R e)) := by
    rw [w11, c2]
    refine List.ext_getElem (by simp [hl, listOf]) fun i i1 i2 => ?_
    have hi : i < n * n - n := by simpa [listOf] using i2
    simp only [List.getElem_zipWith, List.getElem_map, List.getElem_range, listOf]
    rw [g8.2 i (by omega), fin_add]
    have hi' : i < edges.length := by omega
    simp [belief, callProblem, src, dst, hi']
  have hbig : st'.an.tourFlag = true → 5 ≤ n := fun ht => by
    by_contra hlt
    have := C21_small_overflow ho hedges hnew ha hs (by omega) (by omega) ht
    rw [hb'] at this; cases this
  obtain ⟨intr, s0, ord, o1, o2, o3, o4, o5⟩ := Proofs.solve_last ho hnew ha hs
  have hsub : st'.selected.Sublist edges := c3 ▸ Proofs.hardDecision_sublist o4
  refine ⟨q, w1, w5, w2, w7, hint, m2, fun t ht => ⟨c1 ▸ m1 t ht, hbig ((w3 t).mp ht).1⟩, ⟨fun hh => ?_, fun hh => ?_⟩,
    ⟨h, rfl, hm⟩, ?_, fun e he => ?_, ?_, fun ls hls p hp => ?_, hlim⟩
  · by_contra hne
    have := (w3 st'.an.tour).mpr ⟨by simpa using hne, rfl⟩
    rw [hh] at this; cases this
  · cases ht : q.tour with
    | none => rfl
    | some t => have := ((w3 t).mp ht).1; rw [hh] at this; cases this
  · show edges.length ≤ q.intrinsic.length
    rw [hint]; simp [listOf, hl]
  · rw [w2] at he; exact hsub.subset he
  · rw [w2]; exact hsub.nodup h.1
  · obtain ⟨x1, x2, -, x4⟩ := (m2 ls hls).2 p hp
    exact ⟨x1, x2, x4⟩

end

end Verif.Proofs
