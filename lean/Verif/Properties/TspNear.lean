import Verif.Proofs.TspNear
import Verif.Properties.TspScale

/-! # C59: small changes of the costs do not change the outcome of the TSP solver -/

namespace Verif.Properties
open Verif Num Spec Model

section
variable {s : TspSettings} {order : ℕ → List (ℕ × ℕ) → List ℕ} {fuel limit n : ℕ} {m : Mat Num} {C C' : ℕ → ℕ → ℚ} {edges : List (ℕ × ℕ)}
  {r : TspResult} {θ δ : ℚ}

/-- C59, relaxed round.  If two cost matrices differ by at most `δ` everywhere, the beliefs of the relaxed round with `K` iterations differ by at
most `(2K + 1)δ`. -/
theorem C59_relaxed (h : AllEdges n edges) (ha : s.flag = true → 0 ≤ s.alpha ∧ s.alpha ≤ 1) (hδ : 0 ≤ δ)
    (hC : ∀ u < n, ∀ v < n, |C u v - C' u v| ≤ δ) {R R' : ℕ → TspRound} {k k' : ℕ}
    (hR : TspRounds (callProblem s n C edges) (endCosts C edges) R k) (hR' : TspRounds (callProblem s n C' edges) (endCosts C' edges) R' k')
    {e : ℕ} (he : e < edges.length) :
    |belief (callProblem s n C edges) (R 0) e - belief (callProblem s n C' edges) (R' 0) e| ≤ (2 * s.numIter + 1) * δ := by
  have ht := (hR.ok 0 (Nat.zero_le _)).trace
  have ht' := (hR'.ok 0 (Nat.zero_le _)).trace
  rw [hR.first_cuts] at ht
  rw [hR'.first_cuts] at ht'
  simp only [callProblem] at ht ht'
  have hok : EdgesOk n edges := h.2.1
  have hend : ∀ e < edges.length, ∀ v, v = src edges e ∨ v = dst edges e → |endCosts C edges e v - endCosts C' edges e v| ≤ δ := by
    intro e he v hv
    unfold endCosts
    rw [if_pos hv, if_pos hv]
    exact hC _ (Proofs.src_lt hok he) _ (Proofs.dst_lt hok he)
  have key := Proofs.trace_near_relaxed hok ha hδ hend (fun e he v hv => by
    rw [hR.first_start e he v hv, hR'.first_start e he v hv]; exact hend e he v hv) ht ht'
  have hprev : ∀ v, v = src edges e ∨ v = dst edges e →
      |prev s.flag s.alpha ((R 0).d0 e v) (fun i => (R 0).r i e v) s.numIter - prev s.flag s.alpha ((R' 0).d0 e v) (fun i => (R' 0).r i e v) s.numIter| ≤
      s.numIter * δ := by
    intro v hv
    rw [hR.first_degree e he v hv, hR'.first_degree e he v hv]
    cases hK : s.numIter with
    | zero => simp [prev]
    | succ K =>
      show |damped _ _ _ K - damped _ _ _ K| ≤ _
      push_cast
      exact Proofs.damped_near ha fun i hi => (key K i hi e he v hv).2
  have a1 := abs_le.mp (hprev _ (Or.inl rfl))
  have a2 := abs_le.mp (hprev _ (Or.inr rfl))
  have a3 := abs_le.mp (hC _ (Proofs.src_lt hok he) _ (Proofs.dst_lt hok he))
  unfold belief TspRound.output tspOutput
  rw [hR.first_cuts, hR'.first_cuts]
  simp only [callProblem, cuts, List.length_nil, Finset.range_zero, Finset.filter_empty, Finset.sum_empty, add_zero]
  rw [abs_le]
  constructor <;> linarith [a1.1, a1.2, a2.1, a2.2, a3.1, a3.2]

/-- C59, whole call.  If a call returned without post-processing and no belief of any of its rounds equals the threshold, then every cost matrix
that is close enough leads to the same result: the same number of augmentations, selected edges, tour, subtours and flags, and a cost as close as
desired. -/
theorem C59_call (hm : m.Is n n C) (h : AllEdges n edges) (hn : 3 ≤ n) (ho : ∀ k sel, StartOrder sel (order k sel))
    (ha : s.flag = true → 0 ≤ s.alpha ∧ s.alpha ≤ 1) (ht : s.thr = fin θ) (hmax : 1 ≤ s.maxAugm)
    (hlim : n ≤ limit) (hr : runImpa s order fuel limit n m edges = some (some (r, false))) :
    ∃ k R, TspRounds (callProblem s n C edges) (endCosts C edges) R k ∧ r.numAugm = k ∧ r.selected = (R k).sel ∧
      r.intrinsic = listOf (n * n - n) (fun e => fin (belief (callProblem s n C edges) (R k) e)) ∧
      ((∀ i ≤ k, ∀ e < edges.length, belief (callProblem s n C edges) (R i) e ≠ θ) → ∀ η > 0, ∃ δ > 0, ∀ m' C',
        m'.Is n n C' → (∀ u < n, ∀ v < n, |C u v - C' u v| ≤ δ) →
        ∃ r', runImpa s order fuel limit n m' edges = some (some (r', false)) ∧ r'.numAugm = r.numAugm ∧ r'.selected = r.selected ∧
          r'.tour = r.tour ∧ r'.subtours = r.subtours ∧ r'.noImprov = r.noImprov ∧ r'.noCons = r.noCons ∧ r'.solOsc = r.solOsc ∧
          ∃ q q' : ℚ, r.cost = fin q ∧ r'.cost = fin q' ∧ |q - q'| ≤ η) := by
  obtain ⟨inp, a, d2, d3, d4, hP, hok, hC, hx, hcomp, hrun⟩ := Proofs.call_run s order fuel limit hm h hn
  have hfl : inp.flag = s.flag ∧ inp.alpha = s.alpha := by
    simp only [tspProblem, callProblem, TspProblem.mk.injEq] at hP
    tauto
  rw [hrun, Option.map_eq_some_iff] at hr
  obtain ⟨o, hs, hr⟩ := hr
  simp only [Option.bind_eq_some_iff] at hr
  obtain ⟨st, rfl, b, hb, q, hq, hfin⟩ := hr
  unfold Proofs.callSetup at hs
  rw [ht] at hs hP
  obtain ⟨k, R, g1, g2, g3, g4⟩ := Proofs.solve_near hok (by rw [hfl.1, hfl.2]; exact ha) hC (by omega) hcomp ho hx hs
  rw [hP] at g1 g3 g4
  have hqr : q = r ∧ (q.tour.isNone && s.postProcess) = false := by
    unfold tspFinish at hfin
    split at hfin
    · simp only [Option.bind_eq_bind, Option.bind_eq_some_iff, Option.some.injEq, Prod.mk.injEq] at hfin
      obtain ⟨_, -, -, hh⟩ := hfin
      cases hh
    · rename_i hif
      exact ⟨by simpa using hfin, by simpa using hif⟩
  obtain ⟨rfl, hnp⟩ := hqr
  have hl := allEdges_length h
  have hE : inp.numEdges = edges.length := by rw [d3, hl]
  obtain ⟨q', hq', c⟩ := Proofs.call_read hm h hn ho hmax hlim d2 d3 d4 (by unfold Proofs.callSetup; rw [ht]; exact hs) g3.ext hb
  obtain rfl : q = q' := by rw [hq] at hq'; simpa using hq'
  refine ⟨k, R, g1, by rw [c.numAugm, g2], by rw [c.selected, g3.selected], c.beliefs, fun hne η hη => ?_⟩
  obtain ⟨δ, hδ, key⟩ := g4 (fun i hi e he => hne i hi e (hE ▸ he)) η hη
  refine ⟨δ, hδ, fun m' C' hm' hCC => ?_⟩
  obtain ⟨inp', a', d2', d3', d4', hP', hok', hC', hx', hcomp', hrun'⟩ := Proofs.call_run s order fuel limit hm' h hn
  have hfl' : inp'.flag = s.flag ∧ inp'.alpha = s.alpha := by
    simp only [tspProblem, callProblem, TspProblem.mk.injEq] at hP'
    tauto
  have hend : ∀ e < inp.numEdges, ∀ v < inp.numNodes, |endCosts C edges e v - endCosts C' edges e v| ≤ δ := by
    intro e he v _
    unfold endCosts
    split
    · exact hCC _ (Proofs.src_lt h.2.1 (hE ▸ he)) _ (Proofs.dst_lt h.2.1 (hE ▸ he))
    · simpa using hδ.le
  obtain ⟨st', k1, k2⟩ := key inp' _ _ C' a' _
    ⟨by rw [d2, d2'], by rw [d3, d3'], by rw [d4, d4'], by rw [hfl.1, hfl'.1], by rw [hfl.2, hfl'.2],
      fun e he => hCC _ (Proofs.src_lt h.2.1 (hE ▸ he)) _ (Proofs.dst_lt h.2.1 (hE ▸ he)), hend, by rw [d2]; exact hCC⟩ hok' hC' hx' hend
  rw [d3] at k2
  obtain ⟨b', q', p1, p2, p3, p4, p5, p6, p7, p8, p9, p10, p11⟩ := Proofs.read_near (costs' := edges.map (fun e => fin (C' e.1 e.2))) k2 (by simp) hb hq
  refine ⟨q', ?_, p6, p3, p4, p5, p7, p8, p9, ?_⟩
  · rw [hrun']
    unfold Proofs.callSetup
    rw [ht, k1]
    simp only [Option.map_some, Option.bind_some, p1, p2]
    unfold tspFinish
    rw [p4, hnp]
    rfl
  · rw [p10, p11]
    exact k2.cost
end

/-- All costs are one, except that of edge (0,1), which is `δ` more, while the others are `δ` less. -/
def nearOne (δ : ℚ) (u v : ℕ) : ℚ := if u = v then 0 else if u = 0 ∧ v = 1 then 1 + δ else 1 - δ
/-- One iteration without damping: the bound `(2 * 1 + 1) / 10` of the relaxed round is attained by edge (0,1). -/
example : ((runImpa { plainSettings (-10) with flag := false, numIter := 1 } someOrder 8 10 5 (Mat.ofRat 5 5 (nearOne 0))
    (nonzeroEdges (Mat.ofRat 5 5 (nearOne 0)))).map (Option.map fun p => p.1.intrinsic.take 1),
    (runImpa { plainSettings (-10) with flag := false, numIter := 1 } someOrder 8 10 5 (Mat.ofRat 5 5 (nearOne (1 / 10)))
    (nonzeroEdges (Mat.ofRat 5 5 (nearOne (1 / 10))))).map (Option.map fun p => p.1.intrinsic.take 1)) =
    (some (some [fin (-1)]), some (some [fin (-1 + 3 / 10)])) := by decide +kernel

theorem cycleEdges_all : AllEdges 5 (nonzeroEdges (Mat.ofRat 5 5 cycleCosts)) := by
  refine ⟨by decide +kernel, by unfold EdgesOk; decide +kernel, ?_⟩
  unfold Complete
  intro u hu v hv
  interval_cases u <;> interval_cases v <;> decide +kernel

/-- All hypotheses of `C59_call` hold for the costs of C49 with threshold `-1/10`: they can be changed a little without effect. -/
example : ∃ δ > 0, ∀ m' C', m'.Is 5 5 C' → (∀ u < 5, ∀ v < 5, |cycleCosts u v - C' u v| ≤ δ) →
    ∃ r' done, runImpa (plainSettings (-1 / 10)) someOrder 8 10 5 m' (nonzeroEdges (Mat.ofRat 5 5 cycleCosts)) = some (some (r', done)) ∧
      r'.selected = [(0, 1), (1, 0), (2, 3), (3, 4), (4, 2)] := by
  have hex : (runImpa (plainSettings (-1 / 10)) someOrder 8 10 5 (Mat.ofRat 5 5 cycleCosts) (nonzeroEdges (Mat.ofRat 5 5 cycleCosts))).map
      (Option.map fun p => (p.1.selected, p.1.numAugm, p.2)) = some (some ([(0, 1), (1, 0), (2, 3), (3, 4), (4, 2)], 0, false)) := by decide +kernel
  have hbel : (runImpa (plainSettings (-1 / 10)) someOrder 8 10 5 (Mat.ofRat 5 5 cycleCosts) (nonzeroEdges (Mat.ofRat 5 5 cycleCosts))).map
      (Option.map fun p => p.1.intrinsic.all (· ≠ fin (-1 / 10))) = some (some true) := by decide +kernel
  simp only [Option.map_eq_some_iff] at hex
  obtain ⟨-, ho, ⟨r, done⟩, rfl, hr⟩ := hex
  simp only [Prod.mk.injEq] at hr
  obtain ⟨hsel, hnum, rfl⟩ := hr
  rw [ho] at hbel
  simp only [Option.map_some, Option.some.injEq, List.all_eq_true, decide_eq_true_eq] at hbel
  obtain ⟨k, R, -, h2, -, h4, h5⟩ := C59_call (n := 5) (θ := -1 / 10) (m := Mat.ofRat 5 5 cycleCosts) (C := cycleCosts) ⟨rfl, rfl, fun _ _ _ _ => rfl⟩ cycleEdges_all (by norm_num)
    someOrder_ok (fun _ => ⟨by norm_num [plainSettings, callSettings], by norm_num [plainSettings, callSettings]⟩) rfl
    (by norm_num [plainSettings, callSettings]) (by norm_num) ho
  obtain ⟨δ, hδ, h6⟩ := h5 (fun i hi e he => by
    obtain rfl : i = k := by omega
    have hlen := allEdges_length cycleEdges_all
    have := hbel (fin (belief (callProblem (plainSettings (-1 / 10)) 5 cycleCosts (nonzeroEdges (Mat.ofRat 5 5 cycleCosts))) (R i) e)) (by
      rw [h4]
      simp only [listOf, List.mem_map, List.mem_range]
      exact ⟨e, by omega, rfl⟩)
    intro hh
    exact this (by rw [hh])) 1 one_pos
  refine ⟨δ, hδ, fun m' C' hm' hC => ?_⟩
  obtain ⟨r', k1, -, k3, -⟩ := h6 m' C' hm' hC
  exact ⟨r', false, k1, by rw [k3, hsel]⟩

/-- The costs of C49, changed a little. -/
def shakenCosts (u v : ℕ) : ℚ := if u = v then 0 else cycleCosts u v + (if v < u then 1 / 1000 else -1 / 1000)
set_option synthInstance.maxSize 1000 in
/-- Four augmentation rounds with the same outcome. -/
example : (runImpa (callSettings false) someOrder 8 10 5 (Mat.ofRat 5 5 shakenCosts) (nonzeroEdges (Mat.ofRat 5 5 shakenCosts))).map
    (Option.map fun p => (p.1.numAugm, p.1.selected, p.1.subtours, p.1.tour)) =
    (runImpa (callSettings false) someOrder 8 10 5 (Mat.ofRat 5 5 cycleCosts) (nonzeroEdges (Mat.ofRat 5 5 cycleCosts))).map
    (Option.map fun p => (p.1.numAugm, p.1.selected, p.1.subtours, p.1.tour)) := by decide +kernel
/-- With threshold `-9` two beliefs are equal to the threshold, and the same small change does change the outcome. -/
example : (runImpa (plainSettings (-9)) someOrder 8 10 5 (Mat.ofRat 5 5 cycleCosts) (nonzeroEdges (Mat.ofRat 5 5 cycleCosts))).map
    (Option.map fun p => p.1.selected) = some (some [(1, 0), (2, 3), (4, 2)]) := by decide +kernel
example : (runImpa (plainSettings (-9)) someOrder 8 10 5 (Mat.ofRat 5 5 shakenCosts) (nonzeroEdges (Mat.ofRat 5 5 shakenCosts))).map
    (Option.map fun p => p.1.selected) ≠ some (some [(1, 0), (2, 3), (4, 2)]) := by decide +kernel

end Verif.Properties
