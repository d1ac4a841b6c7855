import Verif.Proofs.TspOptimal
import Verif.Proofs.TspRate
import Verif.Properties.TspCall

/-! A call whose beliefs separate a single cycle from all other edges returns it. -/

namespace Verif.Proofs
open Verif Num Spec Model Properties

theorem tour_of_split {n limit : ℕ} {m : Mat Num} {edges : List (ℕ × ℕ)} {C : ℕ → ℕ → ℚ} {s : TspSettings} {order : ℕ → List (ℕ × ℕ) → List ℕ} {next : ℕ → ℕ}
    (hm : m.Is n n C) (h : AllEdges n edges) (hn : 5 ≤ n) (ho : ∀ k sel, StartOrder sel (order k sel))
    (ha : 1 ≤ s.maxAugm) (hlim : n ≤ limit) {θ : ℚ} (hθ : s.thr = fin θ)
    (hb : OnlyBest n C next) {t : List ℕ} (ht : IsTour (fun u v => v = next u) n t) {x r y q : ℕ → ℕ → ℕ → ℚ}
    (htr : IsTspTrace n edges [] (fun e => C (src edges e) (dst edges e)) (endCosts C edges) s.flag s.alpha (endCosts C edges) (fun _ _ => 0) x r y q)
    {K : ℕ} (hT : ∀ e < edges.length,
      (dst edges e = next (src edges e) → tspOutput s.flag s.alpha edges [] (fun _ _ => 0) (fun _ _ => 0) r q K e + C (src edges e) (dst edges e) ≤ θ) ∧
      (dst edges e ≠ next (src edges e) → θ < tspOutput s.flag s.alpha edges [] (fun _ _ => 0) (fun _ _ => 0) r q K e + C (src edges e) (dst edges e)))
    (fuel : ℕ) : ∃ r t', runImpa { s with numIter := K } order fuel limit n m edges = some (some (r, false)) ∧
      r.numAugm = 0 ∧ r.tour = some t' ∧ IsTour (fun u v => v = next u) n t' ∧ r.cost = fin (walkCost C t') ∧
      ∀ t'', IsTour (fun u v => u ≠ v) n t'' → walkCost C t' ≤ walkCost C t'' := by
  obtain ⟨inp, a, d2, d3, d4, dP, dok, dC, dx, dcomp, hrun⟩ := Proofs.call_run { s with numIter := K } order fuel limit hm h (by omega)
  have dflag : inp.flag = s.flag := by simpa [tspProblem, callProblem] using congrArg TspProblem.flag dP
  have dalpha : inp.alpha = s.alpha := by simpa [tspProblem, callProblem] using congrArg TspProblem.alpha dP
  obtain ⟨st, s1, s2, s3, s4⟩ := Proofs.relaxed_cover (reset := s.reset) (augmentation := s.augmentation) (maxCount := s.maxCount)
    (maxAugm := s.maxAugm) (K := K) (θ := θ) (next := next) (C := C) dok (by omega) (by rw [d2, d4]; exact h) ho dx
    (by rw [d2]; exact hb.1) (fun e he => by rw [d4]) (by rw [d2, d4, dflag, dalpha]; exact htr)
    (by rw [d4, dflag, dalpha]; exact hT)
  rw [d4] at s2
  rw [d2, d4] at s4
  rw [d2] at s3
  have hjoin : ∀ u v, Joined st.selected u v ↔ u < n ∧ v = next u := by
    intro u v
    unfold Joined
    rw [s2, List.mem_filter]
    simp only [decide_eq_true_eq]
    constructor
    · rintro ⟨h1, h2⟩; exact ⟨(h.2.1 _ h1).1, h2⟩
    · rintro ⟨h1, rfl⟩; exact ⟨h.2.2 u h1 _ (hb.1.lt u h1) (Ne.symm (hb.1.ne u h1)), rfl⟩
  have htour : IsTour (Joined st.selected) n t := by
    refine ⟨ht.length, ht.closed, ?_, ht.once, ht.all⟩
    rw [List.isChain_iff_getElem]
    intro i hi
    exact (hjoin _ _).mpr ⟨(ht.all _).mp (List.getElem_mem _), (List.isChain_iff_getElem.mp ht.steps) i hi⟩
  obtain ⟨an, t1, t2, -⟩ := C16_tour_found (n := n) (maxCount := s.maxCount) (edges := edges) (s := {}) (sel := st.selected)
    (fun c hc => by have := h.2.1 c (by rw [s2] at hc; exact (List.mem_filter.mp hc).1); exact ⟨this.1, this.2.1⟩)
    (ho 0 st.selected) (fun u v w h1 h2 => by rw [((hjoin _ _).mp h1).2, ((hjoin _ _).mp h2).2]) (by omega) htour
  rw [s4] at t1
  obtain rfl : st.an = an := by simpa using t1
  have hflags := Proofs.analyse_flags (ho 0 st.selected) s4
  have hsat : st.an.satisfied = true ∧ (∃ l, st.an.subtourPaths = [l] ∧ l.length = n ∧ st.an.tour = l ++ l.take 1) := by
    rcases hflags with ⟨-, -, -, hh, -⟩ | ⟨-, -, hh | ⟨-, hh, -⟩⟩
    · rw [t2] at hh; cases hh
    · exact ⟨hh.2.1, hh.2.2.1⟩
    · rw [t2] at hh; cases hh
  have hset : Proofs.callSetup { s with numIter := K } order inp = tspSetup inp K s.reset s.augmentation (fin θ) s.maxCount s.maxAugm order := by
    rw [← hθ]; rfl
  have hsolve : tspSolve (Proofs.callSetup { s with numIter := K } order inp) fuel (tspStart inp a) = some (some st) := by
    rw [hset]
    unfold tspSolve
    rw [s1]
    simp [hsat.1]
  -- reading the results
  obtain ⟨k, R, g1, g2, g3, g4, g5, -, g8, g9, -⟩ := C46_rounds dok dC (by omega) dcomp ho dx ha hsolve
  rw [dP] at g8
  have c1 : (Proofs.callSetup { s with numIter := K } order inp).numNodes = n := d2
  have c2 : (Proofs.callSetup { s with numIter := K } order inp).numEdges = n * n - n := d3
  have c3 : (Proofs.callSetup { s with numIter := K } order inp).edges = edges := d4
  have hnew : NewState (tspStart inp a) := ⟨_, _, _, rfl⟩
  have hfit := (C21_fits_iff_partial ho (by rw [c1, c2]) (by rw [c2, c3, allEdges_length h]) hnew ha hsolve (by rw [c2, ← d3]; exact g8.1)).2.2
  rw [c1, c2] at hfit
  have hlen : st.selected.length = n := by
    rw [s2, (Proofs.cover_edges h hb.1).length_eq]; simp
  have hroom : (processOutputs (n * n - n) st (newBuffers n)).isSome := by
    rw [hfit, hlen]
    obtain ⟨l, l1, l2, -⟩ := hsat.2
    refine ⟨?_, by rw [l1]; simp [l2]; nlinarith⟩
    rw [Nat.choose_two_right, Nat.le_div_iff_mul_le (by norm_num)]
    obtain ⟨j, rfl⟩ : ∃ j, n = j + 5 := ⟨n - 5, by omega⟩
    rw [show j + 5 - 1 = j + 4 by omega]
    nlinarith
  obtain ⟨b, hbuf⟩ := Option.isSome_iff_exists.mp hroom
  obtain ⟨qr, hq, c⟩ := Proofs.call_read (s := { s with numIter := K }) hm h (by omega) ho ha hlim d2 d3 d4 hsolve g8 hbuf
  obtain ⟨t', ht'⟩ : ∃ t', qr.tour = some t' := by
    cases hh : qr.tour with
    | none => have := c.none_iff.mp hh; rw [t2] at this; cases this
    | some t' => exact ⟨t', rfl⟩
  have htn : IsTour (fun u v => v = next u) n t' := by
    have := (c.tour t' ht').1
    rw [c.selected] at this
    exact ⟨this.length, this.closed, this.steps.imp fun u v huv => ((hjoin u v).mp huv).2, this.once, this.all⟩
  have hcost : walkCost C t' = coverCost n C next := Proofs.tour_cost htn (by omega)
  refine ⟨qr, t', ?_, ?_, ht', htn, by rw [c.cost, s3, hcost], fun t'' h'' => ?_⟩
  · rw [hrun, hsolve]
    simp only [Option.map_some, Option.bind_some, hbuf, hq]
    unfold tspFinish
    rw [if_neg (by simp [ht'])]
  · rw [c.numAugm]
    obtain ⟨m1, ext, intr, sel, total, an, -, -, -, rfl⟩ := Proofs.iterateRelaxed_facts s1
    rfl
  · obtain ⟨nx, n1, n2, -⟩ := Proofs.tour_cover h'' (fun u _ v _ huv => huv) (by omega)
    rw [hcost, Proofs.tour_cost n2 (by omega)]
    by_cases hd : ∃ u < n, nx u ≠ next u
    · exact (hb.2 nx n1 hd).le
    · push Not at hd
      unfold coverCost
      exact le_of_eq (Finset.sum_congr rfl fun u hu => by rw [hd u (Finset.mem_range.mp hu)])


/-- The messages of a call do not depend on the number of iterations. -/
theorem call_messages {n : ℕ} {m : Mat Num} {edges : List (ℕ × ℕ)} {C : ℕ → ℕ → ℚ} (s : TspSettings) (hm : m.Is n n C) (h : AllEdges n edges) (hn : 3 ≤ n) : ∃ x r y q,
    IsTspTrace n edges [] (fun e => C (src edges e) (dst edges e)) (endCosts C edges) s.flag s.alpha (endCosts C edges) (fun _ _ => 0) x r y q := by
  obtain ⟨inp0, a0, b2, b3, b4, bP, bok, bC, bx, bcomp, -⟩ := Proofs.call_run s (fun _ _ => []) 0 0 hm h hn
  obtain ⟨⟨x, r, y, q, htr⟩, -⟩ := C12_relaxed_run bok bx (fun _ _ => 0)
  have bflag : inp0.flag = s.flag := by simpa [tspProblem, callProblem] using congrArg TspProblem.flag bP
  have balpha : inp0.alpha = s.alpha := by simpa [tspProblem, callProblem] using congrArg TspProblem.alpha bP
  rw [b2, b4, bflag, balpha] at htr
  exact ⟨x, r, y, q, htr⟩

theorem endCosts_ends (C : ℕ → ℕ → ℚ) (edges : List (ℕ × ℕ)) : ∀ e < edges.length, endCosts C edges e (src edges e) = C (src edges e) (dst edges e) ∧
    endCosts C edges e (dst edges e) = C (src edges e) (dst edges e) := fun e _ => by simp [endCosts]

end Verif.Proofs
