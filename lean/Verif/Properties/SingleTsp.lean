import Verif.Proofs.FastSingle
import Verif.Proofs.ExactKsatRun
import Verif.Proofs.ExactCutsRun
import Verif.Proofs.ExactTspInput
import Verif.Proofs.Ieee
import Verif.Properties.TspRounding

/-! # C75: the TSP solver in single precision -/

namespace Verif.Properties
open Verif Num Spec Model

section
variable {s : TspSettings} {order : ℕ → List (ℕ × ℕ) → List ℕ} {fuel limit n : ℕ} {m : Mat Num} {C : ℕ → ℕ → ℚ} {edges : List (ℕ × ℕ)}
  {q : TspResult} {B : ℕ}

/-- C75, small numbers.  Let the costs be whole multiples of `u`, at most `B` times `u`, let there be no damping, and let the exact call return without
post-processing and without augmentation rounds.  Every arithmetic that is exact on the multiples of `u` up to `(2 K + 1) B`, where `K` is the number
of iterations, and up to `B` times the number of selected edges, gives exactly the same result: beliefs, selected edges, subtours, tour, cost, flags. -/
theorem C75_exact_partial {r : ℚ → Num} {u : ℚ} {M : ℕ} (hr : KeepsMultiples r u M) (hd : s.flag = false ∨ s.alpha = 0) (hm : m.Is n n C)
    (hC : ∀ v < n, ∀ w < n, ∃ z : ℤ, |z| ≤ B ∧ C v w = z * u) (h : AllEdges n edges) (hn : 3 ≤ n)
    (hq : runImpa s order fuel limit n m edges = some (some (q, false))) (h0 : q.numAugm = 0) (hM : (2 * s.numIter + 1) * B ≤ M)
    (hM' : q.selected.length * B ≤ M) : Rounded.runImpa r s order fuel n m edges = some (some q) := by
  have hMq : (2 * s.numIter + 1) * (B : ℚ) ≤ M := by exact_mod_cast hM
  refine Proofs.exact_runImpa hr hm hC h hn hq fun inp a st _ _ hE hf hal hc hw ha _ hs hnum hsel => ?_
  obtain ⟨g1, g2⟩ := Proofs.exact_tspSolve hr (by rw [hf, hal]; exact hd) hc hw hE ha hM hs (hnum.trans h0) (by rw [hsel]; exact hM')
  exact ⟨g1, fun i hi => (g2 i hi).mono (by linarith)⟩

/-- C75, formats with `p` bits.  If all costs are whole multiples of `2 ^ e` and the bounds are at most `2 ^ p`, then the format gives exactly the result
of exact arithmetic.  `float` has `p = 24` and `double` has `p = 53`. -/
theorem C75_ieee_partial {p emax : ℕ} (hp : 1 ≤ p) {e : ℤ} (he : e + p ≤ emax) (he' : 2 - (emax : ℤ) - p ≤ e) (hd : s.flag = false ∨ s.alpha = 0)
    (hm : m.Is n n C) (hC : ∀ v < n, ∀ w < n, ∃ z : ℤ, |z| ≤ B ∧ C v w = z * 2 ^ e) (h : AllEdges n edges) (hn : 3 ≤ n)
    (hq : runImpa s order fuel limit n m edges = some (some (q, false))) (h0 : q.numAugm = 0) (hM : (2 * s.numIter + 1) * B ≤ 2 ^ p)
    (hM' : q.selected.length * B ≤ 2 ^ p) : Rounded.runImpa (ieee p emax) s order fuel n m edges = some (some q) :=
  C75_exact_partial (Proofs.ieee_keeps hp he he') hd hm hC h hn hq h0 hM hM'

end

/-! ## Augmentation rounds -/

/-- C75, the full claim: under the same bounds single precision gives the exact result also if the call adds cuts. -/
def C75_claim : Prop := ∀ (s : TspSettings) (order : ℕ → List (ℕ × ℕ) → List ℕ) (fuel limit n : ℕ) (m : Mat Num) (C : ℕ → ℕ → ℚ)
  (edges : List (ℕ × ℕ)) (q : TspResult) (B : ℕ), s.flag = false ∨ s.alpha = 0 → m.Is n n C → (∀ v < n, ∀ w < n, ∃ z : ℤ, |z| ≤ B ∧ C v w = z) →
  AllEdges n edges → 3 ≤ n → (∀ k sel, StartOrder sel (order k sel)) → 1 ≤ s.maxAugm → n ≤ limit →
  runImpa s order fuel limit n m edges = some (some (q, false)) → (2 * s.numIter + 1) * B ≤ 2 ^ 24 → (n * n - n) * B ≤ 2 ^ 24 →
  Rounded.runImpa single s order fuel n m edges = some (some q)

/-- Costs between five cities. -/
def wideCosts (u v : ℕ) : ℚ :=
  81049 * (([[0, 8, 2, 7, 5], [1, 0, 6, 7, 1], [4, 6, 0, 7, 6], [7, 5, 5, 0, 2], [1, 4, 9, 7, 0]] : List (List ℚ)).getD u []).getD v 0

/-- Eleven undamped iterations in every round. -/
def longSettings : TspSettings := { callSettings false with flag := false, numIter := 11 }

theorem wideEdges_all : AllEdges 5 (nonzeroEdges (Mat.ofRat 5 5 wideCosts)) := by
  refine ⟨by decide +kernel, by unfold EdgesOk; decide +kernel, ?_⟩
  unfold Complete
  intro u hu v hv
  interval_cases u <;> interval_cases v <;> decide +kernel

set_option synthInstance.maxSize 1000 in
/-- Exact arithmetic finds a tour after one augmentation.  The belief of the edge from 2 to 3 is -41253941, while `(2 K + 1) B = 16777143`. -/
theorem c75_exact : (runImpa longSettings someOrder 8 10 5 (Mat.ofRat 5 5 wideCosts) (nonzeroEdges (Mat.ofRat 5 5 wideCosts))).map
    (Option.map fun p => (p.1.tour, p.1.intrinsic[10]?, p.1.numAugm, p.2)) =
    some (some (some [2, 3, 4, 1, 0, 2], some (fin (-41253941)), 1, false)) := by decide +kernel

/-- Single precision cannot represent this belief. -/
theorem c75_single : (Rounded.runImpa single longSettings someOrder 8 5 (Mat.ofRat 5 5 wideCosts) (nonzeroEdges (Mat.ofRat 5 5 wideCosts))).map
    (Option.map fun p => p.intrinsic[10]?) = some (some (some (fin (-41253936)))) := by
  rw [Proofs.fastSingle_eq]; decide +kernel

theorem C75_claim_false : ¬ C75_claim := by
  intro h
  have h1 := c75_exact
  have h2 := c75_single
  obtain ⟨o, h3, h4⟩ := Option.map_eq_some_iff.mp h1
  obtain ⟨⟨q, done⟩, rfl, h5⟩ := Option.map_eq_some_iff.mp h4
  simp only [Prod.mk.injEq] at h5
  obtain ⟨-, hb, -, rfl⟩ := h5
  have h6 := h longSettings someOrder 8 10 5 _ wideCosts _ q (9 * 81049) (Or.inl rfl) ⟨rfl, rfl, fun _ _ _ _ => rfl⟩ (fun v hv w hw => by
      have : ∀ v < 5, ∀ w < 5, |(wideCosts v w).num| ≤ 9 * 81049 ∧ wideCosts v w = ((wideCosts v w).num : ℚ) := by decide +kernel
      exact ⟨_, this v hv w hw⟩) wideEdges_all (by norm_num) someOrder_ok (by norm_num [longSettings, callSettings]) (by norm_num) h3
    (by norm_num [longSettings]) (by norm_num)
  rw [h6, Option.map_some, Option.map_some, hb] at h2
  simp only [Option.some.injEq, Num.fin.injEq] at h2
  norm_num at h2

section
variable {s : TspSettings} {order : ℕ → List (ℕ × ℕ) → List ℕ} {fuel limit n : ℕ} {m : Mat Num} {C : ℕ → ℕ → ℚ} {edges : List (ℕ × ℕ)}
  {q : TspResult} {B X D : ℕ}

/-- C75, augmentation rounds.  Let no damping be used, let the costs be whole multiples of `u`, at most `B` times `u`, and let the exact call return without
post-processing.  Suppose that in its augmentation rounds there are at most `D` cuts and that no message exceeds `X` times `u`.  Then every arithmetic that
is exact on the multiples of `u` up to `(D + 3) X + B`, `(2 K + 1) B` and `(n n - n) B` gives exactly the same result, with the same number of rounds. -/
theorem C75_rounds_partial {r : ℚ → Num} {u : ℚ} {M : ℕ} (hr : KeepsMultiples r u M) (hu : 0 < u) (hd : s.flag = false ∨ s.alpha = 0) (hm : m.Is n n C)
    (hC : ∀ v < n, ∀ w < n, ∃ z : ℤ, |z| ≤ B ∧ C v w = z * u) (h : AllEdges n edges) (hn : 3 ≤ n)
    (hq : runImpa s order fuel limit n m edges = some (some (q, false)))
    (hin : ∀ inp a, tspInputs s.flag s.alpha n m edges = some (inp, a) → RoundsWithin inp s.reset s.numIter
      (tspSetup inp s.numIter s.reset s.augmentation s.thr s.maxCount s.maxAugm order) (tspStart inp a) q.numAugm D (X * u))
    (hM : (D + 3) * X + B ≤ M) (hM1 : (2 * s.numIter + 1) * B ≤ M) (hM2 : (n * n - n) * B ≤ M) :
    Rounded.runImpa r s order fuel n m edges = some (some q) := by
  refine Proofs.exact_runImpa hr hm hC h hn hq fun inp a st hi he hE hf hal hc hw ha hmat hs hnum hsel => ?_
  exact Proofs.exact_tspRounds hr (by rw [hf, hal]; exact hd) hc hw hE (by rw [he]; exact hM2) hu hM hmat ha hM1 (by rw [hnum]; exact hin inp a hi) hs

/-- C75, augmentation rounds in a format with `p` bits. -/
theorem C75_rounds_ieee_partial {p emax : ℕ} (hp : 1 ≤ p) {e : ℤ} (he : e + p ≤ emax) (he' : 2 - (emax : ℤ) - p ≤ e) (hd : s.flag = false ∨ s.alpha = 0)
    (hm : m.Is n n C) (hC : ∀ v < n, ∀ w < n, ∃ z : ℤ, |z| ≤ B ∧ C v w = z * 2 ^ e) (h : AllEdges n edges) (hn : 3 ≤ n)
    (hq : runImpa s order fuel limit n m edges = some (some (q, false)))
    (hin : ∀ inp a, tspInputs s.flag s.alpha n m edges = some (inp, a) → RoundsWithin inp s.reset s.numIter
      (tspSetup inp s.numIter s.reset s.augmentation s.thr s.maxCount s.maxAugm order) (tspStart inp a) q.numAugm D (X * 2 ^ e))
    (hM : (D + 3) * X + B ≤ 2 ^ p) (hM1 : (2 * s.numIter + 1) * B ≤ 2 ^ p) (hM2 : (n * n - n) * B ≤ 2 ^ p) :
    Rounded.runImpa (ieee p emax) s order fuel n m edges = some (some q) :=
  C75_rounds_partial (Proofs.ieee_keeps hp he he') (zpow_pos (by norm_num) e) hd hm hC h hn hq hin hM hM1 hM2

end

/-! ## An example with an augmentation round -/

/-- The costs of `wideCosts` in smaller units. -/
def mediumCosts (u v : ℕ) : ℚ := wideCosts u v / 81049 * 4000

theorem mediumEdges_all : AllEdges 5 (nonzeroEdges (Mat.ofRat 5 5 mediumCosts)) := by
  refine ⟨by decide +kernel, by unfold EdgesOk; decide +kernel, ?_⟩
  unfold Complete
  intro u hu v hv
  interval_cases u <;> interval_cases v <;> decide +kernel

/-- Is the number infinite or at most `x` in magnitude? -/
def atMost (x : ℚ) : Num → Bool
  | fin q => decide (|q| ≤ x)
  | _ => true

instance (x : ℚ) (t : Mat Num) : Decidable (EntriesWithin x t) :=
  decidable_of_iff (∀ i < t.rows, ∀ j < t.cols, atMost x (t.data i j) = true) (by
    unfold EntriesWithin
    refine forall₂_congr fun i _ => forall₂_congr fun j _ => ?_
    cases t.data i j <;> simp [atMost])

/-- The number of cuts and whether the messages before iteration `i` are small, for the first augmentation round. -/
def mediumRound (i : ℕ) : Option (ℕ × Bool) := do
  let (inp, a) ← tspInputs false longSettings.alpha 5 (Mat.ofRat 5 5 mediumCosts) (nonzeroEdges (Mat.ofRat 5 5 mediumCosts))
  let s ← roundState (tspSetup inp longSettings.numIter longSettings.reset longSettings.augmentation longSettings.thr longSettings.maxCount
    longSettings.maxAugm someOrder) (tspStart inp a) 0
  let m ← roundMsgs inp longSettings.reset s.an.deltas s.msgs i
  some (s.an.deltas.length, decide (EntriesWithin (1988000 : ℕ) m.e2d) && decide (EntriesWithin (1988000 : ℕ) m.deg) && decide (EntriesWithin (1988000 : ℕ) m.s2e))

theorem mediumRound_small : ∀ i ≤ 11, mediumRound i = some (5, true) := by decide +kernel

/-- Exact arithmetic finds a tour after one round with five cuts, in which no message exceeds 1988000; `8 * 1988000 + 36000` is less than `2 ^ 24`, so
single precision gives the same tour and the same beliefs. -/
example : ∃ q, Rounded.runImpa single longSettings someOrder 8 5 (Mat.ofRat 5 5 mediumCosts) (nonzeroEdges (Mat.ofRat 5 5 mediumCosts)) = some (some q) ∧
    q.tour = some [2, 3, 4, 1, 0, 2] ∧ q.intrinsic[10]? = some (fin (-2036000)) ∧ q.numAugm = 1 := by
  have hex : (runImpa longSettings someOrder 8 10 5 (Mat.ofRat 5 5 mediumCosts) (nonzeroEdges (Mat.ofRat 5 5 mediumCosts))).map
    (Option.map fun p => (p.1.tour, p.1.intrinsic[10]?, p.1.numAugm, p.2)) = some (some (some [2, 3, 4, 1, 0, 2], some (fin (-2036000)), 1, false)) := by
    decide +kernel
  obtain ⟨o, h3, h4⟩ := Option.map_eq_some_iff.mp hex
  obtain ⟨⟨q, done⟩, rfl, h5⟩ := Option.map_eq_some_iff.mp h4
  simp only [Prod.mk.injEq] at h5
  obtain ⟨ht, hb, hnum, rfl⟩ := h5
  refine ⟨q, C75_rounds_ieee_partial (p := 24) (emax := 127) (X := 1988000) (D := 5) (B := 36000) (by norm_num) (e := 0) (by norm_num) (by norm_num) (Or.inl rfl)
    ⟨rfl, rfl, fun _ _ _ _ => rfl⟩ (fun v hv w hw => ?_) mediumEdges_all (by norm_num) h3 (fun inp a ha j hj s hs => ?_) (by norm_num) (by norm_num [longSettings])
    (by norm_num), ht, hb, hnum⟩
  · have : ∀ v < 5, ∀ w < 5, |(mediumCosts v w).num| ≤ 36000 ∧ mediumCosts v w = ((mediumCosts v w).num : ℚ) := by decide +kernel
    exact ⟨_, (this v hv w hw).1, by simpa using (this v hv w hw).2⟩
  · rw [hnum] at hj
    obtain rfl : j = 0 := by omega
    have key : ∀ i ≤ 11, ∀ m, roundMsgs inp longSettings.reset s.an.deltas s.msgs i = some m → s.an.deltas.length = 5 ∧ MessagesWithin (1988000 : ℕ) m := by
      intro i hi m hm
      have h := mediumRound_small i hi
      unfold mediumRound at h
      rw [show tspInputs false longSettings.alpha 5 (Mat.ofRat 5 5 mediumCosts) (nonzeroEdges (Mat.ofRat 5 5 mediumCosts)) = some (inp, a) from ha] at h
      simp only [Option.bind_eq_bind, Option.bind_some, hs, hm, Option.some.injEq, Prod.mk.injEq, Bool.and_eq_true, decide_eq_true_eq] at h
      exact ⟨h.1, h.2.1.1, h.2.1.2, h.2.2⟩
    refine ⟨?_, fun i hi m hm => ?_⟩
    · have h := mediumRound_small 0 (by norm_num)
      unfold mediumRound at h
      rw [show tspInputs false longSettings.alpha 5 (Mat.ofRat 5 5 mediumCosts) (nonzeroEdges (Mat.ofRat 5 5 mediumCosts)) = some (inp, a) from ha] at h
      simp only [Option.bind_eq_bind, Option.bind_some, hs, Option.bind_eq_some_iff, Option.some.injEq, Prod.mk.injEq] at h
      obtain ⟨_, -, h, -⟩ := h
      exact h.le
    · simpa using (key i hi m hm).2

/-! ## An example without augmentation rounds -/

/-- The costs of C49 without damping.  All 20 edges cost at most 9, so 24 bits are enough even for 900 thousand iterations; the example has nine, and
the answer consists of two cycles. -/
example : ∃ q, Rounded.runImpa single { longSettings with augmentation := false, numIter := 9 } someOrder 8 5 (Mat.ofRat 5 5 cycleCosts)
    (nonzeroEdges (Mat.ofRat 5 5 cycleCosts)) = some (some q) ∧ q.selected = [(0, 1), (1, 0), (2, 3), (3, 4), (4, 2)] ∧ q.cost = fin 6 := by
  have hex : (runImpa { longSettings with augmentation := false, numIter := 9 } someOrder 8 10 5 (Mat.ofRat 5 5 cycleCosts)
      (nonzeroEdges (Mat.ofRat 5 5 cycleCosts))).map (Option.map fun p => (p.1.selected, p.1.numAugm, p.1.cost, p.2)) =
      some (some ([(0, 1), (1, 0), (2, 3), (3, 4), (4, 2)], 0, fin 6, false)) := by decide +kernel
  obtain ⟨o, h3, h4⟩ := Option.map_eq_some_iff.mp hex
  obtain ⟨⟨q, done⟩, rfl, h5⟩ := Option.map_eq_some_iff.mp h4
  simp only [Prod.mk.injEq] at h5
  obtain ⟨hs, h0, hc, rfl⟩ := h5
  refine ⟨q, C75_ieee_partial (B := 9) (p := 24) (emax := 127) (by norm_num) (e := 0) (by norm_num) (by norm_num) (Or.inl rfl)
    ⟨rfl, rfl, fun _ _ _ _ => rfl⟩ (fun v hv w hw => ?_) cycleEdges_all (by norm_num) h3 h0 (by norm_num) (by rw [hs]; norm_num), hs, hc⟩
  have : ∀ v < 5, ∀ w < 5, |(cycleCosts v w).num| ≤ 9 ∧ cycleCosts v w = ((cycleCosts v w).num : ℚ) := by decide +kernel
  exact ⟨_, (this v hv w hw).1, by simpa using (this v hv w hw).2⟩

end Verif.Properties
