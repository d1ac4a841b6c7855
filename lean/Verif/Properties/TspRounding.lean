import Mathlib.Data.Rat.Floor
import Verif.Proofs.Accuracy
import Verif.Proofs.Grid
import Verif.Proofs.ParamCall
import Verif.Properties.TspNear

/-! # C63: rounding errors in the TSP solver -/

namespace Verif.Properties
open Verif Num Spec Model

section
variable {s : TspSettings} {order : ℕ → List (ℕ × ℕ) → List ℕ} {fuel limit n : ℕ} {m : Mat Num} {C : ℕ → ℕ → ℚ} {edges : List (ℕ × ℕ)}
  {q : TspResult} {θ : ℚ}

/-- C63, exact runs.  Let `G` be a set of numbers with zero, closed under sums and negation, and closed under damping if damping is on.  If all
costs are in `G` and the exact call returns without post-processing, then there are finitely many numbers in `G` such that every rounding that
keeps these numbers leads to exactly the same result. -/
theorem C63_exact {G : ℚ → Prop} (h0 : G 0) (hneg : ∀ x, G x → G (-x)) (hadd : ∀ x y, G x → G y → G (x + y))
    (hdamp : s.flag = true → s.alpha ≠ 0 → G (1 - s.alpha) ∧ ∀ x, G x → G (x * (1 - s.alpha)) ∧ G (x * s.alpha))
    (hm : m.Is n n C) (hC : ∀ u < n, ∀ v < n, G (C u v)) (h : AllEdges n edges) (hn : 3 ≤ n) (ho : ∀ k sel, StartOrder sel (order k sel))
    (hmax : 1 ≤ s.maxAugm) (hlim : n ≤ limit) (hr : runImpa s order fuel limit n m edges = some (some (q, false))) :
    ∃ F : Finset ℚ, (∀ x ∈ F, G x) ∧ ∀ r : ℚ → Num, (∀ x ∈ F, r x = fin x) → Rounded.runImpa r s order fuel n m edges = some (some q) := by
  obtain ⟨k, Q, h1, h2, h3, ⟨c, hc⟩, h4, h5⟩ := Proofs.rel_call (M := fun _ => m) (D := fun _ => C) (Proofs.calc_keep h0 hneg hadd) (Proofs.damps_keep hdamp) hm
    (fun _ => hm) (fun u hu v hv => ⟨fun x hx => by rw [Num.fin.injEq] at hx; rw [← hx]; exact hC u hu v hv, Filter.Eventually.of_forall fun _ => rfl⟩)
    h hn ho hmax hlim hr
  obtain ⟨qs, g1, g2, g3⟩ := h5 (fun i _ e _ b hb => by filter_upwards [hb.2] with r hb; rw [hb])
  have hlen : q.intrinsic.length = n * n - n := by rw [h4]; simp [listOf]
  have g4 : ∀ᶠ r in Proofs.keepFilter G, ∀ e ∈ Finset.range (n * n - n), (qs r).intrinsic.getD e 0 = q.intrinsic.getD e 0 := by
    rw [Filter.eventually_all_finset]
    intro e he
    exact (g3 e (Finset.mem_range.mp he)).2
  have g5 : ∀ᶠ r in Proofs.keepFilter G, Rounded.runImpa r s order fuel n m edges = some (some q) := by
    filter_upwards [g1, g2.2, g4] with r k1 k2 k3
    obtain ⟨k4, k5, k6⟩ := k1
    rw [k4]
    have k7 : (qs r).intrinsic = q.intrinsic := by
      refine List.ext_getElem (by rw [k6, hlen]) fun e e1 e2 => ?_
      have := k3 e (by rw [Finset.mem_range, ← k6]; exact e1)
      rwa [List.getD_eq_getElem _ _ e1, List.getD_eq_getElem _ _ e2] at this
    have : qs r = q := by
      cases hq : qs r
      cases q
      simp only [hq] at k2 k5 k7
      obtain ⟨f1, f2, f3, f4, f5, f6, f7, f8⟩ := k5
      simp only [TspResult.mk.injEq]
      exact ⟨f1, f2, f3, f4, f5, f6, f7, f8, k2, k7⟩
    rw [this]
  exact g5

/-- C63, integers.  With integer costs and without damping there is a bound such that every arithmetic that is exact on the integers up to the
bound leads to exactly the same result as exact arithmetic. -/
theorem C63_integers (hd : s.flag = false ∨ s.alpha = 0) (hm : m.Is n n C) (hC : ∀ u < n, ∀ v < n, ∃ z : ℤ, C u v = z) (h : AllEdges n edges)
    (hn : 3 ≤ n) (ho : ∀ k sel, StartOrder sel (order k sel)) (hmax : 1 ≤ s.maxAugm) (hlim : n ≤ limit)
    (hr : runImpa s order fuel limit n m edges = some (some (q, false))) :
    ∃ B : ℕ, ∀ r : ℚ → Num, KeepsIntegers r B → Rounded.runImpa r s order fuel n m edges = some (some q) := by
  obtain ⟨F, h1, h2⟩ := C63_exact (G := fun x => ∃ z : ℤ, x = z) ⟨0, by simp⟩ (fun x ⟨z, hz⟩ => ⟨-z, by rw [hz]; push_cast; rfl⟩)
    (fun x y ⟨z, hz⟩ ⟨w, hw⟩ => ⟨z + w, by rw [hz, hw]; push_cast; rfl⟩)
    (fun h1 h2 => by rcases hd with hd | hd; · rw [hd] at h1; cases h1
                     · exact absurd hd h2) hm hC h hn ho hmax hlim hr
  refine ⟨F.sup (fun x => x.num.natAbs), fun r hk => h2 r fun x hx => ?_⟩
  obtain ⟨z, rfl⟩ := h1 x hx
  refine hk z ?_
  have := Finset.le_sup (f := fun x : ℚ => x.num.natAbs) hx
  simp only [Rat.num_intCast] at this
  rw [Int.abs_eq_natAbs]
  exact_mod_cast this

/-- C63, small errors.  If the exact call returned without post-processing and no belief of any of its rounds equals the threshold, then every
arithmetic that is accurate enough leads to the same result also for costs that are changed a little: the same number of augmentations, selected
edges, tour, subtours and flags, and a cost and beliefs as close to the exact ones as desired. -/
theorem C63_call (hm : m.Is n n C) (h : AllEdges n edges) (hn : 3 ≤ n) (ho : ∀ k sel, StartOrder sel (order k sel)) (ht : s.thr = fin θ)
    (hmax : 1 ≤ s.maxAugm) (hlim : n ≤ limit) (hr : runImpa s order fuel limit n m edges = some (some (q, false))) :
    ∃ k R, TspRounds (callProblem s n C edges) (endCosts C edges) R k ∧ q.numAugm = k ∧ q.selected = (R k).sel ∧
      q.intrinsic = listOf (n * n - n) (fun e => fin (belief (callProblem s n C edges) (R k) e)) ∧
      ((∀ i ≤ k, ∀ e < edges.length, belief (callProblem s n C edges) (R i) e ≠ θ) → ∀ η > 0, ∃ M, ∃ ε > 0, ∀ r m' C', Accurate r M ε →
        m'.Is n n C' → (∀ u < n, ∀ v < n, |C u v - C' u v| ≤ ε) →
        ∃ q', Rounded.runImpa r s order fuel n m' edges = some (some q') ∧ SameAnswer q q' ∧
          (∃ c c' : ℚ, q.cost = fin c ∧ q'.cost = fin c' ∧ |c - c'| ≤ η) ∧
          ∃ b : ℕ → ℚ, q'.intrinsic = listOf (n * n - n) (fun e => fin (b e)) ∧
            ∀ e < edges.length, |belief (callProblem s n C edges) (R k) e - b e| ≤ η) := by
  have hfine := Proofs.fine_accuracy n C
  obtain ⟨k, Q, h1, h2, h3, ⟨c, hc⟩, h4, h5⟩ := Proofs.rel_call (M := fun i => i.2.val.1) (D := fun i => i.2.val.2) (Proofs.calc_lim hfine)
    (Proofs.damps_lim hfine s.flag s.alpha) hm (fun i => i.2.property) (fun u hu v hv => Proofs.lim_costs hu hv) h hn ho hmax hlim hr
  refine ⟨k, Q, h1, h2, h3, h4, fun hne η hη => ?_⟩
  obtain ⟨qs, g1, g2, g3⟩ := h5 (fun i hi e he b hb => Proofs.Lim.lt (Proofs.Lim.refl s.thr) hb fun x hx hx' => hne i hi e he (by
    rw [ht, Num.fin.injEq] at hx; rw [Num.fin.injEq] at hx'; rw [hx, hx']))
  have hl := allEdges_length h
  have g4 : ∀ᶠ i in Proofs.accuracyFilter n C, ∀ e ∈ Finset.range (n * n - n), ∃ b, (qs i).intrinsic.getD e 0 = fin b ∧
      |belief (callProblem s n C edges) (Q k) e - b| ≤ η := by
    rw [Filter.eventually_all_finset]
    intro e he
    have he := Finset.mem_range.mp he
    have := g3 e he
    rw [h4, List.getD_eq_getElem _ _ (by simp [listOf]; exact he)] at this
    simp only [listOf, List.getElem_map, List.getElem_range] at this
    exact this.near hη
  rw [hc] at g2
  obtain ⟨M, ε, hε, key⟩ := (g1.and (g4.and (g2.near hη)))
  refine ⟨M, ε, hε, fun r m' C' hr hm' hC' => ?_⟩
  obtain ⟨⟨k1, k2, k3⟩, k4, c', k5, k6⟩ := key (r, ⟨(m', C'), hm'⟩) ⟨hr, hC'⟩
  have hb : ∀ e, ∃ b, e < n * n - n → (qs (r, ⟨(m', C'), hm'⟩)).intrinsic.getD e 0 = fin b ∧ |belief (callProblem s n C edges) (Q k) e - b| ≤ η := by
    intro e
    by_cases he : e < n * n - n
    · obtain ⟨b, hb⟩ := k4 e (Finset.mem_range.mpr he)
      exact ⟨b, fun _ => hb⟩
    · exact ⟨0, fun h => absurd h he⟩
  choose b hb using hb
  refine ⟨_, k1, k2, ⟨c, c', hc, k5, k6⟩, b, ?_, fun e he => (hb e (by omega)).2⟩
  refine List.ext_getElem (by rw [k3]; simp [listOf]) fun e e1 e2 => ?_
  have := (hb e (by rw [← k3]; exact e1)).1
  rw [List.getD_eq_getElem _ _ e1] at this
  rw [this]
  simp [listOf]
end

/-- Rounding to multiples of `1 / k`. -/
def gridRound (k : ℕ) (q : ℚ) : ℚ := (⌊q * k + 1 / 2⌋ : ℚ) / k

theorem gridRound_near {k : ℕ} (hk : 0 < k) (q : ℚ) : |gridRound k q - q| ≤ 1 / (2 * k) := by
  have hk' : (0 : ℚ) < k := by exact_mod_cast hk
  have h1 := Int.floor_le (q * k + 1 / 2)
  have h2 := Int.lt_floor_add_one (q * k + 1 / 2)
  unfold gridRound
  rw [show (⌊q * k + 1 / 2⌋ : ℚ) / k - q = ((⌊q * k + 1 / 2⌋ : ℚ) - q * k) / k by field_simp, abs_div, abs_of_pos hk',
    div_le_div_iff₀ hk' (by positivity)]
  have : |(⌊q * k + 1 / 2⌋ : ℚ) - q * k| ≤ 1 / 2 := abs_le.mpr ⟨by linarith, by linarith⟩
  nlinarith

/-- Accurate roundings exist for all bounds: a fine grid will do. -/
example (M : ℚ) {ε : ℚ} (hε : 0 < ε) : ∃ k, Accurate (fun q => fin (gridRound k q)) M ε := by
  obtain ⟨k, hk⟩ := exists_nat_gt (1 / ε)
  have hk0 : 0 < k := by
    have : (0 : ℚ) < k := (by positivity : (0 : ℚ) < 1 / ε).trans hk
    exact_mod_cast this
  refine ⟨k, by simp only [zero_def]; norm_num [gridRound], fun q _ => ⟨_, rfl, (gridRound_near hk0 q).trans ?_⟩⟩
  have hk' : (0 : ℚ) < k := by exact_mod_cast hk0
  rw [div_lt_iff₀ hε] at hk
  rw [div_le_iff₀ (by positivity)]
  nlinarith

/-- Whole numbers are on the grid. -/
example (B : ℕ) : KeepsIntegers (fun q => fin (gridRound 1 q)) B := by
  intro z _
  have : ⌊(z : ℚ) + 1 / 2⌋ = z := by rw [Int.floor_intCast_add]; norm_num
  simp only [gridRound, Nat.cast_one, mul_one, div_one, this]

/-- Rounding to `p + 1` significant binary digits for numbers from `2 ^ p`. -/
def binaryRound (p : ℕ) (q : ℚ) : ℚ :=
  let e := Nat.log2 (q.num.natAbs / q.den)
  if e ≤ p then q else (⌊q / 2 ^ (e - p) + 1 / 2⌋ : ℚ) * 2 ^ (e - p)

/-- The hypotheses of `C63_call` hold for the costs of C49 with threshold `-1/10`. -/
example : ∃ M, ∃ ε > 0, ∀ r m' C', Accurate r M ε → m'.Is 5 5 C' → (∀ u < 5, ∀ v < 5, |cycleCosts u v - C' u v| ≤ ε) →
    ∃ q', Rounded.runImpa r (plainSettings (-1 / 10)) someOrder 8 5 m' (nonzeroEdges (Mat.ofRat 5 5 cycleCosts)) = some (some q') ∧
      q'.selected = [(0, 1), (1, 0), (2, 3), (3, 4), (4, 2)] := by
  have hex : (runImpa (plainSettings (-1 / 10)) someOrder 8 10 5 (Mat.ofRat 5 5 cycleCosts) (nonzeroEdges (Mat.ofRat 5 5 cycleCosts))).map
      (Option.map fun p => (p.1.selected, p.1.numAugm, p.2)) = some (some ([(0, 1), (1, 0), (2, 3), (3, 4), (4, 2)], 0, false)) := by decide +kernel
  have hbel : (runImpa (plainSettings (-1 / 10)) someOrder 8 10 5 (Mat.ofRat 5 5 cycleCosts) (nonzeroEdges (Mat.ofRat 5 5 cycleCosts))).map
      (Option.map fun p => p.1.intrinsic.all (· ≠ fin (-1 / 10))) = some (some true) := by decide +kernel
  simp only [Option.map_eq_some_iff] at hex
  obtain ⟨-, ho, ⟨q, done⟩, rfl, hr⟩ := hex
  simp only [Prod.mk.injEq] at hr
  obtain ⟨hsel, hnum, rfl⟩ := hr
  rw [ho] at hbel
  simp only [Option.map_some, Option.some.injEq, List.all_eq_true, decide_eq_true_eq] at hbel
  obtain ⟨k, R, -, h2, -, h4, h5⟩ := C63_call (n := 5) (θ := -1 / 10) (m := Mat.ofRat 5 5 cycleCosts) (C := cycleCosts) ⟨rfl, rfl, fun _ _ _ _ => rfl⟩
    cycleEdges_all (by norm_num) someOrder_ok rfl (by norm_num [plainSettings, callSettings]) (by norm_num) ho
  obtain ⟨M, ε, hε, h6⟩ := h5 (fun i hi e he => by
    obtain rfl : i = k := by omega
    have hlen := allEdges_length cycleEdges_all
    have := hbel (fin (belief (callProblem (plainSettings (-1 / 10)) 5 cycleCosts (nonzeroEdges (Mat.ofRat 5 5 cycleCosts))) (R i) e)) (by
      rw [h4]
      simp only [listOf, List.mem_map, List.mem_range]
      exact ⟨e, by omega, rfl⟩)
    intro hh
    exact this (by rw [hh])) 1 one_pos
  refine ⟨M, ε, hε, fun r m' C' hr hm' hC => ?_⟩
  obtain ⟨q', k1, k2, -⟩ := h6 r m' C' hr hm' hC
  exact ⟨q', k1, by rw [k2.selected, hsel]⟩

/-- The hypotheses of `C63_integers` hold for the same costs without damping, in a run with four augmentation rounds. -/
example : ∃ B : ℕ, ∀ r, KeepsIntegers r B → ∃ q', Rounded.runImpa r { callSettings false with flag := false } someOrder 8 5 (Mat.ofRat 5 5 cycleCosts)
    (nonzeroEdges (Mat.ofRat 5 5 cycleCosts)) = some (some q') ∧ q'.numAugm = 4 ∧ q'.selected = [(1, 0), (2, 3), (3, 4), (4, 2)] ∧ q'.cost = fin 5 := by
  have hex : (runImpa { callSettings false with flag := false } someOrder 8 10 5 (Mat.ofRat 5 5 cycleCosts) (nonzeroEdges (Mat.ofRat 5 5 cycleCosts))).map
      (Option.map fun p => (p.1.selected, p.1.numAugm, p.1.cost, p.2)) = some (some ([(1, 0), (2, 3), (3, 4), (4, 2)], 4, fin 5, false)) := by
    decide +kernel
  simp only [Option.map_eq_some_iff] at hex
  obtain ⟨-, ho, ⟨q, done⟩, rfl, hr⟩ := hex
  simp only [Prod.mk.injEq] at hr
  obtain ⟨hsel, hnum, hcost, rfl⟩ := hr
  obtain ⟨B, hB⟩ := C63_integers (n := 5) (m := Mat.ofRat 5 5 cycleCosts) (C := cycleCosts) (Or.inl rfl) ⟨rfl, rfl, fun _ _ _ _ => rfl⟩
    (fun u hu v hv => by
      have : ∀ u < 5, ∀ v < 5, cycleCosts u v = ((cycleCosts u v).num : ℚ) := by decide +kernel
      exact ⟨_, this u hu v hv⟩) cycleEdges_all (by norm_num) someOrder_ok (by norm_num [callSettings]) (by norm_num) ho
  exact ⟨B, fun r hr => ⟨q, hB r hr, hnum, hsel, hcost⟩⟩

set_option synthInstance.maxSize 1000 in
/-- With damping 1/2, rounding to halves changes the beliefs but not the answer. -/
example : ((Rounded.runImpa (fun q => fin (gridRound 2 q)) (callSettings false) someOrder 8 5 (Mat.ofRat 5 5 cycleCosts) (nonzeroEdges (Mat.ofRat 5 5 cycleCosts))).map
    (Option.map fun p => (p.numAugm, p.selected, p.intrinsic.take 2)),
    (runImpa (callSettings false) someOrder 8 10 5 (Mat.ofRat 5 5 cycleCosts) (nonzeroEdges (Mat.ofRat 5 5 cycleCosts))).map
    (Option.map fun p => (p.1.numAugm, p.1.selected, p.1.intrinsic.take 2))) =
    (some (some (4, [(0, 1), (1, 0), (2, 3), (3, 4), (4, 2)], [fin (-5), fin (13 / 2)])),
      some (some (4, [(0, 1), (1, 0), (2, 3), (3, 4), (4, 2)], [fin (-23 / 4), fin (43 / 8)]))) := by decide +kernel
/-- Without damping, three significant digits are not enough: the program stops with an error. -/
example : (Rounded.runImpa (fun q => fin (binaryRound 2 q)) { callSettings false with flag := false } someOrder 8 5 (Mat.ofRat 5 5 cycleCosts)
    (nonzeroEdges (Mat.ofRat 5 5 cycleCosts))).map (Option.map fun p => p.selected) = some none := by decide +kernel
/-- A belief at the threshold: rounding to multiples of `2/3` changes the answer. -/
example : (Rounded.runImpa (fun q => fin (gridRound 3 (q / 2) * 2)) (plainSettings (-9)) someOrder 8 5 (Mat.ofRat 5 5 cycleCosts)
    (nonzeroEdges (Mat.ofRat 5 5 cycleCosts))).map (Option.map fun p => p.selected) ≠
    (runImpa (plainSettings (-9)) someOrder 8 10 5 (Mat.ofRat 5 5 cycleCosts)
    (nonzeroEdges (Mat.ofRat 5 5 cycleCosts))).map (Option.map fun p => p.1.selected) := by decide +kernel

end Verif.Properties
