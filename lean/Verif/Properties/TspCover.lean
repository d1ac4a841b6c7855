import Verif.Proofs.TspTour
import Verif.Properties.TspCall

/-! # C50: the relaxed round finds the cheapest cycle cover, and the whole call the optimal tour if that is one cycle -/

namespace Verif.Properties
open Verif Num Spec Model

section
variable {n : ℕ} {edges : List (ℕ × ℕ)} {w : ℕ → ℚ} {c C x0 s0 : ℕ → ℕ → ℚ} {flag : Bool} {alpha : ℚ} {x r y q : ℕ → ℕ → ℕ → ℚ}
  {next : ℕ → ℕ}

/-- C50, the algorithm.  If all other cycle covers cost more than `next`, then min-sum without cuts, from any start messages and
with any damping factor below one, separates the edges of `next` from all others by any margin `B`, for all large numbers of
iterations. -/
theorem C50_beliefs (h : AllEdges n edges) (hb : OnlyBest n C next)
    (hc : ∀ e < edges.length, c e (src edges e) = C (src edges e) (dst edges e) ∧ c e (dst edges e) = C (src edges e) (dst edges e))
    (ha : flag = true → 0 ≤ alpha ∧ alpha < 1) (ht : IsTspTrace n edges [] w c flag alpha x0 s0 x r y q) (d0 : ℕ → ℕ → ℚ) (B : ℚ) :
    ∃ T, ∀ K ≥ T, ∀ e < edges.length,
      (dst edges e = next (src edges e) → tspOutput flag alpha edges [] d0 s0 r q K e + C (src edges e) (dst edges e) ≤ -B) ∧
      (dst edges e ≠ next (src edges e) → B < tspOutput flag alpha edges [] d0 s0 r q K e + C (src edges e) (dst edges e)) :=
  Proofs.beliefs_split h hb hc ht (Proofs.rate_lt ha).1 (Proofs.rate_lt ha).2 d0 B

/-- C50, the algorithm with its rate.  If all other cycle covers cost at least `gap` more than `next` and no cost and no start message exceeds `B` in
magnitude, then after `K + 1` iterations with damping factor `α` the beliefs of the edges of `next` are at most `8 B - K (1 - α) gap / n`
and those of all others at least `K (1 - α) gap / n - 8 B`. -/
theorem C50_rate (h : AllEdges n edges) (hn : 3 ≤ n) {gap B : ℚ} (hg : 0 ≤ gap) (hb : CoverBy gap n C next)
    (hB : ∀ i < n, ∀ j < n, j ≠ i → |C i j| ≤ B)
    (hc : ∀ e < edges.length, c e (src edges e) = C (src edges e) (dst edges e) ∧ c e (dst edges e) = C (src edges e) (dst edges e))
    (hx : ∀ e < edges.length, |x0 e (src edges e)| ≤ B ∧ |x0 e (dst edges e)| ≤ B)
    (ha : flag = true → 0 ≤ alpha ∧ alpha < 1) (ht : IsTspTrace n edges [] w c flag alpha x0 s0 x r y q) (d0 : ℕ → ℕ → ℚ) (K : ℕ) :
    ∀ e < edges.length,
      (dst edges e = next (src edges e) → tspOutput flag alpha edges [] d0 s0 r q (K + 1) e + C (src edges e) (dst edges e) ≤
        -(K * ((1 - if flag then alpha else 0) * (gap / n)) - 8 * B)) ∧
      (dst edges e ≠ next (src edges e) → K * ((1 - if flag then alpha else 0) * (gap / n)) - 8 * B ≤
        tspOutput flag alpha edges [] d0 s0 r q (K + 1) e + C (src edges e) (dst edges e)) := by
  have := Proofs.beliefs_rate h hn hg hb hB hc hx ht (Proofs.rate_lt ha).1 (Proofs.rate_lt ha).2 d0 K
  rwa [Proofs.rate_eq] at this
end

/-- C50, how to recognise the hypothesis.  A cycle cover is cheaper than all others if and only if the nodes have prices that pay
exactly for its edges and, with a positive rest, for no other edge. -/
theorem C50_certificate {n : ℕ} {C : ℕ → ℕ → ℚ} {next : ℕ → ℕ} (hc : CycleCover n next) :
    OnlyBest n C next ↔ ∃ (u v : ℕ → ℚ) (δ : ℚ), 0 < δ ∧ (∀ i < n, C i (next i) = u i + v (next i)) ∧
      ∀ i < n, ∀ j < n, j ≠ i → j ≠ next i → u i + v j + δ ≤ C i j :=
  ⟨Proofs.exists_dual, fun ⟨_, _, _, h0, h1, h2⟩ => Proofs.onlyBest_of_dual hc h0 h1 h2⟩

/-- C50, how to recognise how much cheaper: prices with rest `δ` prove a gap of `δ`. -/
theorem C50_gap {n : ℕ} {C : ℕ → ℕ → ℚ} {next : ℕ → ℕ} (hc : CycleCover n next) {u v : ℕ → ℚ} {δ : ℚ} (h0 : 0 ≤ δ)
    (h1 : ∀ i < n, C i (next i) = u i + v (next i)) (h2 : ∀ i < n, ∀ j < n, j ≠ i → j ≠ next i → u i + v j + δ ≤ C i j) : CoverBy δ n C next :=
  ⟨hc, fun _ ho hd => Proofs.gap_of_dual hc h0 h1 h2 ho hd⟩

section
variable {inp : TspInputs} {w : ℕ → ℚ} {cc C x0 : ℕ → ℕ → ℚ} {e2d : Mat Num} {next : ℕ → ℕ}

/-- C50, the solver.  On complete graphs with three or more nodes whose cheapest cycle cover is unique, for all large numbers of
iterations the relaxed round selects exactly the edges of the cheapest cycle cover and reports its cost, whatever the finite
threshold and the other settings. -/
theorem C50_relaxed (h : TspOk inp w cc) (hn : 3 ≤ inp.numNodes) (hall : AllEdges inp.numNodes inp.edges)
    (he : e2d.Is inp.numEdges inp.numNodes x0) (hb : OnlyBest inp.numNodes C next)
    (hw : ∀ e < inp.edges.length, w e = C (src inp.edges e) (dst inp.edges e))
    (hc : ∀ e < inp.edges.length, cc e (src inp.edges e) = C (src inp.edges e) (dst inp.edges e) ∧
      cc e (dst inp.edges e) = C (src inp.edges e) (dst inp.edges e))
    (ha : inp.flag = true → 0 ≤ inp.alpha ∧ inp.alpha < 1) (θ : ℚ) :
    ∃ T, ∀ K ≥ T, ∀ (reset augmentation : Bool) (maxCount : ℕ) (maxAugm : ℤ) (order : ℕ → List (ℕ × ℕ) → List ℕ),
      (∀ k sel, StartOrder sel (order k sel)) →
      ∃ st, iterateRelaxed (tspSetup inp K reset augmentation (fin θ) maxCount maxAugm order) (tspStart inp e2d) = some st ∧
        st.selected = inp.edges.filter (fun e => e.2 = next e.1) ∧ st.cost = fin (coverCost inp.numNodes C next) := by
  obtain ⟨⟨x, r, y, q, ht⟩, -⟩ := C12_relaxed_run h he (fun _ _ => 0)
  obtain ⟨T, hT⟩ := C50_beliefs hall hb hc ha ht (fun _ _ => 0) |θ|
  refine ⟨T, fun K hK reset augmentation maxCount maxAugm order ho => ?_⟩
  obtain ⟨st, s1, s2, s3, -⟩ := Proofs.relaxed_cover (reset := reset) (augmentation := augmentation) (maxCount := maxCount)
    (maxAugm := maxAugm) (K := K) (θ := θ) h hn hall ho he hb.1 hw ht
    (fun e he => ⟨fun hh => le_trans ((hT K hK e he).1 hh) (neg_abs_le θ), fun hh => lt_of_le_of_lt (le_abs_self θ) ((hT K hK e he).2 hh)⟩)
  exact ⟨st, s1, s2, s3⟩

/-- C50, the solver with an explicit number of iterations. -/
theorem C50_relaxed_after (h : TspOk inp w cc) (hn : 3 ≤ inp.numNodes) (hall : AllEdges inp.numNodes inp.edges)
    (he : e2d.Is inp.numEdges inp.numNodes x0) {gap B : ℚ} (hg : 0 < gap) (hb : CoverBy gap inp.numNodes C next)
    (hB : ∀ i < inp.numNodes, ∀ j < inp.numNodes, j ≠ i → |C i j| ≤ B)
    (hx : ∀ e < inp.edges.length, |x0 e (src inp.edges e)| ≤ B ∧ |x0 e (dst inp.edges e)| ≤ B)
    (hw : ∀ e < inp.edges.length, w e = C (src inp.edges e) (dst inp.edges e))
    (hc : ∀ e < inp.edges.length, cc e (src inp.edges e) = C (src inp.edges e) (dst inp.edges e) ∧
      cc e (dst inp.edges e) = C (src inp.edges e) (dst inp.edges e))
    (ha : inp.flag = true → 0 ≤ inp.alpha ∧ inp.alpha < 1) {θ : ℚ} {K : ℕ}
    (hK : inp.numNodes * (8 * B + |θ|) < K * ((1 - if inp.flag then inp.alpha else 0) * gap)) (reset augmentation : Bool) (maxCount : ℕ) (maxAugm : ℤ)
    {order : ℕ → List (ℕ × ℕ) → List ℕ} (ho : ∀ k sel, StartOrder sel (order k sel)) :
    ∃ st, iterateRelaxed (tspSetup inp (K + 1) reset augmentation (fin θ) maxCount maxAugm order) (tspStart inp e2d) = some st ∧
      st.selected = inp.edges.filter (fun e => e.2 = next e.1) ∧ st.cost = fin (coverCost inp.numNodes C next) := by
  obtain ⟨⟨x, r, y, q, ht⟩, -⟩ := C12_relaxed_run h he (fun _ _ => 0)
  have hT := C50_rate hall hn hg.le hb hB hc hx ha ht (fun _ _ => 0) K
  have hθ := Proofs.enough_iterations (by omega) hK
  obtain ⟨st, s1, s2, s3, -⟩ := Proofs.relaxed_cover (reset := reset) (augmentation := augmentation) (maxCount := maxCount) (maxAugm := maxAugm)
    (K := K + 1) (θ := θ) h hn hall ho he hb.1 hw ht
    (fun e he => ⟨fun hh => ((hT e he).1 hh).trans (by linarith [neg_abs_le θ]), fun hh => lt_of_lt_of_le (by linarith [le_abs_self θ]) ((hT e he).2 hh)⟩)
  exact ⟨st, s1, s2, s3⟩
end

section
variable {s : TspSettings} {order : ℕ → List (ℕ × ℕ) → List ℕ} {limit n : ℕ} {m : Mat Num} {C : ℕ → ℕ → ℚ} {edges : List (ℕ × ℕ)}
  {next : ℕ → ℕ}

/-- C50, the whole call.  If the unique cheapest cycle cover is a single cycle through five or more nodes, then for all large numbers
of iterations the call returns an optimal tour, without augmentation and without post-processing, with its cost: no tour at all is
cheaper. -/
theorem C50_optimal_tour (hm : m.Is n n C) (h : AllEdges n edges) (hn : 5 ≤ n) (ho : ∀ k sel, StartOrder sel (order k sel))
    (ha : 1 ≤ s.maxAugm) (hlim : n ≤ limit) (hα : s.flag = true → 0 ≤ s.alpha ∧ s.alpha < 1) {θ : ℚ} (hθ : s.thr = fin θ)
    (hb : OnlyBest n C next) {t : List ℕ} (ht : IsTour (fun u v => v = next u) n t) :
    ∃ T, ∀ K ≥ T, ∀ fuel, ∃ r t', runImpa { s with numIter := K } order fuel limit n m edges = some (some (r, false)) ∧
      r.numAugm = 0 ∧ r.tour = some t' ∧ IsTour (fun u v => v = next u) n t' ∧ r.cost = fin (walkCost C t') ∧
      ∀ t'', IsTour (fun u v => u ≠ v) n t'' → walkCost C t' ≤ walkCost C t'' := by
  obtain ⟨x, r, y, q, htr⟩ := Proofs.call_messages s hm h (by omega)
  obtain ⟨T, hT⟩ := C50_beliefs h hb (Proofs.endCosts_ends C edges) hα htr (fun _ _ => 0) |θ|
  exact ⟨T, fun K hK fuel => Proofs.tour_of_split hm h hn ho ha hlim hθ hb ht htr
    (fun e he => ⟨fun hh => ((hT K hK e he).1 hh).trans (neg_abs_le θ), fun hh => lt_of_le_of_lt (le_abs_self θ) ((hT K hK e he).2 hh)⟩) fuel⟩

/-- C50, the whole call with an explicit number of iterations.  If the cheapest cycle cover is a single cycle through `n ≥ 5` nodes, all others
cost at least `gap` more and no cost exceeds `B` in magnitude, then more than `1 + n (8 B + |θ|) / ((1 - α) gap)` iterations suffice. -/
theorem C50_optimal_tour_after (hm : m.Is n n C) (h : AllEdges n edges) (hn : 5 ≤ n) (ho : ∀ k sel, StartOrder sel (order k sel))
    (ha : 1 ≤ s.maxAugm) (hlim : n ≤ limit) (hα : s.flag = true → 0 ≤ s.alpha ∧ s.alpha < 1) {θ : ℚ} (hθ : s.thr = fin θ) {gap B : ℚ} (hg : 0 < gap)
    (hb : CoverBy gap n C next) (hB : ∀ i < n, ∀ j < n, j ≠ i → |C i j| ≤ B) {t : List ℕ} (ht : IsTour (fun u v => v = next u) n t) {K : ℕ}
    (hK : n * (8 * B + |θ|) < K * ((1 - if s.flag then s.alpha else 0) * gap)) (fuel : ℕ) :
    ∃ r t', runImpa { s with numIter := K + 1 } order fuel limit n m edges = some (some (r, false)) ∧
      r.numAugm = 0 ∧ r.tour = some t' ∧ IsTour (fun u v => v = next u) n t' ∧ r.cost = fin (walkCost C t') ∧
      ∀ t'', IsTour (fun u v => u ≠ v) n t'' → walkCost C t' ≤ walkCost C t'' := by
  obtain ⟨x, r, y, q, htr⟩ := Proofs.call_messages s hm h (by omega)
  have hends := Proofs.endCosts_ends C edges
  have hT := C50_rate h (by omega) hg.le hb hB hends (fun e he => by
    have := h.2.1 _ (List.getElem_mem he)
    rw [Proofs.src_dst he] at this
    rw [(hends e he).1, (hends e he).2]
    exact ⟨hB _ this.1 _ this.2.1 (Ne.symm this.2.2), hB _ this.1 _ this.2.1 (Ne.symm this.2.2)⟩) hα htr (fun _ _ => 0) K
  have hθ' := Proofs.enough_iterations (by omega) hK
  exact Proofs.tour_of_split hm h hn ho ha hlim hθ (Proofs.onlyBest_of_gap hg hb) ht htr
    (fun e he => ⟨fun hh => ((hT e he).1 hh).trans (by linarith [neg_abs_le θ]), fun hh => lt_of_lt_of_le (by linarith [le_abs_self θ]) ((hT e he).2 hh)⟩) fuel

end

/-- The tour `0 → 1 → 2 → 3 → 4 → 0` is the only cheapest cycle cover of the five nodes of `tourCosts`. -/
example : OnlyBest 5 tourCosts (fun u => (u + 1) % 5) := by
  have hc : CycleCover 5 (fun u => (u + 1) % 5) :=
    ⟨fun u hu => by show (u + 1) % 5 < 5; omega, fun u hu => by show (u + 1) % 5 ≠ u; omega, fun u hu v hv h => by
      have : (u + 1) % 5 = (v + 1) % 5 := h
      omega⟩
  exact (C50_certificate hc).mpr ⟨fun u => ([1, 2, 1, 2, 3] : List ℚ).getD u 0, fun _ => 0, 1, by norm_num, by decide +kernel, by decide +kernel⟩
example : IsTour (fun u v => v = (u + 1) % 5) 5 [0, 1, 2, 3, 4, 0] := by
  refine ⟨rfl, rfl, by decide, by decide, fun v => ?_⟩
  simp only [List.mem_cons, List.not_mem_nil, or_false]
  omega

/-- 200 iterations with damping factor 1/2 are proved to be enough for these costs (gap 4, bound 9). -/
example (fuel : ℕ) : ∃ r t', runImpa { callSettings true with numIter := 200 } someOrder fuel 10 5 (Mat.ofRat 5 5 tourCosts)
    (nonzeroEdges (Mat.ofRat 5 5 tourCosts)) = some (some (r, false)) ∧ r.tour = some t' ∧
    ∀ t'', IsTour (fun u v => u ≠ v) 5 t'' → walkCost tourCosts t' ≤ walkCost tourCosts t'' := by
  have hc : CycleCover 5 (fun u => (u + 1) % 5) :=
    ⟨fun u hu => by show (u + 1) % 5 < 5; omega, fun u hu => by show (u + 1) % 5 ≠ u; omega, fun u hu v hv h => by
      have : (u + 1) % 5 = (v + 1) % 5 := h
      omega⟩
  have hgap : CoverBy 4 5 tourCosts (fun u => (u + 1) % 5) :=
    C50_gap hc (u := fun u => ([1, 2, 1, 2, 3] : List ℚ).getD u 0) (v := fun _ => 0) (by norm_num) (by decide +kernel) (by decide +kernel)
  have hall : AllEdges 5 (nonzeroEdges (Mat.ofRat 5 5 tourCosts)) := by
    refine ⟨by decide +kernel, by unfold EdgesOk; decide +kernel, ?_⟩
    unfold Complete
    intro u hu v hv
    interval_cases u <;> interval_cases v <;> decide +kernel
  have ht : IsTour (fun u v => v = (u + 1) % 5) 5 [0, 1, 2, 3, 4, 0] := by
    refine ⟨rfl, rfl, by decide, by decide, fun v => ?_⟩
    simp only [List.mem_cons, List.not_mem_nil, or_false]
    omega
  obtain ⟨r, t', h1, -, h2, -, -, h3⟩ := C50_optimal_tour_after (s := callSettings true) (order := someOrder) (limit := 10) (Mat.ofRat_is 5 5 tourCosts) hall
    (by norm_num) someOrder_ok (by decide) (by norm_num) (fun _ => by norm_num [callSettings]) (θ := -1 / 10000) rfl (B := 9) (by norm_num) hgap
    (by decide +kernel) ht (K := 199) (by norm_num [callSettings, abs_of_neg]) fuel
  exact ⟨r, t', h1, h2, h3⟩

/-- Damping 9/10, six iterations: the tour is found, its cost is 9. -/
example : (runImpa { callSettings true with numIter := 6, alpha := 9 / 10 } someOrder 8 10 5 (Mat.ofRat 5 5 tourCosts)
    (nonzeroEdges (Mat.ofRat 5 5 tourCosts))).map (Option.map fun p => (p.1.tour, p.1.cost, p.2)) =
    some (some (some [1, 2, 3, 4, 0, 1], fin 9, false)) := by decide +kernel
/-- With damping factor one the messages stay zero: nothing is selected after any number of iterations, the process ends. -/
example : (runImpa { callSettings true with numIter := 6, alpha := 1 } someOrder 8 10 5 (Mat.ofRat 5 5 tourCosts)
    (nonzeroEdges (Mat.ofRat 5 5 tourCosts))).map Option.isSome = some false := by decide +kernel

end Verif.Properties
