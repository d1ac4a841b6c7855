import Verif.Spec.Forbidden
import Verif.Proofs.InfBest
import Verif.Proofs.InfRounds
import Verif.Properties.TspSolve
import Mathlib.Tactic.IntervalCases

/-! C84: infinite costs forbid edges. -/

namespace Verif.Properties
open Verif Num Model Spec

section
variable {n : ℕ} {m : Mat Num} {F : ℕ → ℕ → Bool} {C : ℕ → ℕ → ℚ} {edges : List (ℕ × ℕ)} {next : ℕ → ℕ} {flag : Bool} {alpha θ : ℚ}

/-- C84, forbidden edges are never selected.  If some cycle cover has no forbidden edge, then the relaxed round returns after any number of
iterations, no belief is NaN, the beliefs of the forbidden edges are infinite, and the selected edges are not forbidden; their cost is finite. -/
theorem C84_never_selected_partial (hr : m.rows = n) (hc : m.cols = n) (hm : ∀ i < n, ∀ j < n, i ≠ j → m.data i j = forbid F C i j) (h : AllEdges n edges)
    (hcov : CycleCover n next) (hav : Avoids n F next) (ha : flag = true → 0 ≤ alpha ∧ alpha < 1) (K : ℕ) (reset augmentation : Bool) (maxCount : ℕ)
    (maxAugm : ℤ) {order : ℕ → List (ℕ × ℕ) → List ℕ} (ho : ∀ k sel, StartOrder sel (order k sel)) :
    ∃ inp a st q, tspInputs flag alpha n m edges = some (inp, a) ∧
      iterateRelaxed (tspSetup inp K reset augmentation (fin θ) maxCount maxAugm order) (tspStart inp a) = some st ∧
      (∀ e < edges.length, st.intr.data e ≠ nan) ∧
      (∀ e < edges.length, F (src edges e) (dst edges e) = true → st.intr.data e = pinf) ∧
      (∀ c ∈ st.selected, c ∈ edges ∧ F c.1 c.2 = false) ∧ st.cost = fin q := by
  obtain ⟨inp, a, d1, d2, d3, d4, d5, d6, d7, d8⟩ := Proofs.forbidden_inputs flag alpha hr hc hm h
  have hrate := Proofs.rate_lt (flag := inp.flag) (alpha := inp.alpha) (by rw [d5, d6]; exact ha)
  obtain ⟨u, v, δ, hd⟩ := Proofs.dual_any (inp := inp) (F := F) (C := C) (next := next) (by rw [d2]; exact hcov) (by rw [d2]; exact hav)
  obtain ⟨x, y, hrun⟩ := Proofs.run_all d7 d8 hd hrate.1 hrate.2 K
  obtain ⟨st, s1, s2, s3, s4, s5, s6, s7, -⟩ := Proofs.relaxed_forbidden (maxCount := maxCount) (reset := reset) (augmentation := augmentation) (thr := fin θ)
    (maxAugm := maxAugm) d7 hd ho hrun
  rw [d3] at s3 s4 s5
  rw [d4] at s3 s4 s5 s6
  have hch : ∀ e ∈ Proofs.chosen inp.numEdges (fin θ) st.intr, e < edges.length ∧ F (src edges e) (dst edges e) = false := by
    intro e he
    obtain ⟨h1, h2⟩ := List.mem_filter.mp he
    have h1 : e < edges.length := by rw [← d3]; exact List.mem_range.mp h1
    refine ⟨h1, ?_⟩
    by_contra hF
    rw [s5 e h1 (by simpa using hF)] at h2
    simp [gt, lt] at h2
  obtain ⟨q, hq⟩ : ∃ q, st.cost = fin q := by
    rw [s7]
    have : ∀ (l : List ℕ) (p : ℚ), (∀ e ∈ l, e < edges.length ∧ F (src edges e) (dst edges e) = false) →
        ∃ q, l.foldl (fun acc e => acc + inp.cost.data e) (fin p) = fin q := by
      intro l
      induction l with
      | nil => intro p _; exact ⟨p, rfl⟩
      | cons e l ih =>
        intro p hl
        obtain ⟨e1, e2⟩ := hl e List.mem_cons_self
        have hce : inp.cost.data e = fin (C (src edges e) (dst edges e)) := by
          rw [d7.cost e (by rw [d3]; exact e1), d4]
          unfold forbid
          rw [e2]; rfl
        rw [List.foldl_cons, hce, fin_add]
        exact ih _ fun e' he' => hl e' (List.mem_cons_of_mem _ he')
    exact this _ 0 hch
  refine ⟨inp, a, st, q, d1, s1, fun e he => ?_, s5, fun c hcs => ?_, hq⟩
  · by_cases hn : dst edges e = next (src edges e)
    · exact (s4 e he hn).ne
    · exact (s3 e he hn).ne
  · rw [s6] at hcs
    obtain ⟨e, he, rfl⟩ := List.mem_map.mp hcs
    obtain ⟨h1, h2⟩ := hch e he
    rw [List.getD_eq_getElem _ _ h1]
    refine ⟨List.getElem_mem _, ?_⟩
    rw [Proofs.src_dst h1]; exact h2

/-- C84, the cheapest cover without forbidden edges.  If it is unique, then for all large numbers of iterations the relaxed round selects
exactly its edges and reports its cost, whatever the finite threshold and the other settings. -/
theorem C84_best_partial (hr : m.rows = n) (hc : m.cols = n) (hm : ∀ i < n, ∀ j < n, i ≠ j → m.data i j = forbid F C i j) (h : AllEdges n edges)
    (hb : OnlyBestAvoiding n F C next) (ha : flag = true → 0 ≤ alpha ∧ alpha < 1) :
    ∃ inp a T, tspInputs flag alpha n m edges = some (inp, a) ∧ ∀ K ≥ T, ∀ (reset augmentation : Bool) (maxCount : ℕ) (maxAugm : ℤ)
      (order : ℕ → List (ℕ × ℕ) → List ℕ), (∀ k sel, StartOrder sel (order k sel)) →
      ∃ st, iterateRelaxed (tspSetup inp K reset augmentation (fin θ) maxCount maxAugm order) (tspStart inp a) = some st ∧
        st.selected = edges.filter (fun e => e.2 = next e.1) ∧ st.cost = fin (coverCost n C next) := by
  obtain ⟨inp, a, d1, d2, d3, d4, d5, d6, d7, d8⟩ := Proofs.forbidden_inputs flag alpha hr hc hm h
  obtain ⟨T, hT⟩ := Proofs.forbidden_best (θ := θ) (next := next) d7 d8 (by rw [d2]; exact hb) (by rw [d5, d6]; exact ha)
  rw [d2, d4] at hT
  refine ⟨inp, a, T, d1, fun K hK reset augmentation maxCount maxAugm order ho => ?_⟩
  obtain ⟨st, s1, s2, s3, -⟩ := hT K hK reset augmentation maxCount maxAugm order ho
  exact ⟨st, s1, s2, s3⟩

/-- C84, the tour.  If this cover is a single cycle, the solver stops after the relaxed round with an optimal tour: no tour without
forbidden edges is cheaper. -/
theorem C84_tour_partial (hr : m.rows = n) (hc : m.cols = n) (hm : ∀ i < n, ∀ j < n, i ≠ j → m.data i j = forbid F C i j) (h : AllEdges n edges)
    (hn : 0 < n) (hb : OnlyBestAvoiding n F C next) {t : List ℕ} (ht : IsTour (fun u v => v = next u) n t) (ha : flag = true → 0 ≤ alpha ∧ alpha < 1) :
    ∃ inp a T, tspInputs flag alpha n m edges = some (inp, a) ∧ ∀ K ≥ T, ∀ (reset augmentation : Bool) (maxCount : ℕ) (maxAugm : ℤ)
      (order : ℕ → List (ℕ × ℕ) → List ℕ) (fuel : ℕ), (∀ k sel, StartOrder sel (order k sel)) →
      ∃ st, tspSolve (tspSetup inp K reset augmentation (fin θ) maxCount maxAugm order) fuel (tspStart inp a) = some (some st) ∧
        st.an.tourFlag = true ∧ IsTour (fun u v => F u v = false ∧ v = next u) n st.an.tour ∧ st.cost = fin (walkCost C st.an.tour) ∧
        ∀ t', IsTour (fun u v => u ≠ v ∧ F u v = false) n t' → walkCost C st.an.tour ≤ walkCost C t' := by
  obtain ⟨inp, a, d1, d2, d3, d4, d5, d6, d7, d8⟩ := Proofs.forbidden_inputs flag alpha hr hc hm h
  obtain ⟨T, hT⟩ := Proofs.forbidden_best (θ := θ) (next := next) d7 d8 (by rw [d2]; exact hb) (by rw [d5, d6]; exact ha)
  rw [d2, d4] at hT
  refine ⟨inp, a, T, d1, fun K hK reset augmentation maxCount maxAugm order fuel ho => ?_⟩
  obtain ⟨st, s1, s2, s3, s4⟩ := hT K hK reset augmentation maxCount maxAugm order ho
  have hjoin : ∀ u v, Joined st.selected u v ↔ u < n ∧ v = next u := by
    intro u v
    unfold Joined
    rw [s2, List.mem_filter]
    simp only [decide_eq_true_eq]
    constructor
    · rintro ⟨h1, h2⟩; exact ⟨(h.2.1 _ h1).1, h2⟩
    · rintro ⟨h1, rfl⟩; exact ⟨h.2.2 u h1 _ (hb.1.lt u h1) (Ne.symm (hb.1.ne u h1)), rfl⟩
  have hselok : ∀ c ∈ st.selected, c.1 < n ∧ c.2 < n := fun c hc => by
    have := h.2.1 c (by rw [s2] at hc; exact (List.mem_filter.mp hc).1); exact ⟨this.1, this.2.1⟩
  have htour : IsTour (Joined st.selected) n t := by
    refine ⟨ht.length, ht.closed, ?_, ht.once, ht.all⟩
    rw [List.isChain_iff_getElem]
    intro i hi
    exact (hjoin _ _).mpr ⟨(ht.all _).mp (List.getElem_mem _), (List.isChain_iff_getElem.mp ht.steps) i hi⟩
  obtain ⟨an, t1, t2, -⟩ := C16_tour_found (n := n) (maxCount := maxCount) (edges := edges) (s := {}) (sel := st.selected)
    hselok (ho 0 st.selected) (fun u v w h1 h2 => by rw [((hjoin _ _).mp h1).2, ((hjoin _ _).mp h2).2]) hn htour
  rw [s4] at t1
  obtain rfl : st.an = an := by simpa using t1
  have hsat : st.an.satisfied = true := by
    rcases Proofs.analyse_flags (ho 0 st.selected) s4 with ⟨-, -, -, hh, -⟩ | ⟨-, -, hh | ⟨-, hh, -⟩⟩
    · rw [t2] at hh; cases hh
    · exact hh.2.1
    · rw [t2] at hh; cases hh
  have hres : IsTour (Joined st.selected) n st.an.tour := (C16_tour hselok (ho 0 st.selected) rfl s4 t2).1
  have hnx : IsTour (fun u v => v = next u) n st.an.tour :=
    ⟨hres.length, hres.closed, hres.steps.imp fun u v huv => ((hjoin u v).mp huv).2, hres.once, hres.all⟩
  have hcost : walkCost C st.an.tour = coverCost n C next := Proofs.tour_cost hnx hn
  refine ⟨st, ?_, t2, ⟨hres.length, hres.closed, hres.steps.imp fun u v huv => ?_, hres.once, hres.all⟩, by rw [s3, hcost], fun t' h' => ?_⟩
  · unfold tspSolve
    rw [s1]
    simp [hsat]
  · obtain ⟨h1, rfl⟩ := (hjoin u v).mp huv
    exact ⟨hb.2.1 u h1, rfl⟩
  · obtain ⟨nx, n1, n2, n3⟩ := Proofs.tour_cover h' (fun u _ v _ huv => huv.1) hn
    rw [hcost, Proofs.tour_cost n2 hn]
    by_cases hd : ∃ u < n, nx u ≠ next u
    · exact (hb.2.2 nx n1 (fun u hu => (n3 u hu).2) hd).le
    · push Not at hd
      unfold coverCost
      exact le_of_eq (Finset.sum_congr rfl fun u hu => by rw [hd u (Finset.mem_range.mp hu)])

/-- C84, all rounds.  If two edges that are not forbidden leave every set of nodes, then the solver returns with any settings: it never sees
NaN, the beliefs of the forbidden edges are infinite, those of the others finite, no forbidden edge is selected, and the tour if there is one
has none.  The only other outcome is the exit of the program when the selection of some round costs nothing. -/
theorem C84_all_rounds_partial (hr : m.rows = n) (hc : m.cols = n) (hm : ∀ i < n, ∀ j < n, i ≠ j → m.data i j = forbid F C i j) (h : AllEdges n edges)
    (hn : 2 ≤ n) (ht : TwoLeave n F) (K : ℕ) (reset augmentation : Bool) (maxCount : ℕ) {maxAugm : ℤ} (hma : 1 ≤ maxAugm) {fuel : ℕ} (hfuel : maxAugm < fuel)
    {order : ℕ → List (ℕ × ℕ) → List ℕ} (ho : ∀ k sel, StartOrder sel (order k sel)) :
    ∃ inp a, tspInputs flag alpha n m edges = some (inp, a) ∧
      ((∃ st q, tspSolve (tspSetup inp K reset augmentation (fin θ) maxCount maxAugm order) fuel (tspStart inp a) = some (some st) ∧
          (∀ e < edges.length, F (src edges e) (dst edges e) = true → st.intr.data e = pinf) ∧
          (∀ e < edges.length, F (src edges e) (dst edges e) = false → ∃ b, st.intr.data e = fin b) ∧
          (∀ c ∈ st.selected, c ∈ edges ∧ F c.1 c.2 = false) ∧ st.cost = fin q ∧
          (st.an.tourFlag = true → IsTour (fun u v => F u v = false) n st.an.tour)) ∨
        tspSolve (tspSetup inp K reset augmentation (fin θ) maxCount maxAugm order) fuel (tspStart inp a) = some none ∧
          ∃ (k : ℕ) (f : ℕ → TspState) (st1 : TspState), iterateRelaxed (tspSetup inp K reset augmentation (fin θ) maxCount maxAugm order) (tspStart inp a) = some st1 ∧
            f 0 = addFirstRows st1 ∧ AugRun (tspSetup inp K reset augmentation (fin θ) maxCount maxAugm order) f k ∧ (f k).cost = 0 ∧
            ∀ c ∈ (f k).selected, c ∈ edges ∧ F c.1 c.2 = false) := by
  obtain ⟨inp, a, d1, d2, d3, d4, hin, hE⟩ := Proofs.forbidden_all_inputs flag alpha hr hc hm h ht
  refine ⟨inp, a, d1, ?_⟩
  obtain ⟨st1, s1, s2⟩ := Proofs.forbid_first (numIter := K) (reset := reset) (augmentation := augmentation) (θ := θ) (maxCount := maxCount) (maxAugm := maxAugm) hin
    (by rw [d2]; exact hn) ho hE
  obtain ⟨l1, l2⟩ := Proofs.forbid_loop (numIter := K) (reset := reset) (augmentation := augmentation) (θ := θ) (maxCount := maxCount) (maxAugm := maxAugm) hin
    (by rw [d2]; exact hn) ho fuel s2
  have hend := C20_terminates (c := tspSetup inp K reset augmentation (fin θ) maxCount maxAugm order) (fuel := fuel) (st := tspStart inp a) ⟨_, _, _, rfl⟩ hma hfuel
  have hsolve : tspSolve (tspSetup inp K reset augmentation (fin θ) maxCount maxAugm order) fuel (tspStart inp a) =
      if !st1.an.satisfied && augmentation then augmentLoop (tspSetup inp K reset augmentation (fin θ) maxCount maxAugm order) fuel (addFirstRows st1) else some (some st1) := by
    unfold tspSolve
    rw [s1]; rfl
  cases hs : tspSolve (tspSetup inp K reset augmentation (fin θ) maxCount maxAugm order) fuel (tspStart inp a) with
  | none => exact absurd hs hend
  | some r =>
    cases r with
    | none =>
      right
      refine ⟨rfl, ?_⟩
      rw [hsolve] at hs
      split_ifs at hs with hc
      · obtain ⟨k, f, f0, f1, f2, f3⟩ := l2 hs
        refine ⟨k, f, st1, s1, f0, f1, f2, ?_⟩
        rw [← d4]; exact (f3.allowed hin).1
      · simp at hs
    | some st =>
      left
      obtain ⟨m', hinv⟩ : ∃ m' : TspMsgs, Proofs.ForbidInv inp F θ { st with msgs := m' } := by
        rw [hsolve] at hs
        split_ifs at hs with hc
        · exact l1 st hs
        · simp only [Option.some.injEq] at hs
          subst hs
          refine ⟨(addFirstRows st1).msgs, ?_⟩
          have : { st1 with msgs := (addFirstRows st1).msgs } = addFirstRows st1 := by
            unfold addFirstRows; split <;> rfl
          rw [this]; exact s2
      obtain ⟨a1, q, a2⟩ := hinv.allowed hin
      have hb := hinv.beliefs
      rw [d3, d4] at hb
      rw [d4] at a1
      refine ⟨st, q, rfl, fun e he hF => ?_, fun e he hF => ?_, a1, a2, fun hf => ?_⟩
      · have := hb e he
        rw [hF] at this; exact this
      · have := hb e he
        rw [hF] at this; exact this
      · have := (C20_tour (c := tspSetup inp K reset augmentation (fin θ) maxCount maxAugm order) ho (by show EdgesOk inp.numNodes inp.edges; rw [d2, d4]; exact h.2.1)
          ⟨_, _, _, rfl⟩ hma hs).1 hf
        have hnn : (tspSetup inp K reset augmentation (fin θ) maxCount maxAugm order).numNodes = n := d2
        rw [hnn] at this
        exact ⟨this.length, this.closed, this.steps.imp fun u v huv => (a1 (u, v) huv).2, this.once, this.all⟩

end

/-- C84, how to recognise the cheapest cover without forbidden edges: it is the cheapest for some finite cost of the forbidden edges. -/
theorem C84_finite_certificate_partial {n : ℕ} {F : ℕ → ℕ → Bool} {C : ℕ → ℕ → ℚ} {next : ℕ → ℕ} {M : ℚ} (hav : Avoids n F next)
    (h : OnlyBest n (fun i j => if F i j then M else C i j) next) : OnlyBestAvoiding n F C next := by
  have hcost : ∀ f, Avoids n F f → coverCost n (fun i j => if F i j then M else C i j) f = coverCost n C f := by
    intro f hf
    refine Finset.sum_congr rfl fun i hi => ?_
    simp [hf i (Finset.mem_range.mp hi)]
  refine ⟨h.1, hav, fun other ho hoa hne => ?_⟩
  have := h.2 other ho hne
  rwa [hcost _ hav, hcost _ hoa] at this

/-- C84, how to check the condition of the theorem on all rounds: count the edges that leave the finitely many sets of nodes. -/
theorem C84_two_leave_partial {n : ℕ} {F : ℕ → ℕ → Bool} : TwoLeave n F ↔ ∀ T ∈ (Finset.range n).powerset, T ≠ ∅ → T ≠ Finset.range n →
    2 ≤ ((T ×ˢ (Finset.range n \ T)).filter fun a => F a.1 a.2 = false).card := by
  classical
  constructor
  · intro h T hT h1 h2
    rw [Finset.mem_powerset] at hT
    obtain ⟨u, hu⟩ := Finset.nonempty_iff_ne_empty.mpr h1
    obtain ⟨v, hv, hvT⟩ : ∃ v ∈ Finset.range n, v ∉ T := by
      by_contra hc
      push Not at hc
      exact h2 (Finset.Subset.antisymm hT hc)
    obtain ⟨a, b, hab, ha, hb⟩ := h (fun u => u ∈ T) ⟨u, Finset.mem_range.mp (hT hu), hu⟩ ⟨v, Finset.mem_range.mp hv, hvT⟩
    have mem : ∀ a, LeavesBy n F (fun u => u ∈ T) a → a ∈ (T ×ˢ (Finset.range n \ T)).filter fun a => F a.1 a.2 = false := by
      rintro a ⟨-, h2, h3, h4, h5⟩
      rw [Finset.mem_filter, Finset.mem_product, Finset.mem_sdiff, Finset.mem_range]
      exact ⟨⟨h3, h2, h4⟩, h5⟩
    exact Finset.one_lt_card.mpr ⟨a, mem a ha, b, mem b hb, hab⟩
  · rintro h S ⟨u, hu, hSu⟩ ⟨v, hv, hSv⟩
    have h2 := h ((Finset.range n).filter S) (Finset.mem_powerset.mpr (Finset.filter_subset _ _))
      (Finset.ne_empty_of_mem (Finset.mem_filter.mpr ⟨Finset.mem_range.mpr hu, hSu⟩))
      (fun e => hSv (Finset.mem_filter.mp (e.ge (Finset.mem_range.mpr hv))).2)
    obtain ⟨a, ha, b, hb, hab⟩ := Finset.one_lt_card.mp h2
    have mem : ∀ a, a ∈ (((Finset.range n).filter S) ×ˢ (Finset.range n \ (Finset.range n).filter S)).filter (fun a => F a.1 a.2 = false) → LeavesBy n F S a := by
      intro a ha
      rw [Finset.mem_filter, Finset.mem_product, Finset.mem_sdiff, Finset.mem_filter, Finset.mem_filter, Finset.mem_range, Finset.mem_range] at ha
      obtain ⟨⟨⟨h1, h2⟩, h3, h4⟩, h5⟩ := ha
      exact ⟨h1, h3, h2, fun hS => h4 ⟨h3, hS⟩, h5⟩
    exact ⟨a, b, hab, mem a ha, mem b hb⟩

/-- The solver called with a cost matrix. -/
def solveMatrix (flag : Bool) (alpha : ℚ) (n K : ℕ) (reset augmentation : Bool) (θ : ℚ) (maxCount : ℕ) (maxAugm : ℤ)
    (order : ℕ → List (ℕ × ℕ) → List ℕ) (fuel : ℕ) (edges : List (ℕ × ℕ)) (c : ℕ → ℕ → Num) : Option (Option TspState) :=
  (tspInputs flag alpha n ⟨n, n, c⟩ edges).bind fun p =>
    tspSolve (tspSetup p.1 K reset augmentation (fin θ) maxCount maxAugm order) fuel (tspStart p.1 p.2)

/-- C84 in full: an infinite cost works where a finite one works that is larger than that of any tour: if the solver finds a tour when all
forbidden edges cost `M`, it also returns when they cost infinity. -/
def C84_claim : Prop :=
  ∀ (n : ℕ) (F : ℕ → ℕ → Bool) (C : ℕ → ℕ → ℚ) (M : ℚ) (edges : List (ℕ × ℕ)) (flag : Bool) (alpha : ℚ) (K : ℕ) (reset augmentation : Bool) (θ : ℚ)
    (maxCount : ℕ) (maxAugm : ℤ) (order : ℕ → List (ℕ × ℕ) → List ℕ) (fuel : ℕ), AllEdges n edges → (flag = true → 0 ≤ alpha ∧ alpha < 1) →
    (∀ k sel, StartOrder sel (order k sel)) → (∀ i < n, ∀ j < n, i ≠ j → F i j = false → n * |C i j| < M) →
    (∃ st, solveMatrix flag alpha n K reset augmentation θ maxCount maxAugm order fuel edges (fun i j => fin (if F i j then M else C i j)) = some (some st) ∧
      st.an.tourFlag = true) →
    ∃ st, solveMatrix flag alpha n K reset augmentation θ maxCount maxAugm order fuel edges (forbid F C) = some (some st)

/-- Two pairs of nodes; the edges inside of the pairs cost 1, one edge in each direction between the pairs costs 5, the others are forbidden. -/
def pairForbidden (i j : ℕ) : Bool := !decide ((i, j) ∈ [(0, 1), (1, 0), (2, 3), (3, 2), (1, 2), (3, 0)])
def pairCosts (i j : ℕ) : ℚ := if (i, j) ∈ [(1, 2), (3, 0)] then 5 else 1
def forbidEdges : List (ℕ × ℕ) := [(0, 1), (0, 2), (0, 3), (1, 0), (1, 2), (1, 3), (2, 0), (2, 1), (2, 3), (3, 0), (3, 1), (3, 2)]

theorem forbidEdges_all : AllEdges 4 forbidEdges := by
  refine ⟨by decide, by unfold EdgesOk; decide, ?_⟩
  unfold Complete
  intro u hu v hv
  interval_cases u <;> interval_cases v <;> decide

/-- False in the augmented rounds: the cut constraint of a set of nodes that only one allowed edge leaves sends minus infinity to this edge, and
`edge_ec_to_subtour_constraints_update` subtracts it again from a sum that contains it.  The result is NaN, and the process ends.  With the cost
100 for forbidden edges the solver finds the tour of cost 12. -/
theorem C84_claim_false : ¬ C84_claim := by
  intro h
  obtain ⟨st, hst⟩ := h 4 pairForbidden pairCosts 100 forbidEdges true (1 / 2) 2 true true (-1 / 10000) 5 10 someOrder 12 forbidEdges_all
    (fun _ => by norm_num) someOrder_ok (by decide +kernel) (by
      have : ((solveMatrix true (1 / 2) 4 2 true true (-1 / 10000) 5 10 someOrder 12 forbidEdges
        (fun i j => fin (if pairForbidden i j then 100 else pairCosts i j))).bind (Option.map fun (st : TspState) => st.an.tourFlag)) = some true := by decide +kernel
      simp only [Option.bind_eq_some_iff, Option.map_eq_some_iff] at this
      obtain ⟨o, h1, st, rfl, h3⟩ := this
      exact ⟨st, h1, h3⟩)
  have : (solveMatrix true (1 / 2) 4 2 true true (-1 / 10000) 5 10 someOrder 12 forbidEdges (forbid pairForbidden pairCosts)).map Option.isSome = some false := by
    decide +kernel
  rw [hst] at this
  cases this

/-- Without the expensive edges of the tour: the tour `0 → 1 → 2 → 3 → 0` costs 4, leaving a pair at once costs less than turning back. -/
def backCosts (i j : ℕ) : ℚ := if (i, j) ∈ [(1, 0), (3, 2)] then 5 else 1

theorem backCosts_best : OnlyBestAvoiding 4 pairForbidden backCosts (fun u => (u + 1) % 4) := by
  refine C84_finite_certificate_partial (M := 10) (by unfold Avoids; decide) ?_
  have hc : CycleCover 4 (fun u => (u + 1) % 4) :=
    ⟨fun u hu => by show (u + 1) % 4 < 4; omega, fun u hu => by show (u + 1) % 4 ≠ u; omega, fun u hu v hv h => by
      have : (u + 1) % 4 = (v + 1) % 4 := h
      omega⟩
  exact Proofs.onlyBest_of_dual hc (u := fun _ => 1) (v := fun _ => 0) (δ := 4) (by norm_num) (by decide +kernel) (by decide +kernel)

/-- The hypotheses of the theorems hold for these costs. -/
example : ∃ inp a T, tspInputs true (1 / 2) 4 ⟨4, 4, forbid pairForbidden backCosts⟩ forbidEdges = some (inp, a) ∧ ∀ K ≥ T, ∀ (fuel : ℕ),
    ∃ st, tspSolve (tspSetup inp K true true (fin (-1 / 10000)) 5 10 someOrder) fuel (tspStart inp a) = some (some st) ∧
      IsTour (fun u v => pairForbidden u v = false ∧ v = (u + 1) % 4) 4 st.an.tour := by
  obtain ⟨inp, a, T, h1, h2⟩ := C84_tour_partial (flag := true) (alpha := 1 / 2) (θ := -1 / 10000) (m := ⟨4, 4, forbid pairForbidden backCosts⟩) rfl rfl
    (fun _ _ _ _ _ => rfl) forbidEdges_all (by norm_num) backCosts_best (t := [0, 1, 2, 3, 0])
    ⟨rfl, rfl, by decide, by decide, fun v => by simp only [List.mem_cons, List.not_mem_nil, or_false]; omega⟩ (fun _ => by norm_num)
  refine ⟨inp, a, T, h1, fun K hK fuel => ?_⟩
  obtain ⟨st, s1, -, s2, -⟩ := h2 K hK true true 5 10 someOrder fuel someOrder_ok
  exact ⟨st, s1, s2⟩
/-- Three iterations are enough. -/
example : (solveMatrix true (1 / 2) 4 3 true true (-1 / 10000) 5 10 someOrder 12 forbidEdges (forbid pairForbidden backCosts)).map
    (Option.map fun (st : TspState) => (st.an.tour, st.cost)) = some (some ([1, 2, 3, 0, 1], fin 4)) := by decide +kernel
/-- The condition on the cover is needed: if all edges that leave node 0 are forbidden, their beliefs are NaN after two iterations, and NaN counts
as selected. -/
example : ((tspInputs true (1 / 2) 4 ⟨4, 4, forbid (fun i _ => i == 0) backCosts⟩ forbidEdges).bind fun p =>
    (iterateRelaxed (tspSetup p.1 2 true true (fin (-1 / 10000)) 5 10 someOrder) (tspStart p.1 p.2)).map fun st =>
      (decide (st.intr.data 0 = nan), decide ((0, 1) ∈ st.selected), decide ((0, 2) ∈ st.selected), decide ((0, 3) ∈ st.selected))) =
    some (true, true, true, true) := by decide +kernel

/-- A square: the diagonals are forbidden, two opposite sides cost 1, the others 5. -/
def squareForbidden (i j : ℕ) : Bool := decide ((i, j) ∈ [(0, 2), (2, 0), (1, 3), (3, 1)])
def squareCosts (i j : ℕ) : ℚ := if (i, j) ∈ [(0, 1), (1, 0), (2, 3), (3, 2)] then 1 else if (i, j) = (1, 2) then 4 else 5
/-- Two edges leave every set of nodes.  The relaxed round selects the two pairs. -/
example : ∃ inp a, tspInputs true (1 / 2) 4 ⟨4, 4, forbid squareForbidden squareCosts⟩ forbidEdges = some (inp, a) ∧
    ((∃ st q, tspSolve (tspSetup inp 20 true true (fin (-1 / 10000)) 5 10 someOrder) 12 (tspStart inp a) = some (some st) ∧ st.cost = fin q ∧
      ∀ c ∈ st.selected, squareForbidden c.1 c.2 = false) ∨
    tspSolve (tspSetup inp 20 true true (fin (-1 / 10000)) 5 10 someOrder) 12 (tspStart inp a) = some none) := by
  obtain ⟨inp, a, h1, h2⟩ := C84_all_rounds_partial (flag := true) (alpha := 1 / 2) (θ := -1 / 10000) (m := ⟨4, 4, forbid squareForbidden squareCosts⟩) rfl rfl
    (fun _ _ _ _ _ => rfl) forbidEdges_all (by norm_num) (C84_two_leave_partial.mpr (by decide)) 20 true true 5 (maxAugm := 10) (by norm_num) (fuel := 12)
    (by norm_num) someOrder_ok
  refine ⟨inp, a, h1, ?_⟩
  rcases h2 with ⟨st, q, s1, -, -, s2, s3, -⟩ | ⟨s1, -⟩
  · exact Or.inl ⟨st, q, s1, s3, fun c hc => (s2 c hc).2⟩
  · exact Or.inr s1
example : (solveMatrix true (1 / 2) 4 5 true true (-1 / 10000) 5 10 someOrder 12 forbidEdges (forbid squareForbidden squareCosts)).map
    (Option.map fun (st : TspState) => (st.numAugm, st.an.tour, st.cost)) = some (some (1, [1, 2, 3, 0, 1], fin 11)) := by decide +kernel

end Verif.Properties
