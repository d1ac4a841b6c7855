import Verif.Proofs.TspOut

/-! # C21, C22: the results of the TSP solver in Python -/

namespace Verif.Properties
open Verif Num Spec Model

/-! ## C21 -/

/-- C21, the full claim: whatever a run returns fits the buffers allocated by the caller. -/
def C21_claim : Prop :=
  ∀ (inp : TspInputs) (w : ℕ → ℚ) (cc C x0 : ℕ → ℕ → ℚ) (e2d : Mat Num) (numIter maxCount fuel : ℕ) (reset augmentation : Bool)
    (thr : Num) (maxAugm : ℤ) (order : ℕ → List (ℕ × ℕ) → List ℕ) (st' : TspState), TspOk inp w cc →
    inp.costMatrix.Is inp.numNodes inp.numNodes C → 3 ≤ inp.numNodes → inp.numEdges = inp.numNodes * inp.numNodes - inp.numNodes →
    Complete inp.numNodes inp.edges → inp.edges.Nodup → (∀ k sel, StartOrder sel (order k sel)) →
    e2d.Is inp.numEdges inp.numNodes x0 → 1 ≤ maxAugm →
    tspSolve (tspSetup inp numIter reset augmentation thr maxCount maxAugm order) fuel (tspStart inp e2d) = some (some st') →
    (processOutputs inp.numEdges st' (newBuffers inp.numNodes)).isSome

section
variable {c : TspSetup} {st st' : TspState} {fuel : ℕ}

/-- C21, what holds.  The extrinsic outputs, the tour and the subtour sizes always fit.  Everything fits exactly if twice the
number of selected edges is at most `n (n - 1) / 2` and the subtours have at most `n ^ 2` nodes in total. -/
theorem C21_fits_iff_partial (ho : ∀ k sel, StartOrder sel (c.order k sel))
    (hE : c.numEdges = c.numNodes * c.numNodes - c.numNodes) (hlen : c.edges.length = c.numEdges) (hs : NewState st) (hm : 1 ≤ c.maxAugm)
    (h : tspSolve c fuel st = some (some st')) (hext : st'.ext.size = c.numEdges) :
    st'.an.tour.length ≤ (newBuffers c.numNodes).tour.length ∧ st'.an.closedPathsSize.length ≤ (newBuffers c.numNodes).sizes.length ∧
    ((processOutputs c.numEdges st' (newBuffers c.numNodes)).isSome ↔
      2 * st'.selected.length ≤ Nat.choose c.numNodes 2 ∧ st'.an.subtourPaths.flatten.length ≤ c.numNodes ^ 2) := by
  obtain ⟨intr, s, order, o1, o2, o3, o4, o5⟩ := Proofs.solve_last ho hs hm h
  obtain ⟨loops, l1, l2, l3, l4, l5⟩ := Proofs.analyse_last o1 o2 o3 o5
  have hsub := Proofs.hardDecision_sublist o4
  have t1 : st'.an.tour.length ≤ (newBuffers c.numNodes).tour.length := by
    simp only [newBuffers, List.length_replicate]
    rcases l5 with ⟨-, -, l, -, hl, ht⟩ | ⟨-, -, ht⟩
    · rw [ht, List.length_append, hl]
      have : (l.take 1).length ≤ 1 := by simp
      omega
    · rw [ht]; simp
  have t2 : st'.an.closedPathsSize.length ≤ (newBuffers c.numNodes).sizes.length := by
    simp only [newBuffers, List.length_replicate]
    have : st'.an.closedPathsSize.length ≤ loops.length := by
      rcases l5 with ⟨-, hl, -⟩ | ⟨-, hl, -⟩ <;> rw [hl] <;> simp
    have := Proofs.getClosedLoops_length o1 l1
    have := hsub.length_le
    omega
  refine ⟨t1, t2, ?_⟩
  rw [Proofs.processOutputs_isSome (by omega) (by simp [newBuffers, hE])]
  simp only [newBuffers, List.length_replicate] at t1 t2 ⊢
  rw [pow_two]
  tauto

/-- C21, a usable case: five or more nodes and no node with two outgoing selected edges. -/
theorem C21_fits_partial (ho : ∀ k sel, StartOrder sel (c.order k sel)) (hedges : EdgesOk c.numNodes c.edges) (hnd : c.edges.Nodup)
    (hE : c.numEdges = c.numNodes * c.numNodes - c.numNodes) (hlen : c.edges.length = c.numEdges) (hs : NewState st) (hm : 1 ≤ c.maxAugm)
    (h : tspSolve c fuel st = some (some st')) (hext : st'.ext.size = c.numEdges) (hn : 5 ≤ c.numNodes)
    (hone : ∀ u v w, Joined st'.selected u v → Joined st'.selected u w → v = w) :
    (processOutputs c.numEdges st' (newBuffers c.numNodes)).isSome := by
  rw [(C21_fits_iff_partial ho hE hlen hs hm h hext).2.2]
  obtain ⟨intr, s, order, o1, o2, o3, o4, o5⟩ := Proofs.solve_last ho hs hm h
  obtain ⟨loops, l1, l2, l3, l4, l5⟩ := Proofs.analyse_last o1 o2 o3 o5
  have hsub := Proofs.hardDecision_sublist o4
  have hin : ∀ p ∈ st'.selected, p.1 < c.numNodes ∧ p.2 < c.numNodes := fun p hp =>
    ⟨(hedges p (hsub.subset hp)).1, (hedges p (hsub.subset hp)).2.1⟩
  constructor
  · have hinj : (st'.selected.map Prod.fst).Nodup := by
      refine List.Nodup.map_on ?_ (hsub.nodup hnd)
      intro x hx y hy hxy
      exact Prod.ext hxy (hone x.1 x.2 y.2 hx (by rw [hxy]; exact hy))
    have : (st'.selected.map Prod.fst).length ≤ c.numNodes := by
      have hss : st'.selected.map Prod.fst ⊆ List.range c.numNodes := by
        intro x hx
        obtain ⟨p, hp, rfl⟩ := List.mem_map.mp hx
        exact List.mem_range.mpr (hin p hp).1
      simpa using (hinj.subperm hss).length_le
    rw [List.length_map] at this
    rw [Nat.choose_two_right, Nat.le_div_iff_mul_le (by norm_num)]
    calc 2 * st'.selected.length * 2 ≤ c.numNodes * 4 := by omega
      _ ≤ c.numNodes * (c.numNodes - 1) := Nat.mul_le_mul_left _ (by omega)
  · rw [l2]
    have := Proofs.loops_disjoint hin hone l3 l4
    nlinarith

/-- C21 fails for every small tour: with three or four nodes a reported tour never fits, the selected edges are written past
the end of their buffer. -/
theorem C21_small_overflow (ho : ∀ k sel, StartOrder sel (c.order k sel)) (hedges : EdgesOk c.numNodes c.edges) (hs : NewState st)
    (hm : 1 ≤ c.maxAugm) (h : tspSolve c fuel st = some (some st')) (hn : 2 ≤ c.numNodes) (hn4 : c.numNodes ≤ 4)
    (ht : st'.an.tourFlag = true) : processOutputs c.numEdges st' (newBuffers c.numNodes) = none := by
  have htour := (C20_tour ho hedges hs hm h).1 ht
  have hsel : c.numNodes ≤ st'.selected.length := by
    have hsub : ∀ p ∈ st'.an.tour.zip st'.an.tour.tail, p ∈ st'.selected := fun p hp => (Proofs.isTour_steps htour).2.2 p hp
    have hnd : (st'.an.tour.zip st'.an.tour.tail).Nodup := (Proofs.isTour_steps htour).2.1
    have hl : (st'.an.tour.zip st'.an.tour.tail).length = c.numNodes := (Proofs.isTour_steps htour).1
    rw [← hl]
    exact (hnd.subperm hsub).length_le
  cases hp : processOutputs c.numEdges st' (newBuffers c.numNodes) with
  | none => rfl
  | some b =>
    exfalso
    unfold processOutputs at hp
    simp only [Option.bind_eq_bind, Option.bind_eq_some_iff] at hp
    obtain ⟨_, -, _, -, sel, hsel', -⟩ := hp
    have : (putList (newBuffers c.numNodes).selected (st'.selected.flatMap (fun c => [c.1, c.2]))).isSome := by rw [hsel']; rfl
    rw [Proofs.putList_isSome, Proofs.flatMap_pair_length] at this
    simp only [newBuffers, List.length_replicate] at this
    have hch : Nat.choose c.numNodes 2 < 2 * c.numNodes := by
      interval_cases c.numNodes <;> decide
    omega
end

theorem c21_overflow : ((tspSolve (tspSetup c12Inputs 2 true true (fin (-1 / 10000)) 1 5 someOrder) 6
    (tspStart c12Inputs c12Inputs.degCost)).bind id).map (fun st => (processOutputs 6 st (newBuffers 3)).isSome) = some false := by
  decide +kernel

/-- C21 as claimed is false: on three nodes the tour `1 → 2 → 0 → 1` is found, its three edges need six numbers and the buffer
has three. -/
theorem C21_claim_false : ¬ C21_claim := by
  intro h
  have h0 := c21_overflow
  cases hr : tspSolve (tspSetup c12Inputs 2 true true (fin (-1 / 10000)) 1 5 someOrder) 6 (tspStart c12Inputs c12Inputs.degCost) with
  | none => rw [hr] at h0; simp at h0
  | some r =>
    cases r with
    | none => rw [hr] at h0; simp at h0
    | some st' =>
      rw [hr] at h0
      have := h c12Inputs (fun e => if e = 0 ∨ e = 3 ∨ e = 4 then 1 else 2) (fun e _ => if e = 0 ∨ e = 3 ∨ e = 4 then 1 else 2)
        (fun u v => if u = v then 0 else if v = (u + 1) % 3 then 1 else 2) (fun e _ => if e = 0 ∨ e = 3 ∨ e = 4 then 1 else 2)
        c12Inputs.degCost 2 1 6 true true (fin (-1 / 10000)) 5 someOrder st'
        ⟨by unfold EdgesOk; decide, rfl, by unfold TwoWays; decide, ⟨rfl, by decide +kernel⟩, ⟨rfl, rfl, fun _ _ _ _ => rfl⟩⟩
        ⟨rfl, rfl, by decide +kernel⟩ (by decide) rfl
        (by
          unfold Complete
          intro u hu v hv
          simp only [c12Inputs] at hu hv
          interval_cases u <;> interval_cases v <;> decide)
        (by decide) someOrder_ok ⟨rfl, rfl, fun _ _ _ _ => rfl⟩ (by norm_num) hr
      have e : (processOutputs 6 st' (newBuffers 3)).isSome = true := this
      simp [e] at h0

/-! ## C22 -/

section
variable {c : TspSetup} {st st' : TspState} {fuel : ℕ}

/-- C22.  If the results fit the buffers, what Python reads is what the solver produced: the selected edges; the tour, which
is `None` exactly if no tour was found; the subtours of the last round, each closed by repeating its first node, or `None` if
a tour was found or there is no subtour; the counters, flags and cost; and the beliefs (extrinsic output plus cost). -/
theorem C22_decoded (ho : ∀ k sel, StartOrder sel (c.order k sel)) (hedges : EdgesOk c.numNodes c.edges)
    (hE : c.numEdges = c.numNodes * c.numNodes - c.numNodes) (hn : 2 ≤ c.numNodes) (hs : NewState st)
    (hm : 1 ≤ c.maxAugm) (h : tspSolve c fuel st = some (some st')) (hext : st'.ext.size = c.numEdges) {costs : List Num}
    (hcosts : costs.length = c.numEdges) {b : TspBuffers} (hb : processOutputs c.numEdges st' (newBuffers c.numNodes) = some b) :
    ∃ r, processOutputsPy c.augmentation costs b = some r ∧ r.selected = st'.selected ∧
      (∀ t, r.tour = some t ↔ st'.an.tourFlag = true ∧ t = st'.an.tour) ∧
      (∀ ls, r.subtours = some ls ↔ st'.an.tourFlag = false ∧ st'.an.subtourPaths ≠ [] ∧
        ls = st'.an.subtourPaths.map (fun l => l ++ l.take 1)) ∧
      r.numAugm = st'.numAugm ∧ r.numAdded = (if c.augmentation then st'.msgs.s2e.rows else 0) ∧ r.cost = st'.cost ∧
      r.noImprov = st'.noImprovFlag ∧ r.noCons = st'.an.noConsFlag ∧ r.solOsc = st'.solOscFlag ∧
      r.intrinsic = List.zipWith (· + ·) ((List.range c.numEdges).map st'.ext.data) costs := by
  obtain ⟨intr, s, order, o1, o2, o3, o4, o5⟩ := Proofs.solve_last ho hs hm h
  obtain ⟨loops, l1, l2, l3, l4, l5⟩ := Proofs.analyse_last o1 o2 o3 o5
  have hne : ∀ l ∈ loops, l ≠ [] := fun l hl => by obtain ⟨_, _, hp, -⟩ := l3 l hl; exact hp.ne_nil
  have htour := C20_tour ho hedges hs hm h
  unfold processOutputs at hb
  rw [if_pos (by omega)] at hb
  simp only [Option.bind_eq_bind, Option.bind_eq_some_iff, Option.some.injEq] at hb
  obtain ⟨ext, e1, tour, e2, sel, e3, sub, e4, sizes, e5, rfl⟩ := hb
  have put : ∀ {α : Type} {buf l r : List α}, putList buf l = some r → r = l ++ buf.drop l.length := by
    intro α buf l r h
    unfold putList at h
    split at h
    · simpa using h.symm
    · simp at h
  have x1 := put e1; have x2 := put e2; have x3 := put e3; have x4 := put e4; have x5 := put e5
  have hxlen : ext = (List.range c.numEdges).map st'.ext.data := by
    rw [x1, hE]; simp [newBuffers]
  have hsel : pairUp (sel.take (st'.selected.flatMap (fun c => [c.1, c.2])).length) = some st'.selected := by
    rw [x3, List.take_left, Proofs.pairUp_flat]
  unfold processOutputsPy
  simp only [hsel, Option.bind_eq_bind, Option.bind_some]
  rw [if_pos (by rw [hxlen, hcosts]; simp)]
  simp only [Option.bind_some]
  refine ⟨_, rfl, rfl, fun t => ?_, fun ls => ?_, rfl, rfl, rfl, rfl, rfl, rfl, by rw [hxlen]⟩
  · show (if tour.all (· == 0) then none else some tour) = some t ↔ _
    by_cases hf : st'.an.tourFlag = true
    · have ht := htour.1 hf
      have htl : tour = st'.an.tour := by
        rw [x2, ht.length]; simp [newBuffers]
      have h1 : 1 ∈ tour := by rw [htl]; exact (ht.all 1).mpr (by omega)
      have hz : ¬ tour.all (· == 0) = true := by
        rw [List.all_eq_true]; intro hz; simpa using hz 1 h1
      rw [if_neg hz, htl]
      constructor
      · intro h; exact ⟨hf, by simpa using h.symm⟩
      · rintro ⟨-, rfl⟩; rfl
    · rw [Bool.not_eq_true] at hf
      have ht := htour.2 hf
      have hz : tour.all (· == 0) = true := by
        rw [x2, ht, List.all_eq_true]
        intro x hx
        simp only [List.nil_append, List.length_nil, List.drop_zero, newBuffers] at hx
        rw [List.eq_of_mem_replicate hx]; rfl
      rw [if_pos hz, hf]; simp
  · show (cutSubtours sizes sub).map _ = some ls ↔ _
    have hfil : sizes.filter (· ≠ 0) = st'.an.closedPathsSize := by
      rw [x5, List.filter_append]
      have z2 : ((newBuffers c.numNodes).sizes.drop st'.an.closedPathsSize.length).filter (· ≠ 0) = [] := by
        rw [List.filter_eq_nil_iff]
        intro x hx
        have := List.eq_of_mem_replicate (List.mem_of_mem_drop hx)
        simp [this]
      have z1 : st'.an.closedPathsSize.filter (· ≠ 0) = st'.an.closedPathsSize := by
        rw [List.filter_eq_self]
        intro x hx
        rcases l5 with ⟨-, h5, -⟩ | ⟨-, h5, -⟩
        · rw [h5] at hx; simp at hx
        · rw [h5] at hx
          obtain ⟨l, hl, rfl⟩ := List.mem_map.mp hx
          have := List.length_pos_of_ne_nil (hne l hl)
          simp; exact hne l hl
      rw [z1, z2, List.append_nil]
    unfold cutSubtours
    rw [hfil]
    rcases l5 with ⟨hf, h5, -⟩ | ⟨hf, h5, -⟩
    · rw [h5, hf]; simp
    · rw [h5, hf, l2]
      simp only [List.length_map]
      by_cases hl : loops = []
      · subst hl; simp
      · have hpos : loops.length ≠ 0 := by simpa using hl
        rw [if_pos hpos]
        have hp : (List.range loops.length).map (fun i => ((sub.take (loops.map List.length).sum).take
            ((loops.map List.length).take (i + 1)).sum).drop ((loops.map List.length).take i).sum) = loops := by
          rw [x4, l2]; exact Proofs.pieces loops _
        rw [hp]
        have hfl : loops.filter (· ≠ []) = loops := by
          rw [List.filter_eq_self]; intro l hl; simpa using hne l hl
        simp only [Option.map_some, hfl]
        constructor
        · intro h; exact ⟨trivial, hl, by simpa using h.symm⟩
        · rintro ⟨-, -, rfl⟩; rfl

/-- C22 together with C16 and C17: in Python, a tour is a Hamiltonian cycle of the selected edges, and each listed subtour
is a closed walk along selected edges. -/
theorem C22_meaning (ho : ∀ k sel, StartOrder sel (c.order k sel)) (hedges : EdgesOk c.numNodes c.edges)
    (hE : c.numEdges = c.numNodes * c.numNodes - c.numNodes) (hn : 2 ≤ c.numNodes) (hs : NewState st)
    (hm : 1 ≤ c.maxAugm) (h : tspSolve c fuel st = some (some st')) (hext : st'.ext.size = c.numEdges) {costs : List Num}
    (hcosts : costs.length = c.numEdges) {b : TspBuffers} (hb : processOutputs c.numEdges st' (newBuffers c.numNodes) = some b)
    {r : TspResult} (hr : processOutputsPy c.augmentation costs b = some r) :
    (∀ t, r.tour = some t → IsTour (Joined r.selected) c.numNodes t) ∧
    ∀ ls, r.subtours = some ls → ls ≠ [] ∧ ∀ p ∈ ls, p.head? = p.getLast? ∧ p.IsChain (Joined r.selected) ∧ p.tail.Nodup ∧ 2 ≤ p.length := by
  obtain ⟨r', h1, h2, h3, h4, -⟩ := C22_decoded ho hedges hE hn hs hm h hext hcosts hb
  obtain rfl : r = r' := by rw [hr] at h1; simpa using h1
  rw [h2]
  refine ⟨fun t ht => ?_, fun ls hls => ?_⟩
  · obtain ⟨a, rfl⟩ := (h3 t).mp ht
    exact (C20_tour ho hedges hs hm h).1 a
  · obtain ⟨-, a, rfl⟩ := (h4 ls).mp hls
    refine ⟨by simpa using a, fun p hp => ?_⟩
    obtain ⟨l, hl, rfl⟩ := List.mem_map.mp hp
    obtain ⟨intr, s, order, o1, o2, o3, o4, o5⟩ := Proofs.solve_last ho hs hm h
    obtain ⟨loops, l1, l2, l3, l4, l5⟩ := Proofs.analyse_last o1 o2 o3 o5
    rw [l2] at hl
    obtain ⟨u, v, hp, hJ⟩ := l3 l hl
    obtain ⟨q, rfl⟩ := hp.eq_cons
    have e : (u :: q) ++ (u :: q).take 1 = u :: q ++ [u] := rfl
    rw [e]
    refine ⟨by simp [List.getLast?_cons], ?_, ?_, by simp⟩
    · rw [List.isChain_append]
      refine ⟨hp.2.2.1, by simp, ?_⟩
      intro x hx y hy
      rw [hp.2.1] at hx
      simp only [Option.mem_def, Option.some.injEq, List.head?_cons] at hx hy
      rw [← hx, ← hy]; exact hJ
    · show (q ++ [u]).Nodup
      exact (List.perm_append_singleton u q).nodup_iff.mpr hp.2.2.2
end

/-- Decoding two subtours of different sizes and four selected edges on six nodes. -/
example : (processOutputsPy true (List.replicate 30 (fin 1))
    { newBuffers 6 with selected := [0, 1, 1, 0, 2, 3, 3, 4, 4, 2, 0, 0, 0, 0, 0], selectedSize := 10, numAdded := 2,
                        subtours := [0, 1, 3, 4, 2] ++ List.replicate 31 0, sizes := [2, 3] ++ List.replicate 34 0 }).map
      (fun r => (r.selected, r.subtours, r.tour, r.numAdded)) =
    some ([(0, 1), (1, 0), (2, 3), (3, 4), (4, 2)], some [[0, 1, 0], [3, 4, 2, 3]], none, 2) := by decide +kernel

end Verif.Properties
