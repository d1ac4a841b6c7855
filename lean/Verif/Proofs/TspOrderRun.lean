import Verif.Proofs.TspOrder
import Verif.Proofs.PyTspLoop
import Verif.Properties.TspSolve

/-! Helper lemmas for C61: two runs of the solver with different orders of the hash maps. -/

namespace Verif.Proofs
open Verif Num Spec Model

theorem asCycle_eq {l l' : List ℕ} : asCycle l = asCycle l' ↔ l ~r l' := Cycle.coe_eq_coe

theorem cyclesApart_of_out {sel : List (ℕ × ℕ)} (hE : ∀ u v w, Joined sel u v → Joined sel u w → v = w) : CyclesApart sel :=
  fun _ _ h h' _ hv hv' => cycle_rotated_of_mem hE h h' hv hv'

/-- With cycles apart the loops found do not depend on the order. -/
theorem loops_apart {sel : List (ℕ × ℕ)} {order order' : List ℕ} (ho : StartOrder sel order) (ho' : StartOrder sel order')
    (ha : CyclesApart sel) {loops loops' : List (List ℕ)} (h : getClosedLoops sel order = some loops)
    (h' : getClosedLoops sel order' = some loops') :
    (loops.map asCycle).Perm (loops'.map asCycle) := by
  have nd : ∀ {order loops}, StartOrder sel order → getClosedLoops sel order = some loops → (loops.map asCycle).Nodup := by
    intro order loops ho h
    obtain ⟨l1, k1, -, k3, -⟩ := getClosedLoops_spec ho
    rw [h] at k1
    obtain rfl : loops = l1 := by simpa using k1
    exact List.Pairwise.map _ (fun a b hab => fun he => hab (asCycle_eq.mp he)) k3
  have sub : ∀ {order order' loops loops'}, StartOrder sel order → StartOrder sel order' → getClosedLoops sel order = some loops →
      getClosedLoops sel order' = some loops' → ∀ l ∈ loops, ∃ l' ∈ loops', l' ~r l := by
    intro order order' loops loops' ho ho' h h' l hl
    obtain ⟨l1, k1, k2, -⟩ := getClosedLoops_spec ho
    rw [h] at k1
    obtain rfl : loops = l1 := by simpa using k1
    obtain ⟨l2, j1, j2, -⟩ := getClosedLoops_spec ho'
    rw [h'] at j1
    obtain rfl : loops' = l2 := by simpa using j1
    obtain ⟨v, hv⟩ := List.exists_mem_of_ne_nil l (isCycle_ne (k2 l hl))
    obtain ⟨r, hr, hvr⟩ := (Properties.C17_nodes_covered ho' h' v).mp (isCycle_trans (k2 l hl) hv)
    exact ⟨r, hr, ha r l (j2 r hr) (k2 l hl) v hvr hv⟩
  refine (List.perm_ext_iff_of_nodup (nd ho h) (nd ho' h')).mpr fun q => ?_
  simp only [List.mem_map]
  constructor
  · rintro ⟨l, hl, rfl⟩
    obtain ⟨r, hr, hh⟩ := sub ho ho' h h' l hl
    exact ⟨r, hr, asCycle_eq.mpr hh⟩
  · rintro ⟨l, hl, rfl⟩
    obtain ⟨r, hr, hh⟩ := sub ho' ho h' h l hl
    exact ⟨r, hr, asCycle_eq.mpr hh⟩

/-- Analyses that agree up to order and rotation. -/
structure TwinAn (s s' : TspAnalysis) : Prop where
  loops : (s.subtourPaths.map asCycle).Perm (s'.subtourPaths.map asCycle)
  sizes : s.closedPathsSize.Perm s'.closedPathsSize
  cuts : ∀ d, d ∈ s.deltas ↔ d ∈ s'.deltas
  nodup : s.deltas.Nodup ∧ s'.deltas.Nodup
  count : s.noConsCount = s'.noConsCount
  noCons : s.noConsFlag = s'.noConsFlag
  tourFlag : s.tourFlag = s'.tourFlag
  satisfied : s.satisfied = s'.satisfied
  tour : asCycle s.tour.tail = asCycle s'.tour.tail

theorem leavingEdges_congr (edges : List (ℕ × ℕ)) {l l' : List ℕ} (h : ∀ v, v ∈ l ↔ v ∈ l') : leavingEdges edges l = leavingEdges edges l' := by
  unfold leavingEdges
  refine List.filter_congr fun i _ => ?_
  cases edges[i]? with
  | none => rfl
  | some c => simp only [h]

theorem addDelta_mem (edges : List (ℕ × ℕ)) (loops ds : List (List ℕ)) (d : List ℕ) :
    d ∈ loops.foldl (fun ds l => addDelta (leavingEdges edges l) ds) ds ↔ d ∈ ds ∨ d ≠ [] ∧ ∃ l ∈ loops, d = leavingEdges edges l := by
  obtain ⟨d1, -, d3, d4⟩ := addDelta_foldl edges loops ds
  constructor
  · intro hd
    rcases d3 d hd with h | ⟨h, l, hl, hc⟩
    · exact Or.inl h
    · exact Or.inr ⟨h, l, hl, isCut_unique hc (leavingEdges_isCut edges l)⟩
  · rintro (h | ⟨h, l, hl, rfl⟩)
    · exact d1.subset h
    · rcases d4 l hl with h0 | h0
      · exact absurd h0 h
      · exact h0

theorem analyseLoops_twin {n mc : ℕ} {edges : List (ℕ × ℕ)} {loops loops' : List (List ℕ)} {s s' : TspAnalysis}
    (hp : (loops.map asCycle).Perm (loops'.map asCycle)) (hs : TwinAn s s') :
    TwinAn (analyseLoops n mc edges loops s) (analyseLoops n mc edges loops' s') := by
  have hlen : loops.length = loops'.length := by simpa using hp.length_eq
  have hsz : (loops.map List.length).Perm (loops'.map List.length) := by
    have := hp.map Cycle.length
    rw [List.map_map, List.map_map] at this
    exact this
  match loops, loops', hp, hlen, hsz with
  | [], [], hp, _, _ =>
    simp only [analyseLoops, hs.count]
    split
    · exact ⟨hp, List.Perm.nil, hs.cuts, hs.nodup, rfl, rfl, hs.tourFlag, hs.satisfied, hs.tour⟩
    · exact ⟨hp, List.Perm.nil, hs.cuts, hs.nodup, rfl, hs.noCons, hs.tourFlag, hs.satisfied, hs.tour⟩
  | l :: rest, l' :: rest', hp, hlen, hsz =>
    have hiff : (rest = [] ∧ l.length = n) ↔ (rest' = [] ∧ l'.length = n) := by
      have h0 : rest = [] ↔ rest' = [] := by
        rw [← List.length_eq_zero_iff, ← List.length_eq_zero_iff]
        simp only [List.length_cons] at hlen; omega
      constructor
      · rintro ⟨rfl, h⟩
        obtain rfl := h0.mp rfl
        refine ⟨rfl, ?_⟩
        have : l.length = l'.length := by simpa using hsz
        omega
      · rintro ⟨rfl, h⟩
        obtain rfl := h0.mpr rfl
        refine ⟨rfl, ?_⟩
        have : l.length = l'.length := by simpa using hsz
        omega
    by_cases hc : rest = [] ∧ l.length = n
    · simp only [analyseLoops, if_pos hc, if_pos (hiff.mp hc)]
      refine ⟨hp, List.Perm.nil, hs.cuts, hs.nodup, hs.count, hs.noCons, rfl, rfl, ?_⟩
      obtain rfl := hc.1
      obtain rfl := (hiff.mp hc).1
      have hr : l ~r l' := by simpa [asCycle_eq] using hp
      have tl : ∀ l : List ℕ, (l ++ l.take 1).tail ~r l := by
        intro l
        cases l with
        | nil => exact List.IsRotated.refl _
        | cons a q =>
          simp only [List.take_succ_cons, List.take_zero, List.cons_append, List.tail_cons]
          exact (List.isRotated_append (l := [a]) (l' := q)).symm
      exact asCycle_eq.mpr ((tl l).trans (hr.trans (tl l').symm))
    · simp only [analyseLoops, if_neg hc, if_neg (mt hiff.mpr hc), analyseLoops_foldl]
      refine ⟨hp, by simpa using hsz, fun d => ?_, ?_, rfl, hs.noCons, hs.tourFlag, hs.satisfied, hs.tour⟩
      · rw [addDelta_mem, addDelta_mem, hs.cuts d]
        refine or_congr Iff.rfl (and_congr Iff.rfl ?_)
        have rot : ∀ {A B : List (List ℕ)}, (A.map asCycle).Perm (B.map asCycle) → ∀ x ∈ A, ∃ y ∈ B, y ~r x := by
          intro A B h x hx
          have := h.subset (List.mem_map.mpr ⟨x, hx, rfl⟩)
          obtain ⟨y, hy, e⟩ := List.mem_map.mp this
          exact ⟨y, hy, asCycle_eq.mp e⟩
        constructor
        · rintro ⟨x, hx, rfl⟩
          obtain ⟨y, hy, hr⟩ := rot hp x hx
          exact ⟨y, hy, leavingEdges_congr edges fun v => hr.symm.mem_iff⟩
        · rintro ⟨x, hx, rfl⟩
          obtain ⟨y, hy, hr⟩ := rot hp.symm x hx
          exact ⟨y, hy, leavingEdges_congr edges fun v => hr.symm.mem_iff⟩
      · exact ⟨(addDelta_foldl edges _ _).2.1 hs.nodup.1, (addDelta_foldl edges _ _).2.1 hs.nodup.2⟩

theorem analyse_twin {n mc : ℕ} {edges sel : List (ℕ × ℕ)} {order order' : List ℕ} (ho : StartOrder sel order) (ho' : StartOrder sel order')
    (ha : CyclesApart sel) {s s' t t' : TspAnalysis} (hs : TwinAn s s') (h : analyse n mc edges sel order s = some t)
    (h' : analyse n mc edges sel order' s' = some t') : TwinAn t t' := by
  obtain ⟨loops, k1, -⟩ := getClosedLoops_spec ho
  obtain ⟨loops', k1', -⟩ := getClosedLoops_spec ho'
  simp only [analyse, k1, k1', Option.bind_eq_bind, Option.bind_some, Option.some.injEq] at h h'
  subst h; subst h'
  exact analyseLoops_twin (loops_apart ho ho' ha k1 k1') hs

theorem twinAn_empty : TwinAn {} {} :=
  ⟨List.Perm.refl _, List.Perm.refl _, fun _ => Iff.rfl, ⟨List.nodup_nil, List.nodup_nil⟩, rfl, rfl, rfl, rfl, rfl⟩

/-- States that agree up to order and rotation, and message tables. -/
structure Twin (st st' : TspState) : Prop where
  an : TwinAn st.an st'.an
  cost : st.cost = st'.cost
  selected : st.selected = st'.selected
  old : st.old = st'.old
  oldOld : st.oldOld = st'.oldOld
  numAugm : st.numAugm = st'.numAugm
  c1 : st.noImprovCount = st'.noImprovCount
  f1 : st.noImprovFlag = st'.noImprovFlag
  c2 : st.solOscCount = st'.solOscCount
  f2 : st.solOscFlag = st'.solOscFlag

theorem Twin.symm {st st' : TspState} (h : Twin st st') : Twin st' st :=
  ⟨⟨h.an.loops.symm, h.an.sizes.symm, fun d => (h.an.cuts d).symm, h.an.nodup.symm, h.an.count.symm, h.an.noCons.symm, h.an.tourFlag.symm,
    h.an.satisfied.symm, h.an.tour.symm⟩, h.cost.symm, h.selected.symm, h.old.symm, h.oldOld.symm, h.numAugm.symm, h.c1.symm, h.f1.symm, h.c2.symm,
    h.f2.symm⟩

theorem Twin.msgs {st st' : TspState} (h : Twin st st') (m m' : TspMsgs) : Twin { st with msgs := m } { st' with msgs := m' } :=
  ⟨h.an, h.cost, h.selected, h.old, h.oldOld, h.numAugm, h.c1, h.f1, h.c2, h.f2⟩

section
variable {inp : TspInputs} {w : ℕ → ℚ} {cc C x0 : ℕ → ℕ → ℚ} {numIter : ℕ} {reset augmentation : Bool} {thr : Num}
  {maxCount : ℕ} {maxAugm : ℤ} {order order' : ℕ → List (ℕ × ℕ) → List ℕ}

theorem iterateAugmented_twin (ho : ∀ k sel, StartOrder sel (order k sel)) (ho' : ∀ k sel, StartOrder sel (order' k sel)) {st st' t t' : TspState}
    (hs : Twin st st') (h : iterateAugmented (tspSetup inp numIter reset augmentation thr maxCount maxAugm order) st = some t)
    (h' : iterateAugmented (tspSetup inp numIter reset augmentation thr maxCount maxAugm order') st' = some t') (hsel : t.selected = t'.selected)
    (hcost : t.cost = t'.cost) (ha : CyclesApart t.selected) : Twin t t' := by
  obtain ⟨_, -, -, -, a1, a2, a3, a4, a5, a6, a7, a8⟩ := iterateAugmented_facts h
  obtain ⟨_, -, -, -, b1, b2, b3, b4, b5, b6, b7, b8⟩ := iterateAugmented_facts h'
  simp only [tspSetup] at a1 b1 a6 b6 a8 b8
  rw [← hsel] at b1
  refine ⟨analyse_twin (ho _ _) (ho' _ _) ha hs.an a1 b1, hcost, hsel, by rw [a3, b3, hsel], ?_, by rw [a2, b2, hs.numAugm], ?_, ?_, ?_, ?_⟩
  · rw [a4, b4, hs.old, hs.oldOld]
  · rw [a5, b5, hs.old, hsel, hs.c1]
  · simp only [a6, b6, hs.f1, hs.old, hsel, hs.c1]; congr
  · rw [a7, b7, hs.oldOld, hs.old, hsel, hs.c2]
  · simp only [a8, b8, hs.f2, hs.oldOld, hs.old, hsel, hs.c2]; congr

/-- How a call comes about. -/
structure SolveRun (c : TspSetup) (st : TspState) (o : Option TspState) (st1 : TspState) (f : ℕ → TspState) (k : ℕ) : Prop where
  relaxed : iterateRelaxed c st = some st1
  f0 : ∃ m, f 0 = { st1 with msgs := m }
  rows : 0 < k → f 0 = addFirstRows st1
  run : AugRun c f k
  num : ∀ i ≤ k, (f i).numAugm = i
  limit : (k : ℤ) ≤ c.maxAugm
  aug : 0 < k → c.augmentation = true
  fin : (o = some (f k) ∧ StopReason c (f k)) ∨ (o = none ∧ (f k).cost = 0 ∧
        (f k).an.tourFlag = false ∧ (f k).an.satisfied = false ∧ (f k).an.noConsFlag = false ∧ (f k).noImprovFlag = false ∧
        (f k).solOscFlag = false ∧ c.augmentation = true ∧ (0 < k → ((f k).numAugm : ℤ) ≠ c.maxAugm))

theorem augRun_num {c : TspSetup} {f : ℕ → TspState} {k : ℕ} (hr : AugRun c f k) (h0 : (f 0).numAugm = 0) : ∀ i ≤ k, (f i).numAugm = i := by
  intro i
  induction i with
  | zero => intro _; exact h0
  | succ i ih =>
    intro hi
    obtain ⟨t, t1, t2⟩ := hr.round i (by omega)
    obtain ⟨_, -, -, -, -, hn, -⟩ := iterateAugmented_facts t1
    rw [ih (by omega)] at hn
    rcases t2 with ⟨a, -, b⟩ | ⟨-, b⟩
    · rw [a, b, hn]; exact a
    · obtain ⟨-, m, hm⟩ := addMissingRows_facts b
      rw [hm]; exact hn

theorem solve_run (h : TspOk inp w cc) (hC : inp.costMatrix.Is inp.numNodes inp.numNodes C) (hn : 3 ≤ inp.numNodes)
    (hcomp : Complete inp.numNodes inp.edges) (ho : ∀ k sel, StartOrder sel (order k sel)) {e2d : Mat Num}
    (he : e2d.Is inp.numEdges inp.numNodes x0) (hm : 1 ≤ maxAugm) {fuel : ℕ} {o : Option TspState}
    (hs : tspSolve (tspSetup inp numIter reset augmentation thr maxCount maxAugm order) fuel (tspStart inp e2d) = some o) :
    ∃ st1 f k, SolveRun (tspSetup inp numIter reset augmentation thr maxCount maxAugm order) (tspStart inp e2d) o st1 f k := by
  obtain ⟨st1, r1, r2, r3, r4, r5⟩ := relaxed_total (numIter := numIter) (reset := reset) (augmentation := augmentation)
    (thr := thr) (maxCount := maxCount) (maxAugm := maxAugm) h hn hcomp ho he
  have hnum0 : st1.numAugm = 0 := by
    obtain ⟨m1, ext, intr, sel, total, an, -, -, -, rfl⟩ := iterateRelaxed_facts r1
    rfl
  unfold tspSolve at hs
  rw [r1] at hs
  simp only at hs
  by_cases hgo : (!st1.an.satisfied && (tspSetup inp numIter reset augmentation thr maxCount maxAugm order).augmentation) = true
  · rw [if_pos hgo] at hs
    unfold performAugmentation at hs
    have haug : augmentation = true := by simpa [tspSetup] using (Bool.and_eq_true _ _ ▸ hgo).2
    have inv0 : SolverInv inp (addFirstRows st1) := by
      unfold addFirstRows
      split
      · exact ⟨by simpa using tspAddCuts_ok r2 st1.an.deltas, r3, r4, r5⟩
      · have : st1.an.deltas = [] := List.eq_nil_of_length_eq_zero (by omega)
        exact ⟨by rw [this]; exact r2, r3, r4, r5⟩
    have hfirst : ∃ m, addFirstRows st1 = { st1 with msgs := m } := by
      unfold addFirstRows; split
      · exact ⟨_, rfl⟩
      · exact ⟨st1.msgs, rfl⟩
    have hz : (addFirstRows st1).numAugm = 0 := by
      obtain ⟨m, hm⟩ := hfirst
      rw [hm]; exact hnum0
    cases o with
    | some st' =>
      obtain ⟨k, f, f0, fk, hr, hstop⟩ := augmentLoop_run hs
      have hnum := augRun_num hr (by rw [f0]; exact hz)
      subst fk
      exact ⟨st1, f, k, r1, by rw [f0]; exact hfirst, fun _ => f0, hr, hnum, augRun_limit hr hnum hm, fun _ => haug, Or.inl ⟨rfl, hstop⟩⟩
    | none =>
      obtain ⟨k, f, f0, hr, hz', ht⟩ := augmentLoop_total h hC hn hcomp ho fuel inv0 hs
      have hnum := augRun_num hr (by rw [f0]; exact hz)
      exact ⟨st1, f, k, r1, by rw [f0]; exact hfirst, fun _ => f0, hr, hnum, augRun_limit hr hnum hm, fun _ => haug, Or.inr ⟨rfl, hz', ht⟩⟩
  · rw [if_neg hgo] at hs
    obtain rfl : some st1 = o := by simpa using hs
    refine ⟨st1, fun _ => st1, 0, r1, ⟨st1.msgs, rfl⟩, fun h => absurd h (lt_irrefl 0), augRun_zero st1, fun i hi => ?_, ?_, fun h => absurd h (lt_irrefl 0),
      Or.inl ⟨rfl, ?_⟩⟩
    · obtain rfl : i = 0 := by omega
      exact hnum0
    · show (0 : ℤ) ≤ maxAugm
      omega
    · simp only [Bool.and_eq_true, Bool.not_eq_true', not_and, Bool.not_eq_true] at hgo
      unfold StopReason
      cases h2 : st1.an.satisfied
      · exact Or.inr (Or.inr (Or.inl (hgo h2)))
      · exact Or.inr (Or.inl rfl)

/-- Rounds up to `k` of a call. -/
theorem augRun_le {c : TspSetup} {f : ℕ → TspState} {k m : ℕ} (hr : AugRun c f k) (hnum : ∀ i ≤ k, (f i).numAugm = i) (hm : m < k)
    (hlim : (k : ℤ) ≤ c.maxAugm) : AugRun c f m := by
  refine ⟨fun i hi => hr.going i (by omega), fun i hi => ?_⟩
  obtain ⟨t, t1, t2⟩ := hr.round i (by omega)
  rcases t2 with ⟨a, -⟩ | b
  · omega
  · exact ⟨t, t1, Or.inr b⟩

/-- As long as both runs go on, they go the same way. -/
theorem runs_twin (h : TspOk inp w cc) (hC : inp.costMatrix.Is inp.numNodes inp.numNodes C) (hn : 3 ≤ inp.numNodes)
    (hcomp : Complete inp.numNodes inp.edges) (ho : ∀ k sel, StartOrder sel (order k sel)) (ho' : ∀ k sel, StartOrder sel (order' k sel))
    {e2d : Mat Num} (he : e2d.Is inp.numEdges inp.numNodes x0) {st1 st1' : TspState} {f f' : ℕ → TspState} {k : ℕ}
    (h1 : iterateRelaxed (tspSetup inp numIter reset augmentation thr maxCount maxAugm order) (tspStart inp e2d) = some st1)
    (h1' : iterateRelaxed (tspSetup inp numIter reset augmentation thr maxCount maxAugm order') (tspStart inp e2d) = some st1')
    (f0 : ∃ m, f 0 = { st1 with msgs := m }) (f0' : ∃ m, f' 0 = { st1' with msgs := m })
    (hf : 0 < k → f 0 = addFirstRows st1) (hf' : 0 < k → f' 0 = addFirstRows st1')
    (hr : AugRun (tspSetup inp numIter reset augmentation thr maxCount maxAugm order) f k)
    (hr' : AugRun (tspSetup inp numIter reset augmentation thr maxCount maxAugm order') f' k) (ha : ∀ i ≤ k, CyclesApart (f i).selected) :
    ∀ i ≤ k, Twin (f i) (f' i) ∧ SameArr inp.numEdges (f i).ext (f' i).ext ∧ SameArr inp.numEdges (f i).intr (f' i).intr := by
  obtain ⟨R, hR, hout⟩ := run_rounds h hC hn hcomp ho he h1 f0 hf hr
  obtain ⟨R', hR', hout'⟩ := run_rounds h hC hn hcomp ho' he h1' f0' hf' hr'
  have hdet := rounds_determined h.edges hR hR' (fun i hi => (hout i hi.le).selected ▸ ha i hi.le)
  have hsel : ∀ i ≤ k, (f i).selected = (f' i).selected := fun i hi => by
    rw [(hout i hi).selected, (hout' i hi).selected, (hdet i hi).1.1]
  have hlen : inp.edges.length = inp.numEdges := h.len
  have hx : ∀ i ≤ k, ∀ e < inp.numEdges, (R i).output (tspProblem inp w cc C numIter reset thr) e = (R' i).output (tspProblem inp w cc C numIter reset thr) e :=
    fun i hi e he => (hdet i hi).1.2 e (by rw [← hlen] at he; exact he)
  have hcost : ∀ i ≤ k, (f i).cost = (f' i).cost := fun i hi => by
    obtain ⟨q, ⟨L, a1, a2, a3, a4⟩, q2⟩ := (hout i hi).cost
    obtain ⟨q', ⟨L', b1, b2, b3, b4⟩, q2'⟩ := (hout' i hi).cost
    have hL : L = L' := by
      refine List.Perm.eq_of_pairwise (le := (· < ·)) (fun a b _ _ h1 h2 => absurd h1 (by omega)) a1 b1 ?_
      refine (List.perm_ext_iff_of_nodup (a1.imp fun h => Nat.ne_of_lt h) (b1.imp fun h => Nat.ne_of_lt h)).mpr fun e => ?_
      rw [a2, b2]
      refine and_congr_right fun he => ?_
      beta_reduce
      rw [(hdet i hi).1.2 e he]
    rw [q2, q2', a4, b4, hL]
  have same : ∀ i ≤ k, SameArr inp.numEdges (f i).ext (f' i).ext ∧ SameArr inp.numEdges (f i).intr (f' i).intr := fun i hi => by
    obtain ⟨e1, e2⟩ := (hout i hi).ext
    obtain ⟨e1', e2'⟩ := (hout' i hi).ext
    obtain ⟨g1, g2⟩ := (hout i hi).intr
    obtain ⟨g1', g2'⟩ := (hout' i hi).intr
    exact ⟨⟨e1, e1', fun e he => by rw [e2 e he, e2' e he, hx i hi e he]⟩, ⟨g1, g1', fun e he => by rw [g2 e he, g2' e he]; beta_reduce; rw [hx i hi e he]⟩⟩
  intro i hi
  refine ⟨?_, same i hi⟩
  induction i with
  | zero =>
    have hs0 := hsel 0 hi
    have hc0 := hcost 0 hi
    have ha0 := ha 0 hi
    obtain ⟨m, hm⟩ := f0
    obtain ⟨m', hm'⟩ := f0'
    rw [hm] at hs0 hc0 ha0
    rw [hm'] at hs0 hc0
    rw [hm, hm']
    obtain ⟨m1, ext, intr, sel, total, an, -, -, f3, rfl⟩ := iterateRelaxed_facts h1
    obtain ⟨m1', ext', intr', sel', total', an', -, -, f3', rfl⟩ := iterateRelaxed_facts h1'
    simp only at hs0 hc0 ha0
    subst hs0
    exact ⟨analyse_twin (ho _ _) (ho' _ _) ha0 twinAn_empty f3 f3', hc0, rfl, rfl, rfl, rfl, rfl, rfl, rfl, rfl⟩
  | succ i ih =>
    obtain ⟨t, t1, t2⟩ := hr.round i (by omega)
    obtain ⟨t', t1', t2'⟩ := hr'.round i (by omega)
    obtain ⟨m, hm⟩ : ∃ m, f (i + 1) = { t with msgs := m } := by
      rcases t2 with ⟨a, -, b⟩ | ⟨-, b⟩
      · rw [a, b]; exact ⟨t.msgs, rfl⟩
      · exact (addMissingRows_facts b).2
    obtain ⟨m', hm'⟩ : ∃ m, f' (i + 1) = { t' with msgs := m } := by
      rcases t2' with ⟨a, -, b⟩ | ⟨-, b⟩
      · rw [a, b]; exact ⟨t'.msgs, rfl⟩
      · exact (addMissingRows_facts b).2
    have hs := hsel (i + 1) hi
    have hc := hcost (i + 1) hi
    have ha1 := ha (i + 1) hi
    rw [hm] at hs hc ha1
    rw [hm'] at hs hc
    rw [hm, hm']
    exact (iterateAugmented_twin ho ho' (ih (by omega)) t1 t1' hs hc ha1).msgs _ _

theorem Twin.stop {c : TspSetup} {st st' : TspState} (h : Twin st st') (hstop : StopReason c st)
    (hgo : st'.an.tourFlag = false ∧ st'.an.satisfied = false ∧ st'.an.noConsFlag = false ∧ st'.noImprovFlag = false ∧ st'.solOscFlag = false)
    (haug : c.augmentation = true) : (st.numAugm : ℤ) = c.maxAugm := by
  unfold StopReason at hstop
  rw [h.an.tourFlag, h.an.satisfied, h.an.noCons, h.f1, h.f2, hgo.1, hgo.2.1, hgo.2.2.1, hgo.2.2.2.1, hgo.2.2.2.2, haug] at hstop
  simpa using hstop

theorem outcome_twin (h : TspOk inp w cc) (hC : inp.costMatrix.Is inp.numNodes inp.numNodes C) (hn : 3 ≤ inp.numNodes)
    (hcomp : Complete inp.numNodes inp.edges) (ho : ∀ k sel, StartOrder sel (order k sel)) (ho' : ∀ k sel, StartOrder sel (order' k sel))
    {e2d : Mat Num} (he : e2d.Is inp.numEdges inp.numNodes x0) {st1 st1' : TspState} {f f' : ℕ → TspState} {k k' : ℕ} {o o' : Option TspState}
    (hr : SolveRun (tspSetup inp numIter reset augmentation thr maxCount maxAugm order) (tspStart inp e2d) o st1 f k)
    (hr' : SolveRun (tspSetup inp numIter reset augmentation thr maxCount maxAugm order') (tspStart inp e2d) o' st1' f' k')
    (hm : 1 ≤ maxAugm) (ha : ∀ i ≤ k, CyclesApart (f i).selected) : SameOutcome inp.numEdges o o' := by
  have hk : k = k' := by
    rcases lt_trichotomy k k' with hlt | heq | hlt
    · exfalso
      have hw := (runs_twin h hC hn hcomp ho ho' he hr.relaxed hr'.relaxed hr.f0 hr'.f0 hr.rows (fun h => hr'.rows (by omega)) hr.run
        (augRun_le hr'.run hr'.num hlt hr'.limit) ha k le_rfl).1
      obtain ⟨g1, g2, g3, g4, g5, g6⟩ := hr'.run.going k hlt
      rcases hr.fin with ⟨-, hs⟩ | ⟨-, hz, -⟩
      · have hmax := hw.stop hs ⟨g1, g2, g3, g4, g5⟩ (hr'.aug (by omega))
        rw [hr.num k le_rfl] at hmax
        have := hr'.limit
        simp only [tspSetup] at hmax this
        omega
      · exact g6 (hw.cost ▸ hz)
    · exact heq
    · exfalso
      have hw := (runs_twin h hC hn hcomp ho ho' he hr.relaxed hr'.relaxed hr.f0 hr'.f0 (fun h => hr.rows (by omega)) hr'.rows
        (augRun_le hr.run hr.num hlt hr.limit) hr'.run (fun i hi => ha i (by omega)) k' le_rfl).1
      obtain ⟨g1, g2, g3, g4, g5, g6⟩ := hr.run.going k' hlt
      rcases hr'.fin with ⟨-, hs⟩ | ⟨-, hz, -⟩
      · have hmax := hw.symm.stop hs ⟨g1, g2, g3, g4, g5⟩ (hr.aug (by omega))
        rw [hr'.num k' le_rfl] at hmax
        have := hr.limit
        simp only [tspSetup] at hmax this
        omega
      · exact g6 (hw.cost ▸ hz)
  subst hk
  obtain ⟨hw, s1, s2⟩ := runs_twin h hC hn hcomp ho ho' he hr.relaxed hr'.relaxed hr.f0 hr'.f0 hr.rows hr'.rows hr.run hr'.run ha k le_rfl
  rcases hr.fin with ⟨rfl, hs⟩ | ⟨rfl, hz, e1, e2, e3, e4, e5, e6, e7⟩
  · rcases hr'.fin with ⟨rfl, hs'⟩ | ⟨rfl, hz', e1, e2, e3, e4, e5, e6, e7⟩
    · exact ⟨hw.selected, hw.cost, s1, s2, hw.numAugm, ⟨hw.an.tourFlag, hw.an.satisfied, hw.an.noCons, hw.f1, hw.f2⟩, hw.an.loops, hw.an.sizes,
        (List.perm_ext_iff_of_nodup hw.an.nodup.1 hw.an.nodup.2).mpr hw.an.cuts, fun _ => hw.an.tour⟩
    · exfalso
      have hmax := hw.stop hs ⟨e1, e2, e3, e4, e5⟩ e6
      rw [hr.num k le_rfl] at hmax
      rw [hr'.num k le_rfl] at e7
      simp only [tspSetup] at hmax e7
      exact e7 (by omega) hmax
  · rcases hr'.fin with ⟨rfl, hs'⟩ | ⟨rfl, hz', -⟩
    · exfalso
      have hmax := hw.symm.stop hs' ⟨e1, e2, e3, e4, e5⟩ e6
      rw [hr'.num k le_rfl] at hmax
      rw [hr.num k le_rfl] at e7
      simp only [tspSetup] at hmax e7
      exact e7 (by omega) hmax
    · trivial

end
end Verif.Proofs
