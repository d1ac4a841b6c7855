import Verif.Proofs.TspPull
import Verif.Spec.TspNames
import Verif.Proofs.TspOrderRun

/-! Helper lemmas for C79: two runs of the solver on an instance and a renamed one. -/

namespace Verif.Proofs
open Verif Num Spec Model

/-- The selection `sel'` from `edges'` is the selection `sel` from `edges` with other names. -/
structure Named (π : ℕ → ℕ) (edges edges' sel sel' : List (ℕ × ℕ)) : Prop where
  old : sel = edges.filter (fun p => (π p.1, π p.2) ∈ sel')
  new : sel' = edges'.filter (· ∈ sel')

theorem sublist_filter {l E : List (ℕ × ℕ)} (hE : E.Nodup) (h : l.Sublist E) : l = E.filter (· ∈ l) := by
  induction h with
  | slnil => rfl
  | @cons l E a h ih =>
    have ha : a ∉ l := fun hh => (List.nodup_cons.mp hE).1 (h.subset hh)
    rw [List.filter_cons_of_neg (by simpa using ha)]
    exact ih (List.nodup_cons.mp hE).2
  | @cons_cons l E a h ih =>
    rw [List.filter_cons_of_pos (by simp)]
    congr 1
    conv_lhs => rw [ih (List.nodup_cons.mp hE).2]
    refine List.filter_congr fun x hx => ?_
    have hxa : x ≠ a := fun hh => (List.nodup_cons.mp hE).1 (hh ▸ hx)
    simp [hxa]

section
variable {n : ℕ} {π ρ : ℕ → ℕ} {edges edges' sel sel' sel1 sel1' : List (ℕ × ℕ)}

theorem Named.nil : Named π edges edges' [] [] := ⟨by simp, by simp⟩

theorem Named.sub (h : Named π edges edges' sel sel') : (∀ p ∈ sel, p ∈ edges) ∧ ∀ p ∈ sel', p ∈ edges' := by
  constructor
  · intro p hp
    rw [h.old] at hp
    exact (List.mem_filter.mp hp).1
  · intro p hp
    rw [h.new] at hp
    exact (List.mem_filter.mp hp).1

theorem Named.joined (h : Named π edges edges' sel sel') {u v : ℕ} (huv : Joined sel u v) : Joined sel' (π u) (π v) := by
  have huv : (u, v) ∈ sel := huv
  rw [h.old] at huv
  have := (List.mem_filter.mp huv).2
  simp only [decide_eq_true_eq] at this
  exact this

theorem Named.back (hg : SameGraph n π ρ edges edges') (h : Named π edges edges' sel sel') {p : ℕ × ℕ} (hp : p ∈ sel') :
    ∃ q ∈ sel, p = (π q.1, π q.2) := by
  obtain ⟨a, b⟩ := p
  obtain ⟨d, hd, d1, d2⟩ := edge_of_mem (h.sub.2 _ hp)
  rw [hg.length] at hd
  obtain ⟨e, he, rfl⟩ := place_surj hg d hd
  rw [hg.src e he] at d1
  rw [hg.dst e he] at d2
  refine ⟨(src edges e, dst edges e), ?_, by rw [d1, d2]⟩
  rw [h.old, List.mem_filter]
  have := List.getElem_mem he
  rw [src_dst he] at this
  exact ⟨this, by simp [d1, d2, hp]⟩

/-- Selections are equal if the renamed ones are, and the other way round. -/
theorem Named.eq_iff (hg : SameGraph n π ρ edges edges') (h : Named π edges edges' sel sel') (h1 : Named π edges edges' sel1 sel1') :
    sel = sel1 ↔ sel' = sel1' := by
  constructor
  · rintro rfl
    have key : ∀ {a b : List (ℕ × ℕ)}, Named π edges edges' sel a → Named π edges edges' sel b → ∀ p ∈ a, p ∈ b := by
      intro a b ha hb p hp
      obtain ⟨q, hq, rfl⟩ := ha.back hg hp
      exact hb.joined (u := q.1) (v := q.2) hq
    rw [h.new, h1.new]
    exact List.filter_congr fun p _ => decide_eq_decide.mpr ⟨key h h1 p, key h1 h p⟩
  · rintro rfl
    rw [h.old, h1.old]

theorem Named.nil_iff (hg : SameGraph n π ρ edges edges') (h : Named π edges edges' sel sel') : sel = [] ↔ sel' = [] :=
  h.eq_iff hg Named.nil

theorem isCycle_lt (hok : EdgesOk n edges) (hs : ∀ p ∈ sel, p ∈ edges) {l : List ℕ} (hl : IsCycle (Joined sel) l) : ∀ v ∈ l, v < n := by
  intro v hv
  obtain ⟨w, hw, -⟩ := Relation.TransGen.head'_iff.mp (isCycle_trans hl hv)
  exact (hok _ (hs _ hw)).1

theorem Named.cycle (hg : SameGraph n π ρ edges edges') (hok : EdgesOk n edges) (h : Named π edges edges' sel sel') {l : List ℕ}
    (hl : IsCycle (Joined sel) l) : IsCycle (Joined sel') (l.map π) :=
  isCycle_image hl (fun _ _ huv => h.joined huv) fun u hu v hv => hg.node_inj u (isCycle_lt hok h.sub.1 hl u hu) v (isCycle_lt hok h.sub.1 hl v hv)

/-- Every cycle of the renamed selection is a renamed cycle. -/
theorem Named.cycle_back (hg : SameGraph n π ρ edges edges') (hok : EdgesOk n edges) (hok' : EdgesOk n edges') (h : Named π edges edges' sel sel')
    {l : List ℕ} (hl : IsCycle (Joined sel') l) : ∃ l0, IsCycle (Joined sel) l0 ∧ l = l0.map π := by
  obtain ⟨κ, k1, k2, k3⟩ := exists_old_names hg.node hg.node_inj
  have hlt := isCycle_lt hok' h.sub.2 hl
  refine ⟨l.map κ, isCycle_image hl (fun u v huv => ?_) (fun u hu v hv huv => by rw [← k2 u (hlt u hu), ← k2 v (hlt v hv), huv]), ?_⟩
  · obtain ⟨q, hq, hqe⟩ := h.back hg huv
    simp only [Prod.mk.injEq] at hqe
    have hq' := hok _ (h.sub.1 q hq)
    rw [hqe.1, hqe.2, k3 _ hq'.1, k3 _ hq'.2.1]
    exact hq
  · rw [List.map_map]
    conv_lhs => rw [← List.map_id l]
    exact List.map_congr_left fun v hv => (k2 v (hlt v hv)).symm

theorem Named.apart (hg : SameGraph n π ρ edges edges') (hok : EdgesOk n edges) (hok' : EdgesOk n edges') (h : Named π edges edges' sel sel')
    (ha : CyclesApart sel) : CyclesApart sel' := by
  intro l l' hl hl' v hv hv'
  obtain ⟨a, ha1, rfl⟩ := h.cycle_back hg hok hok' hl
  obtain ⟨b, hb1, rfl⟩ := h.cycle_back hg hok hok' hl'
  obtain ⟨u, hu, rfl⟩ := List.mem_map.mp hv
  obtain ⟨u', hu', he⟩ := List.mem_map.mp hv'
  obtain rfl := hg.node_inj _ (isCycle_lt hok h.sub.1 hb1 u' hu') _ (isCycle_lt hok h.sub.1 ha1 u hu) he
  exact (ha a b ha1 hb1 u' hu hu').map π

theorem rotated_of_map (hinj : ∀ u < n, ∀ v < n, π u = π v → u = v) {a b : List ℕ} (ha : ∀ v ∈ a, v < n) (hb : ∀ v ∈ b, v < n)
    (h : a.map π ~r b.map π) : a ~r b := by
  obtain ⟨k, hk⟩ := h
  refine ⟨k, ?_⟩
  rw [← List.map_rotate] at hk
  have hl : (a.rotate k).length = b.length := by simpa using congrArg List.length hk
  refine List.ext_getElem hl fun i h1 h2 => ?_
  have := congrArg (fun l => l[i]?) hk
  simp only [List.getElem?_map, List.getElem?_eq_getElem h1, List.getElem?_eq_getElem h2, Option.map_some, Option.some.injEq] at this
  exact hinj _ (ha _ (List.mem_rotate.mp (List.getElem_mem h1))) _ (hb _ (List.getElem_mem h2)) this

/-- With cycles apart the loops of the renamed selection are the renamed loops. -/
theorem loops_named (hg : SameGraph n π ρ edges edges') (hok : EdgesOk n edges) (hok' : EdgesOk n edges') (h : Named π edges edges' sel sel')
    {order order' : List ℕ} (ho : StartOrder sel order) (ho' : StartOrder sel' order') (ha : CyclesApart sel) {loops loops' : List (List ℕ)}
    (hl : getClosedLoops sel order = some loops) (hl' : getClosedLoops sel' order' = some loops') :
    (loops.map (fun l => asCycle (l.map π))).Perm (loops'.map asCycle) := by
  obtain ⟨l1, k1, k2, k3, -⟩ := getClosedLoops_spec ho
  rw [hl] at k1
  obtain rfl : loops = l1 := by simpa using k1
  obtain ⟨l2, j1, j2, j3, -⟩ := getClosedLoops_spec ho'
  rw [hl'] at j1
  obtain rfl : loops' = l2 := by simpa using j1
  have hlt : ∀ l ∈ loops, ∀ v ∈ l, v < n := fun l hl => isCycle_lt hok h.sub.1 (k2 l hl)
  have ha' := h.apart hg hok hok' ha
  have n1 : (loops.map (fun l => asCycle (l.map π))).Nodup := by
    rw [List.Nodup, List.pairwise_map]
    refine (List.pairwise_iff_forall_sublist.mpr fun {a b} hab he => ?_)
    have hab1 := List.pairwise_iff_forall_sublist.mp k3 hab
    exact hab1 (rotated_of_map hg.node_inj (hlt a (hab.subset (by simp))) (hlt b (hab.subset (by simp))) (asCycle_eq.mp he))
  have n2 : (loops'.map asCycle).Nodup := List.Pairwise.map _ (fun a b hab => fun he => hab (asCycle_eq.mp he)) j3
  refine (List.perm_ext_iff_of_nodup n1 n2).mpr fun q => ?_
  simp only [List.mem_map]
  constructor
  · rintro ⟨l, hm, rfl⟩
    have hc := h.cycle hg hok (k2 l hm)
    obtain ⟨v, hv⟩ := List.exists_mem_of_ne_nil _ (isCycle_ne hc)
    obtain ⟨r, hr, hvr⟩ := (Properties.C17_nodes_covered ho' hl' v).mp (isCycle_trans hc hv)
    exact ⟨r, hr, asCycle_eq.mpr (ha' r _ (j2 r hr) hc v hvr hv)⟩
  · rintro ⟨l, hm, rfl⟩
    obtain ⟨l0, h0, rfl⟩ := h.cycle_back hg hok hok' (j2 l hm)
    obtain ⟨v, hv⟩ := List.exists_mem_of_ne_nil _ (isCycle_ne h0)
    obtain ⟨r, hr, hvr⟩ := (Properties.C17_nodes_covered ho hl v).mp (isCycle_trans h0 hv)
    exact ⟨r, hr, asCycle_eq.mpr ((ha r l0 (k2 r hr) h0 v hvr hv).map π)⟩

/-- Analyses that agree up to names, order and rotation. -/
structure NamedAn (π : ℕ → ℕ) (s s' : TspAnalysis) : Prop where
  loops : (s.subtourPaths.map (fun l => asCycle (l.map π))).Perm (s'.subtourPaths.map asCycle)
  sizes : s.closedPathsSize.Perm s'.closedPathsSize
  count : s.noConsCount = s'.noConsCount
  noCons : s.noConsFlag = s'.noConsFlag
  tourFlag : s.tourFlag = s'.tourFlag
  satisfied : s.satisfied = s'.satisfied
  tour : asCycle (s.tour.tail.map π) = asCycle s'.tour.tail

theorem analyseLoops_named {n mc : ℕ} {loops loops' : List (List ℕ)} {s s' : TspAnalysis}
    (hp : (loops.map (fun l => asCycle (l.map π))).Perm (loops'.map asCycle)) (hs : NamedAn π s s') :
    NamedAn π (analyseLoops n mc edges loops s) (analyseLoops n mc edges' loops' s') := by
  have hlen : loops.length = loops'.length := by simpa using hp.length_eq
  have hsz : (loops.map List.length).Perm (loops'.map List.length) := by
    have := hp.map Cycle.length
    rw [List.map_map, List.map_map] at this
    have e1 : (Cycle.length ∘ fun l : List ℕ => asCycle (l.map π)) = List.length := by
      funext l; simp [asCycle]
    rw [e1] at this
    exact this
  match loops, loops', hp, hlen, hsz with
  | [], [], hp, _, _ =>
    simp only [analyseLoops, hs.count]
    split
    · exact ⟨hp, List.Perm.nil, rfl, rfl, hs.tourFlag, hs.satisfied, hs.tour⟩
    · exact ⟨hp, List.Perm.nil, rfl, hs.noCons, hs.tourFlag, hs.satisfied, hs.tour⟩
  | l :: rest, l' :: rest', hp, hlen, hsz =>
    have hiff : (rest = [] ∧ l.length = n) ↔ (rest' = [] ∧ l'.length = n) := by
      have h0 : rest = [] ↔ rest' = [] := by
        rw [← List.length_eq_zero_iff, ← List.length_eq_zero_iff]
        simp only [List.length_cons] at hlen; omega
      constructor
      · rintro ⟨rfl, h⟩
        obtain rfl := h0.mp rfl
        refine ⟨rfl, ?_⟩
        have : l.length = l'.length := by simpa using hsz
        omega
      · rintro ⟨rfl, h⟩
        obtain rfl := h0.mpr rfl
        refine ⟨rfl, ?_⟩
        have : l.length = l'.length := by simpa using hsz
        omega
    by_cases hc : rest = [] ∧ l.length = n
    · simp only [analyseLoops, if_pos hc, if_pos (hiff.mp hc)]
      refine ⟨hp, List.Perm.nil, hs.count, hs.noCons, rfl, rfl, ?_⟩
      obtain rfl := hc.1
      obtain rfl := (hiff.mp hc).1
      have hr : l.map π ~r l' := by simpa [asCycle_eq] using hp
      have tl : ∀ l : List ℕ, (l ++ l.take 1).tail ~r l := by
        intro l
        cases l with
        | nil => exact List.IsRotated.refl _
        | cons a q =>
          simp only [List.take_succ_cons, List.take_zero, List.cons_append, List.tail_cons]
          exact (List.isRotated_append (l := [a]) (l' := q)).symm
      exact asCycle_eq.mpr (((tl l).map π).trans (hr.trans (tl l').symm))
    · simp only [analyseLoops, if_neg hc, if_neg (mt hiff.mpr hc), analyseLoops_foldl]
      exact ⟨hp, by simpa using hsz, rfl, hs.noCons, hs.tourFlag, hs.satisfied, hs.tour⟩

theorem analyse_named (hg : SameGraph n π ρ edges edges') (hok : EdgesOk n edges) (hok' : EdgesOk n edges') (h : Named π edges edges' sel sel')
    {m mc : ℕ} {order order' : List ℕ} (ho : StartOrder sel order) (ho' : StartOrder sel' order') (ha : CyclesApart sel) {s s' t t' : TspAnalysis}
    (hs : NamedAn π s s') (ht : analyse m mc edges sel order s = some t) (ht' : analyse m mc edges' sel' order' s' = some t') : NamedAn π t t' := by
  obtain ⟨loops, k1, -⟩ := getClosedLoops_spec ho
  obtain ⟨loops', k1', -⟩ := getClosedLoops_spec ho'
  simp only [analyse, k1, k1', Option.bind_eq_bind, Option.bind_some, Option.some.injEq] at ht ht'
  subst ht; subst ht'
  exact analyseLoops_named (loops_named hg hok hok' h ho ho' ha k1 k1') hs

theorem namedAn_empty : NamedAn π {} {} := ⟨List.Perm.refl _, List.Perm.refl _, rfl, rfl, rfl, rfl, rfl⟩

/-- States that agree up to names, order, rotation and units, and message tables. -/
structure NamedState (s : ℚ) (π : ℕ → ℕ) (edges edges' : List (ℕ × ℕ)) (st st' : TspState) : Prop where
  an : NamedAn π st.an st'.an
  cost : ∃ q, st.cost = fin q ∧ st'.cost = fin (s * q)
  selected : Named π edges edges' st.selected st'.selected
  old : Named π edges edges' st.old st'.old
  oldOld : Named π edges edges' st.oldOld st'.oldOld
  numAugm : st.numAugm = st'.numAugm
  c1 : st.noImprovCount = st'.noImprovCount
  f1 : st.noImprovFlag = st'.noImprovFlag
  c2 : st.solOscCount = st'.solOscCount
  f2 : st.solOscFlag = st'.solOscFlag

theorem NamedState.msgs {s : ℚ} {st st' : TspState} (h : NamedState s π edges edges' st st') (m m' : TspMsgs) :
    NamedState s π edges edges' { st with msgs := m } { st' with msgs := m' } :=
  ⟨h.an, h.cost, h.selected, h.old, h.oldOld, h.numAugm, h.c1, h.f1, h.c2, h.f2⟩
end

section
variable {inp inp' : TspInputs} {w w' : ℕ → ℚ} {cc cc' C C' x0 x0' : ℕ → ℕ → ℚ} {numIter : ℕ} {reset augmentation : Bool} {thr thr' : Num}
  {maxCount : ℕ} {maxAugm : ℤ} {order order' : ℕ → List (ℕ × ℕ) → List ℕ} {s : ℚ} {π ρ : ℕ → ℕ}

theorem iterateAugmented_named (hg : SameGraph inp.numNodes π ρ inp.edges inp'.edges) (hN : inp'.numNodes = inp.numNodes)
    (hok : EdgesOk inp.numNodes inp.edges) (hok' : EdgesOk inp.numNodes inp'.edges)
    (ho : ∀ k sel, StartOrder sel (order k sel)) (ho' : ∀ k sel, StartOrder sel (order' k sel)) {st st' t t' : TspState}
    (hs : NamedState s π inp.edges inp'.edges st st')
    (h : iterateAugmented (tspSetup inp numIter reset augmentation thr maxCount maxAugm order) st = some t)
    (h' : iterateAugmented (tspSetup inp' numIter reset augmentation thr' maxCount maxAugm order') st' = some t')
    (hsel : Named π inp.edges inp'.edges t.selected t'.selected)
    (hcost : ∃ q, t.cost = fin q ∧ t'.cost = fin (s * q)) (ha : CyclesApart t.selected) : NamedState s π inp.edges inp'.edges t t' := by
  obtain ⟨_, -, -, -, a1, a2, a3, a4, a5, a6, a7, a8⟩ := iterateAugmented_facts h
  obtain ⟨_, -, -, -, b1, b2, b3, b4, b5, b6, b7, b8⟩ := iterateAugmented_facts h'
  simp only [tspSetup] at a1 b1 a6 b6 a8 b8
  rw [hN] at b1
  have e1 := hs.old.nil_iff hg
  have e2 := hs.oldOld.nil_iff hg
  have e3 := hsel.eq_iff hg hs.old
  have e4 := hsel.eq_iff hg hs.oldOld
  have e5 := hs.oldOld.eq_iff hg hs.old
  refine ⟨analyse_named hg hok hok' hsel (ho _ _) (ho' _ _) ha hs.an a1 b1, hcost, hsel, by rw [a3, b3]; exact hsel, ?_, by rw [a2, b2, hs.numAugm],
    ?_, ?_, ?_, ?_⟩
  · rw [a4, b4]
    by_cases hz : st.old = []
    · rw [if_neg (not_not.mpr hz), if_neg (not_not.mpr (e1.mp hz))]; exact hs.oldOld
    · rw [if_pos hz, if_pos (mt e1.mpr hz)]; exact hs.old
  · rw [a5, b5]; simp only [ne_eq, e1, e3, hs.c1]
  · rw [a6, b6]; simp only [ne_eq, e1, e3, hs.c1, hs.f1]; congr
  · rw [a7, b7]; simp only [ne_eq, e2, e4, e5, hs.c2]
  · rw [a8, b8]; simp only [ne_eq, e2, e4, e5, hs.c2, hs.f2]; congr

/-- As long as both runs go on, they go the same way. -/
theorem runs_named (hs : 0 < s) (h : TspOk inp w cc) (hC : inp.costMatrix.Is inp.numNodes inp.numNodes C) (hn : 3 ≤ inp.numNodes)
    (hcomp : Complete inp.numNodes inp.edges)
    (h' : TspOk inp' w' cc') (hC' : inp'.costMatrix.Is inp'.numNodes inp'.numNodes C') (hcomp' : Complete inp'.numNodes inp'.edges)
    (hnd' : inp'.edges.Nodup)
    (hp : SameProblem s π ρ (tspProblem inp w cc C numIter reset thr) (tspProblem inp' w' cc' C' numIter reset thr'))
    (ho : ∀ k sel, StartOrder sel (order k sel)) (ho' : ∀ k sel, StartOrder sel (order' k sel))
    (hx : ∀ e < inp.edges.length, ∀ v, v = src inp.edges e ∨ v = dst inp.edges e → x0' (ρ e) (π v) = s * x0 e v)
    {e2d e2d' : Mat Num} (he : e2d.Is inp.numEdges inp.numNodes x0) (he' : e2d'.Is inp'.numEdges inp'.numNodes x0')
    {st1 st1' : TspState} {f f' : ℕ → TspState} {k : ℕ}
    (h1 : iterateRelaxed (tspSetup inp numIter reset augmentation thr maxCount maxAugm order) (tspStart inp e2d) = some st1)
    (h1' : iterateRelaxed (tspSetup inp' numIter reset augmentation thr' maxCount maxAugm order') (tspStart inp' e2d') = some st1')
    (f0 : ∃ m, f 0 = { st1 with msgs := m }) (f0' : ∃ m, f' 0 = { st1' with msgs := m })
    (hf : 0 < k → f 0 = addFirstRows st1) (hf' : 0 < k → f' 0 = addFirstRows st1')
    (hr : AugRun (tspSetup inp numIter reset augmentation thr maxCount maxAugm order) f k)
    (hr' : AugRun (tspSetup inp' numIter reset augmentation thr' maxCount maxAugm order') f' k) (ha : ∀ i ≤ k, CyclesApart (f i).selected) :
    ∀ i ≤ k, NamedState s π inp.edges inp'.edges (f i) (f' i) ∧
      (∃ b b' : ℕ → ℚ, (f i).ext.Is inp.numEdges b ∧ (f' i).ext.Is inp'.numEdges b' ∧ ∀ e < inp.numEdges, b' (ρ e) = s * b e) ∧
      ∃ b b' : ℕ → ℚ, (f i).intr.Is inp.numEdges b ∧ (f' i).intr.Is inp'.numEdges b' ∧ ∀ e < inp.numEdges, b' (ρ e) = s * b e := by
  have hN : inp'.numNodes = inp.numNodes := hp.n
  have hg : SameGraph inp.numNodes π ρ inp.edges inp'.edges := hp.graph
  obtain ⟨R, hR, hout⟩ := run_rounds h hC hn hcomp ho he h1 f0 hf hr
  obtain ⟨R', hR', hout'⟩ := run_rounds h' hC' (by omega) hcomp' ho' he' h1' f0' hf' hr'
  have hdet := rounds_named hs h.edges h'.edges hnd' hp hx hR hR' (fun i hi => (hout i hi.le).selected ▸ ha i hi.le)
  have hlen : inp.edges.length = inp.numEdges := h.len
  have hb : ∀ i ≤ k, ∀ e < inp.edges.length, (R' i).output (tspProblem inp' w' cc' C' numIter reset thr') (ρ e) =
      s * (R i).output (tspProblem inp w cc C numIter reset thr) e := fun i hi e he => (hdet i hi).2 e he
  have hw : ∀ e < inp.edges.length, w' (ρ e) = s * w e := hp.w
  have hsel : ∀ i ≤ k, Named π inp.edges inp'.edges (f i).selected (f' i).selected := fun i hi => by
    rw [(hout i hi).selected, (hout' i hi).selected]
    refine ⟨(hdet i hi).1, ?_⟩
    obtain ⟨q', hq, -⟩ := (hout' i hi).cost
    obtain ⟨L, l1, l2, l3, -⟩ := hq
    have hsub : (R' i).sel.Sublist inp'.edges := by
      have hLs : L.Sublist (List.range inp'.edges.length) := by
        refine List.sublist_of_subperm_of_pairwise (r := (· < ·)) ?_ l1 List.pairwise_lt_range
        exact (List.subperm_of_subset (l1.imp fun h => Nat.ne_of_lt h) fun e he => List.mem_range.mpr ((l2 e).mp he).1)
      have h2 := hLs.map (fun e => (src inp'.edges e, dst inp'.edges e))
      rw [← edges_range] at h2
      have h3 : (R' i).sel = L.map (fun e => (src inp'.edges e, dst inp'.edges e)) := by
        have : (R' i).sel.map some = (L.map (fun e => (src inp'.edges e, dst inp'.edges e))).map some := by
          rw [l3, List.map_map]
          refine List.map_congr_left fun e he => ?_
          have : e < inp'.edges.length := ((l2 e).mp he).1
          simp only [Function.comp, tspProblem]
          rw [List.getElem?_eq_getElem this, src_dst this]
        exact (List.map_injective_iff.mpr (Option.some_injective _)) this
      rw [h3]; exact h2
    exact sublist_filter hnd' hsub
  have hcost : ∀ i ≤ k, ∃ q, (f i).cost = fin q ∧ (f' i).cost = fin (s * q) := fun i hi => by
    obtain ⟨q, ⟨L, a1, a2, a3, a4⟩, q2⟩ := (hout i hi).cost
    obtain ⟨q', ⟨L', b1, b2, b3, b4⟩, q2'⟩ := (hout' i hi).cost
    refine ⟨q, q2, ?_⟩
    have habove : ∀ e < inp.edges.length, (Above (fin ((R' i).output (tspProblem inp' w' cc' C' numIter reset thr') (ρ e) + w' (ρ e))) thr' ↔
        Above (fin ((R i).output (tspProblem inp w cc C numIter reset thr) e + w e)) thr) := fun e he => by
      rw [hb i hi e he, hw e he, ← mul_add]
      exact hp.thr _
    have hperm : L'.Perm (L.map ρ) := by
      have hnd : (L.map ρ).Nodup := (List.nodup_map_iff_inj_on (a1.imp fun h => Nat.ne_of_lt h)).mpr fun x hx y hy =>
        hg.place_inj x ((a2 x).mp hx).1 y ((a2 y).mp hy).1
      refine (List.perm_ext_iff_of_nodup (b1.imp fun h => Nat.ne_of_lt h) hnd).mpr fun d => ?_
      rw [b2, List.mem_map]
      constructor
      · rintro ⟨d1, d2⟩
        have d1 : d < inp'.edges.length := d1
        rw [hg.length] at d1
        obtain ⟨e, he, rfl⟩ := place_surj hg d d1
        exact ⟨e, (a2 e).mpr ⟨he, fun hh => d2 ((habove e he).mpr hh)⟩, rfl⟩
      · rintro ⟨e, he, rfl⟩
        obtain ⟨e1, e2⟩ := (a2 e).mp he
        exact ⟨by show ρ e < inp'.edges.length; rw [hg.length]; exact hg.place e e1, fun hh => e2 ((habove e e1).mp hh)⟩
    rw [q2', b4, a4, (hperm.map _).sum_eq, List.map_map, ← List.sum_map_mul_left]
    congr 2
    exact List.map_congr_left fun e he => hw e ((a2 e).mp he).1
  have same : ∀ i ≤ k,
      (∃ b b' : ℕ → ℚ, (f i).ext.Is inp.numEdges b ∧ (f' i).ext.Is inp'.numEdges b' ∧ ∀ e < inp.numEdges, b' (ρ e) = s * b e) ∧
      ∃ b b' : ℕ → ℚ, (f i).intr.Is inp.numEdges b ∧ (f' i).intr.Is inp'.numEdges b' ∧ ∀ e < inp.numEdges, b' (ρ e) = s * b e := fun i hi =>
    ⟨⟨_, _, (hout i hi).ext, (hout' i hi).ext, fun e he => hb i hi e (by omega)⟩, ⟨_, _, (hout i hi).intr, (hout' i hi).intr, fun e he => by
      rw [hb i hi e (by omega), mul_add]
      congr 1
      exact hw e (by omega)⟩⟩
  intro i hi
  refine ⟨?_, same i hi⟩
  induction i with
  | zero =>
    have hs0 := hsel 0 hi
    have hc0 := hcost 0 hi
    have ha0 := ha 0 hi
    obtain ⟨m, hm⟩ := f0
    obtain ⟨m', hm'⟩ := f0'
    rw [hm] at hs0 hc0 ha0
    rw [hm'] at hs0 hc0
    rw [hm, hm']
    obtain ⟨m1, ext, intr, sel, total, an, -, -, f3, rfl⟩ := iterateRelaxed_facts h1
    obtain ⟨m1', ext', intr', sel', total', an', -, -, f3', rfl⟩ := iterateRelaxed_facts h1'
    simp only [tspSetup] at hs0 hc0 ha0 f3 f3'
    rw [hN] at f3'
    exact ⟨analyse_named hg h.edges (hN ▸ h'.edges) hs0 (ho _ _) (ho' _ _) ha0 namedAn_empty f3 f3', hc0, hs0, Named.nil, Named.nil, rfl, rfl, rfl, rfl, rfl⟩
  | succ i ih =>
    obtain ⟨t, t1, t2⟩ := hr.round i (by omega)
    obtain ⟨t', t1', t2'⟩ := hr'.round i (by omega)
    obtain ⟨m, hm⟩ : ∃ m, f (i + 1) = { t with msgs := m } := by
      rcases t2 with ⟨a, -, b⟩ | ⟨-, b⟩
      · rw [a, b]; exact ⟨t.msgs, rfl⟩
      · exact (addMissingRows_facts b).2
    obtain ⟨m', hm'⟩ : ∃ m, f' (i + 1) = { t' with msgs := m } := by
      rcases t2' with ⟨a, -, b⟩ | ⟨-, b⟩
      · rw [a, b]; exact ⟨t'.msgs, rfl⟩
      · exact (addMissingRows_facts b).2
    have hs := hsel (i + 1) hi
    have hc := hcost (i + 1) hi
    have ha1 := ha (i + 1) hi
    rw [hm] at hs hc ha1
    rw [hm'] at hs hc
    rw [hm, hm']
    exact (iterateAugmented_named hg hN h.edges (hN ▸ h'.edges) ho ho' (ih (by omega)) t1 t1' hs hc ha1).msgs _ _

theorem Named.perm (hg : SameGraph inp.numNodes π ρ inp.edges inp'.edges) (hok : EdgesOk inp.numNodes inp.edges) (hnd : inp.edges.Nodup)
    (hnd' : inp'.edges.Nodup) {sel sel' : List (ℕ × ℕ)} (h : Named π inp.edges inp'.edges sel sel') :
    sel'.Perm (sel.map (fun p => (π p.1, π p.2))) := by
  have n1 : sel.Nodup := by rw [h.old]; exact hnd.filter _
  have n2 : sel'.Nodup := by rw [h.new]; exact hnd'.filter _
  refine (List.perm_ext_iff_of_nodup n2 ((List.nodup_map_iff_inj_on n1).mpr fun p hp q hq hpq => ?_)).mpr fun p => ?_
  · simp only [Prod.mk.injEq] at hpq
    have h1 := hok _ (h.sub.1 p hp)
    have h2 := hok _ (h.sub.1 q hq)
    exact Prod.ext (hg.node_inj _ h1.1 _ h2.1 hpq.1) (hg.node_inj _ h1.2.1 _ h2.2.1 hpq.2)
  · rw [List.mem_map]
    constructor
    · intro hp
      obtain ⟨q, hq, rfl⟩ := h.back hg hp
      exact ⟨q, hq, rfl⟩
    · rintro ⟨q, hq, rfl⟩
      exact h.joined (u := q.1) (v := q.2) hq

theorem outcome_named (hs : 0 < s) (h : TspOk inp w cc) (hC : inp.costMatrix.Is inp.numNodes inp.numNodes C) (hn : 3 ≤ inp.numNodes)
    (hcomp : Complete inp.numNodes inp.edges) (hnd : inp.edges.Nodup)
    (h' : TspOk inp' w' cc') (hC' : inp'.costMatrix.Is inp'.numNodes inp'.numNodes C') (hcomp' : Complete inp'.numNodes inp'.edges)
    (hnd' : inp'.edges.Nodup)
    (hp : SameProblem s π ρ (tspProblem inp w cc C numIter reset thr) (tspProblem inp' w' cc' C' numIter reset thr'))
    (ho : ∀ k sel, StartOrder sel (order k sel)) (ho' : ∀ k sel, StartOrder sel (order' k sel))
    (hx : ∀ e < inp.edges.length, ∀ v, v = src inp.edges e ∨ v = dst inp.edges e → x0' (ρ e) (π v) = s * x0 e v)
    {e2d e2d' : Mat Num} (he : e2d.Is inp.numEdges inp.numNodes x0) (he' : e2d'.Is inp'.numEdges inp'.numNodes x0')
    {st1 st1' : TspState} {f f' : ℕ → TspState} {k k' : ℕ} {o o' : Option TspState}
    (hr : SolveRun (tspSetup inp numIter reset augmentation thr maxCount maxAugm order) (tspStart inp e2d) o st1 f k)
    (hr' : SolveRun (tspSetup inp' numIter reset augmentation thr' maxCount maxAugm order') (tspStart inp' e2d') o' st1' f' k')
    (hm : 1 ≤ maxAugm) (ha : ∀ i ≤ k, CyclesApart (f i).selected) : RenamedOutcome s π inp.edges inp'.edges o o' := by
  have hstop : ∀ {st st' : TspState}, NamedState s π inp.edges inp'.edges st st' →
      (st.an.tourFlag = st'.an.tourFlag ∧ st.an.satisfied = st'.an.satisfied ∧ st.an.noConsFlag = st'.an.noConsFlag ∧
        st.noImprovFlag = st'.noImprovFlag ∧ st.solOscFlag = st'.solOscFlag) ∧ (st.cost = 0 ↔ st'.cost = 0) := by
    intro st st' hw
    refine ⟨⟨hw.an.tourFlag, hw.an.satisfied, hw.an.noCons, hw.f1, hw.f2⟩, ?_⟩
    obtain ⟨q, h1, h2⟩ := hw.cost
    rw [h1, h2]
    have e0 : ∀ a : ℚ, fin a = 0 ↔ a = 0 := fun a => by
      rw [show (0 : Num) = fin 0 from rfl, Num.fin.injEq]
    rw [e0, e0, mul_eq_zero]
    simp [hs.ne']
  have max1 : ∀ {c : TspSetup} {st st' : TspState}, NamedState s π inp.edges inp'.edges st st' → StopReason c st →
      (st'.an.tourFlag = false ∧ st'.an.satisfied = false ∧ st'.an.noConsFlag = false ∧ st'.noImprovFlag = false ∧ st'.solOscFlag = false) →
      c.augmentation = true → (st.numAugm : ℤ) = c.maxAugm := by
    intro c st st' hw hs hgo haug
    obtain ⟨⟨e1, e2, e3, e4, e5⟩, -⟩ := hstop hw
    unfold StopReason at hs
    rw [e1, e2, e3, e4, e5, hgo.1, hgo.2.1, hgo.2.2.1, hgo.2.2.2.1, hgo.2.2.2.2, haug] at hs
    simpa using hs
  have max2 : ∀ {c : TspSetup} {st st' : TspState}, NamedState s π inp.edges inp'.edges st st' → StopReason c st' →
      (st.an.tourFlag = false ∧ st.an.satisfied = false ∧ st.an.noConsFlag = false ∧ st.noImprovFlag = false ∧ st.solOscFlag = false) →
      c.augmentation = true → (st'.numAugm : ℤ) = c.maxAugm := by
    intro c st st' hw hs hgo haug
    obtain ⟨⟨e1, e2, e3, e4, e5⟩, -⟩ := hstop hw
    unfold StopReason at hs
    rw [← e1, ← e2, ← e3, ← e4, ← e5, hgo.1, hgo.2.1, hgo.2.2.1, hgo.2.2.2.1, hgo.2.2.2.2, haug] at hs
    simpa using hs
  have hk : k = k' := by
    rcases lt_trichotomy k k' with hlt | heq | hlt
    · exfalso
      have hw := (runs_named hs h hC hn hcomp h' hC' hcomp' hnd' hp ho ho' hx he he' hr.relaxed hr'.relaxed hr.f0 hr'.f0 hr.rows
        (fun h => hr'.rows (by omega)) hr.run (augRun_le hr'.run hr'.num hlt hr'.limit) ha k le_rfl).1
      obtain ⟨g1, g2, g3, g4, g5, g6⟩ := hr'.run.going k hlt
      rcases hr.fin with ⟨-, hs⟩ | ⟨-, hz, -⟩
      · have hmax := max1 hw hs ⟨g1, g2, g3, g4, g5⟩ (hr'.aug (by omega))
        rw [hr.num k le_rfl] at hmax
        have := hr'.limit
        simp only [tspSetup] at hmax this
        omega
      · exact g6 ((hstop hw).2.mp hz)
    · exact heq
    · exfalso
      have hw := (runs_named hs h hC hn hcomp h' hC' hcomp' hnd' hp ho ho' hx he he' hr.relaxed hr'.relaxed hr.f0 hr'.f0
        (fun h => hr.rows (by omega)) hr'.rows (augRun_le hr.run hr.num hlt hr.limit) hr'.run (fun i hi => ha i (by omega)) k' le_rfl).1
      obtain ⟨g1, g2, g3, g4, g5, g6⟩ := hr.run.going k' hlt
      rcases hr'.fin with ⟨-, hs⟩ | ⟨-, hz, -⟩
      · have hmax := max2 hw hs ⟨g1, g2, g3, g4, g5⟩ (hr.aug (by omega))
        rw [hr'.num k' le_rfl] at hmax
        have := hr.limit
        simp only [tspSetup] at hmax this
        omega
      · exact g6 ((hstop hw).2.mpr hz)
  subst hk
  obtain ⟨hw, s1, s2⟩ := runs_named hs h hC hn hcomp h' hC' hcomp' hnd' hp ho ho' hx he he' hr.relaxed hr'.relaxed hr.f0 hr'.f0 hr.rows hr'.rows
    hr.run hr'.run ha k le_rfl
  have hg : SameGraph inp.numNodes π ρ inp.edges inp'.edges := hp.graph
  have hplace : ∀ {b b' : ℕ → ℚ}, (∀ e < inp.numEdges, b' (ρ e) = s * b e) → ∀ e e' u v, inp.edges[e]? = some (u, v) →
      inp'.edges[e']? = some (π u, π v) → b' e' = s * b e := by
    intro b b' hb e e' u v h1 h2
    obtain ⟨l1, h1⟩ := List.getElem?_eq_some_iff.mp h1
    obtain ⟨l2, h2⟩ := List.getElem?_eq_some_iff.mp h2
    rw [src_dst l1, Prod.mk.injEq] at h1
    rw [src_dst l2, Prod.mk.injEq] at h2
    have hl : ρ e < inp'.edges.length := by rw [hg.length]; exact hg.place e l1
    obtain rfl := edge_inj hnd' l2 hl (by rw [h2.1, hg.src e l1, h1.1]) (by rw [h2.2, hg.dst e l1, h1.2])
    exact hb e (by rw [← h.len]; exact l1)
  have beliefs : ∀ {x x' : Arr Num},
      (∃ b b' : ℕ → ℚ, x.Is inp.numEdges b ∧ x'.Is inp'.numEdges b' ∧ ∀ e < inp.numEdges, b' (ρ e) = s * b e) →
      RenamedValues s π inp.edges inp'.edges x x' := by
    rintro x x' ⟨b, b', h1, h2, h3⟩
    exact ⟨b, b', by rw [h.len]; exact h1, by rw [h'.len]; exact h2, hplace h3⟩
  rcases hr.fin with ⟨rfl, hs⟩ | ⟨rfl, hz, e1, e2, e3, e4, e5, e6, e7⟩
  · rcases hr'.fin with ⟨rfl, hs'⟩ | ⟨rfl, hz', e1, e2, e3, e4, e5, e6, e7⟩
    · exact ⟨hw.selected.perm hg h.edges hnd hnd', hw.cost, beliefs s1, beliefs s2, hw.numAugm, (hstop hw).1, hw.an.loops, hw.an.sizes,
        fun _ => hw.an.tour⟩
    · exfalso
      have hmax := max1 hw hs ⟨e1, e2, e3, e4, e5⟩ e6
      rw [hr.num k le_rfl] at hmax
      rw [hr'.num k le_rfl] at e7
      simp only [tspSetup] at hmax e7
      exact e7 (by omega) hmax
  · rcases hr'.fin with ⟨rfl, hs'⟩ | ⟨rfl, hz', -⟩
    · exfalso
      have hmax := max2 hw hs' ⟨e1, e2, e3, e4, e5⟩ e6
      rw [hr'.num k le_rfl] at hmax
      rw [hr.num k le_rfl] at e7
      simp only [tspSetup] at hmax e7
      exact e7 (by omega) hmax
    · trivial
end
end Verif.Proofs
