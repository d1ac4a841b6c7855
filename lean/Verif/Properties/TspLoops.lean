import Verif.Proofs.TspAnalysis
import Verif.Spec.TspRun

/-! # C14-C19: decisions on the beliefs, loops, tours and cuts of the TSP solver -/

namespace Verif.Properties
open Verif Num Spec Model

/-! ## C14 -/

/-- C14.  For every belief vector (values may be infinite or not a number) there is a strictly increasing list `L` of exactly
the edges whose belief is not above the threshold, and the reported edges are the edges at these positions.  The reported
cost is the sum of their costs. -/
theorem C14_hard_decision {E : ℕ} (thr : Num) {intr cost : Arr Num} {edges : List (ℕ × ℕ)} {w : ℕ → ℚ} (hi : intr.size = E)
    (he : edges.length = E) (hc : cost.Is E w) :
    ∃ (L : List ℕ) (sel : List (ℕ × ℕ)) (total : Num), hardDecision E thr intr edges cost = some (sel, total) ∧ L.Pairwise (· < ·) ∧
      (∀ e, e ∈ L ↔ e < E ∧ ¬ Above (intr.data e) thr) ∧ sel.map some = L.map (fun e => edges[e]?) ∧
      total = fin ((L.map w).sum) := by
  refine ⟨Proofs.chosen E thr intr, _, _, Proofs.hardDecision_eq hi he hc.1, List.pairwise_lt_range.filter _, ?_, ?_, ?_⟩
  · intro e
    rw [Proofs.chosen, List.mem_filter, List.mem_range, ← Proofs.gt_iff_above]
    simp
  · rw [List.map_map]
    refine List.map_congr_left fun e hm => ?_
    have := List.mem_range.mp (List.mem_filter.mp hm).1
    simp [he, this]
  · rw [zero_def, Proofs.foldl_fin (l := Proofs.chosen E thr intr) hc fun e hm => List.mem_range.mp (List.mem_filter.mp hm).1, zero_add]

/-- Five edges; beliefs: negative, not a number, above, equal to the threshold, infinite. -/
def c14Edges : List (ℕ × ℕ) := [(0, 1), (1, 2), (2, 0), (0, 2), (2, 1)]

example : hardDecision 5 (fin 0) (Arr.ofList [fin (-1), nan, fin 3, fin 0, pinf]) c14Edges
    (Arr.ofList [fin 1, fin 2, fin 4, fin 8, fin 16]) = some ([(0, 1), (1, 2), (0, 2)], fin 11) := by decide +kernel

/-! ## C15 -/

/-- C15.  The search that starts at a selected edge `(s, e)` stops with one result `p` for every depth limit of at least the
number of selected edges.  It finds nothing exactly if no walk leads from `e` to `s`; otherwise the result is a path from `e`
to `s` along selected edges without repeated nodes. -/
theorem C15_search_terminates {sel : List (ℕ × ℕ)} {s e : ℕ} (h : Joined sel s e) :
    ∃ p, (∀ fuel, sel.length ≤ fuel → findLoop (buildGraph sel) s fuel e [] [] = some p) ∧
      (p = [] ↔ ¬ Relation.ReflTransGen (Joined sel) e s) ∧ (p ≠ [] → IsPath (Joined sel) p e s) := by
  obtain ⟨p, h1, h2⟩ := Proofs.findLoop_edge h le_rfl
  refine ⟨p, fun fuel hf => Proofs.findLoop_mono_le hf h1, ?_, ?_⟩
  · rcases h2 with ⟨rfl, h⟩ | h
    · simpa using h
    · exact ⟨fun h0 => absurd h0 h.ne_nil, fun h0 => absurd h.reach h0⟩
  · rcases h2 with ⟨rfl, h⟩ | h
    · simp
    · exact fun _ => h

/-- A search that has to turn back: from 1 towards 3 the branch `1 → 2` is a dead end. -/
def c15Sel : List (ℕ × ℕ) := [(3, 1), (1, 2), (1, 0), (0, 4), (4, 0), (4, 3)]

example : findLoop (buildGraph c15Sel) 3 6 1 [] [] = some [1, 0, 4, 3] := by decide
example : findLoop (buildGraph c15Sel) 1 6 2 [] [] = some [] := by decide

/-! ## C16, C17 -/

section
variable {sel : List (ℕ × ℕ)} {order : List ℕ}

/-- C17.  For every order in which the hash map is visited the analysis returns normally.  Each reported subtour is a simple
directed cycle of selected edges; no reported subtour is a rotation of another; nothing is reported iff the selected edges
have no directed cycle; and for each selected edge `(s, e)` on a closed walk, a path from `e` to `s` is a contiguous part of a
reported subtour (read cyclically). -/
theorem C17_subtours (ho : StartOrder sel order) :
    ∃ loops, getClosedLoops sel order = some loops ∧ (∀ l ∈ loops, IsCycle (Joined sel) l) ∧
      loops.Pairwise (fun a b => ¬ a ~r b) ∧ (loops = [] ↔ Acyclic sel) ∧
      ∀ s e, Joined sel s e → Relation.ReflTransGen (Joined sel) e s →
        ∃ l, IsPath (Joined sel) l e s ∧ ∃ r ∈ loops, l <:+: r ++ r := by
  obtain ⟨loops, h1, h2, h3, h4, h5⟩ := Proofs.getClosedLoops_spec ho
  exact ⟨loops, h1, h2, h3, h5, h4⟩

/-- C17, every node on a directed cycle is a node of a reported subtour. -/
theorem C17_nodes_covered (ho : StartOrder sel order) {loops : List (List ℕ)} (h : getClosedLoops sel order = some loops) (v : ℕ) :
    Relation.TransGen (Joined sel) v v ↔ ∃ r ∈ loops, v ∈ r := by
  obtain ⟨loops', h1, h2, -, -, h5⟩ := C17_subtours ho
  obtain rfl : loops = loops' := by rw [h] at h1; simpa using h1
  constructor
  · intro hv
    obtain ⟨u, hr, hJ⟩ := Relation.TransGen.tail'_iff.mp hv
    obtain ⟨l, hl, r, hr', hlr⟩ := h5 u v hJ hr
    exact ⟨r, hr', by simpa using hlr.subset (List.mem_of_head? hl.1)⟩
  · rintro ⟨r, hr, hv⟩
    obtain ⟨a, b, hp, hba⟩ := h2 r hr
    have hb : b ∈ r := List.mem_of_getLast? hp.2.1
    have ha : a ∈ r := List.mem_of_head? hp.1
    exact Relation.TransGen.trans_right (Proofs.cycle_reach (h2 r hr) hv hb) (Relation.TransGen.head' hba (Proofs.cycle_reach (h2 r hr) ha hv))

/-- C17, if no node has two outgoing selected edges then the reported subtours are exactly the cycles: every cycle of
selected edges is a rotation of a reported one. -/
theorem C17_all_cycles (ho : StartOrder sel order) (hE : ∀ u v w, Joined sel u v → Joined sel u w → v = w)
    {loops : List (List ℕ)} (h : getClosedLoops sel order = some loops) {c : List ℕ} (hc : IsCycle (Joined sel) c) :
    ∃ r ∈ loops, c ~r r := by
  obtain ⟨loops', h1, h2, -, -, h5⟩ := C17_subtours ho
  obtain rfl : loops = loops' := by rw [h] at h1; simpa using h1
  obtain ⟨u, v, hp, hJ⟩ := id hc
  obtain ⟨l, hl, r, hr, hlr⟩ := h5 v u hJ hp.reach
  rw [Proofs.path_unique hE hl hp] at hlr
  exact ⟨r, hr, Proofs.cycle_eq_of_infix hE hc (h2 r hr) hlr⟩

/-- Two cycles `0 → 1 → 0` and `2 → 3 → 4 → 2` and an edge between them. -/
def c17Sel : List (ℕ × ℕ) := [(0, 1), (1, 0), (2, 3), (3, 4), (4, 2), (4, 1)]

example : StartOrder c17Sel [4, 3, 2, 1, 0] := by
  refine ⟨by decide, fun u => ⟨fun h => ?_, fun ⟨v, h⟩ => ?_⟩⟩
  · simp only [List.mem_cons, List.not_mem_nil, or_false] at h
    rcases h with rfl | rfl | rfl | rfl | rfl
    · exact ⟨2, by simp [Joined, c17Sel]⟩
    · exact ⟨4, by simp [Joined, c17Sel]⟩
    · exact ⟨3, by simp [Joined, c17Sel]⟩
    · exact ⟨0, by simp [Joined, c17Sel]⟩
    · exact ⟨1, by simp [Joined, c17Sel]⟩
  · simp only [Joined, c17Sel, List.mem_cons, List.not_mem_nil, or_false, Prod.mk.injEq] at h
    simp only [List.mem_cons, List.not_mem_nil, or_false]
    omega
example : getClosedLoops c17Sel [4, 3, 2, 1, 0] = some [[2, 3, 4], [0, 1]] := by decide +kernel

variable {n maxCount : ℕ} {edges : List (ℕ × ℕ)} {s s' : TspAnalysis}

/-- C16.  If the analysis newly reports a tour, the tour is a Hamiltonian cycle of the nodes `0..n-1` made of selected edges,
and the constraints are reported as satisfied. -/
theorem C16_tour (hsel : ∀ c ∈ sel, c.1 < n ∧ c.2 < n) (ho : StartOrder sel order) (hs : s.tourFlag = false)
    (h : analyse n maxCount edges sel order s = some s') (ht : s'.tourFlag = true) :
    IsTour (Joined sel) n s'.tour ∧ s'.satisfied = true := by
  obtain ⟨loops, h1, h2, -⟩ := C17_subtours ho
  simp only [analyse, h1, Option.bind_eq_bind, Option.bind_some, Option.some.injEq] at h
  subst h
  match loops, h2, ht with
  | [], _, ht =>
    simp only [analyseLoops] at ht
    split at ht <;> simp [hs] at ht
  | l :: rest, h2, ht =>
    by_cases hl : rest = [] ∧ l.length = n
    · simp only [analyseLoops, if_pos hl, and_true]
      exact Proofs.isTour_of_cycle hsel (h2 l List.mem_cons_self) hl.2
    · simp only [analyseLoops, if_neg hl, Proofs.analyseLoops_foldl] at ht
      rw [hs] at ht; exact absurd ht (by simp)

/-- C16, the tour flag is not set otherwise, and a Hamiltonian cycle is always recognised if no node has two outgoing edges. -/
theorem C16_tour_found (hsel : ∀ c ∈ sel, c.1 < n ∧ c.2 < n) (ho : StartOrder sel order)
    (hE : ∀ u v w, Joined sel u v → Joined sel u w → v = w) {t : List ℕ} (hn : 0 < n) (ht : IsTour (Joined sel) n t) :
    ∃ s', analyse n maxCount edges sel order s = some s' ∧ s'.tourFlag = true ∧ s'.tour.dropLast ~r t.dropLast := by
  obtain ⟨loops, h1, h2, h3, -, -⟩ := C17_subtours ho
  -- the tour without its last node is a cycle
  obtain ⟨q, a, rfl⟩ : ∃ q a, t = q ++ [a] := by
    rcases List.eq_nil_or_concat t with rfl | ⟨q, a, rfl⟩
    · have := ht.length; simp at this
    · exact ⟨q, a, by simp⟩
  have hq : q.length = n := by have := ht.length; simpa using this
  obtain ⟨b, q', rfl⟩ := List.exists_cons_of_length_pos (l := q) (by omega)
  have hab : b = a := by have := ht.closed; simpa [List.getLast?_cons] using this
  subst hab
  have hc : IsCycle (Joined sel) (b :: q') := by
    have hst := ht.steps
    rw [List.isChain_append] at hst
    refine ⟨b, (b :: q').getLast (by simp), ⟨rfl, by rw [List.getLast?_eq_getLast_of_ne_nil], hst.1, ?_⟩, ?_⟩
    · have := ht.once
      have e : ((b :: q') ++ [b]).tail = q' ++ [b] := by simp
      rw [e] at this
      exact (List.perm_append_singleton b q').nodup_iff.mp this
    · exact hst.2.2 _ (by rw [List.getLast?_eq_getLast_of_ne_nil (by simp)]; simp) b (by simp)
  obtain ⟨r, hr, hrot⟩ := C17_all_cycles ho hE h1 hc
  have hrn : r.length = n := by rw [← hq]; exact hrot.perm.length_eq.symm
  have hmem : ∀ x < n, x ∈ r := fun x hx => hrot.mem_iff.mp (by
    have := (ht.all x).mpr hx
    simp only [List.mem_append, List.mem_cons, List.not_mem_nil, or_false] at this ⊢
    tauto)
  have hall : ∀ r' ∈ loops, r' ~r r := by
    intro r' hr'
    obtain ⟨u, v, hp, hJ⟩ := id (h2 r' hr')
    exact Proofs.cycle_rotated_of_mem hE (h2 r' hr') (h2 r hr) (List.mem_of_head? hp.1) (hmem u (hsel _ hJ).2)
  have hsingle : loops = [r] := by
    match loops, h3, hall, hr with
    | [a], _, _, hr => simp at hr; rw [hr]
    | a :: b :: rest, h3, hall, _ =>
      exact absurd ((hall a (by simp)).trans (hall b (by simp)).symm) ((List.pairwise_cons.mp h3).1 b (by simp))
  subst hsingle
  obtain ⟨a, r', rfl⟩ := List.exists_cons_of_length_pos (l := r) (by omega)
  refine ⟨analyseLoops n maxCount edges [a :: r'] s, by simp only [analyse, h1, Option.bind_eq_bind, Option.bind_some], ?_, ?_⟩
  · simp [analyseLoops, hrn]
  · have e : (analyseLoops n maxCount edges [a :: r'] s).tour = (a :: r') ++ [a] := by simp [analyseLoops, hrn]
    rw [e, List.dropLast_concat, List.dropLast_concat]
    exact hrot.symm

/-- Going round four nodes, plus nothing else; the map happens to be visited in the order 2, 0, 3, 1. -/
def c16Sel : List (ℕ × ℕ) := [(0, 2), (1, 3), (2, 1), (3, 0)]

example : (analyse 4 3 c16Sel c16Sel [2, 0, 3, 1] {}).map (fun s => (s.tourFlag, s.tour)) = some (true, [1, 3, 0, 2, 1]) := by
  decide +kernel
example : StartOrder c16Sel [2, 0, 3, 1] := by
  refine ⟨by decide, fun u => ⟨fun h => ?_, fun ⟨v, h⟩ => ?_⟩⟩
  · simp only [List.mem_cons, List.not_mem_nil, or_false] at h
    rcases h with rfl | rfl | rfl | rfl
    · exact ⟨1, by simp [Joined, c16Sel]⟩
    · exact ⟨2, by simp [Joined, c16Sel]⟩
    · exact ⟨0, by simp [Joined, c16Sel]⟩
    · exact ⟨3, by simp [Joined, c16Sel]⟩
  · simp only [Joined, c16Sel, List.mem_cons, List.not_mem_nil, or_false, Prod.mk.injEq] at h
    simp only [List.mem_cons, List.not_mem_nil, or_false]
    omega

/-! ## C19 -/

/-- C19, one round.  Constraints already present stay, in the same order and at the front.  Every new one is the
increasing list of exactly the edges that leave the nodes of a reported subtour, is not empty and is not a repetition.
Unless a tour is reported, every reported subtour that can be left has its constraint. -/
theorem C19_round (ho : StartOrder sel order) (h : analyse n maxCount edges sel order s = some s') :
    s.deltas <+: s'.deltas ∧ (s.deltas.Nodup → s'.deltas.Nodup) ∧
      (∀ d ∈ s'.deltas, d ∈ s.deltas ∨ d ≠ [] ∧ ∃ l ∈ s'.subtourPaths, IsCycle (Joined sel) l ∧ IsCut edges (· ∈ l) d) ∧
      (s.tourFlag = false → s'.tourFlag = false → ∀ l ∈ s'.subtourPaths, ∀ d, IsCut edges (· ∈ l) d → d = [] ∨ d ∈ s'.deltas) := by
  obtain ⟨loops, h1, h2, -⟩ := C17_subtours ho
  simp only [analyse, h1, Option.bind_eq_bind, Option.bind_some, Option.some.injEq] at h
  subst h
  match loops, h2 with
  | [], _ =>
    simp only [analyseLoops]
    split
    · exact ⟨List.prefix_rfl, id, fun d hd => Or.inl hd, by simp⟩
    · exact ⟨List.prefix_rfl, id, fun d hd => Or.inl hd, by simp⟩
  | l :: rest, h2 =>
    by_cases hl : rest = [] ∧ l.length = n
    · simp only [analyseLoops, if_pos hl]
      exact ⟨List.prefix_rfl, id, fun d hd => Or.inl hd, by simp⟩
    · simp only [analyseLoops, if_neg hl, Proofs.analyseLoops_foldl]
      obtain ⟨d1, d2, d3, d4⟩ := Proofs.addDelta_foldl edges (l :: rest) s.deltas
      refine ⟨d1, d2, fun d hd => ?_, fun _ _ l' hl' d hd => ?_⟩
      · rcases d3 d hd with h | ⟨h, l', hl', hc⟩
        · exact Or.inl h
        · exact Or.inr ⟨h, l', hl', h2 l' hl', hc⟩
      · rw [Proofs.isCut_unique hd (Proofs.leavingEdges_isCut edges l')]
        exact d4 l' hl'

/-- C19, all rounds.  Whatever edges are selected in each round, the constraints after all rounds have no repetition; each is
non-empty and consists, in increasing order, of exactly the edges that leave the nodes of a cycle selected in some round; and
the constraints present after the first rounds are never removed or reordered by the later rounds. -/
theorem C19_rounds {rounds more : List (List (ℕ × ℕ) × List ℕ)} (ho : ∀ r ∈ rounds ++ more, StartOrder r.1 r.2)
    (hs : s.deltas = []) :
    ∃ s1 s2, loopList rounds (fun r s => analyse n maxCount edges r.1 r.2 s) s = some s1 ∧
      loopList more (fun r s => analyse n maxCount edges r.1 r.2 s) s1 = some s2 ∧ s1.deltas <+: s2.deltas ∧ s2.deltas.Nodup ∧
      ∀ d ∈ s2.deltas, d ≠ [] ∧ ∃ r ∈ rounds ++ more, ∃ l, IsCycle (Joined r.1) l ∧ IsCut edges (· ∈ l) d := by
  have key : ∀ (rs : List (List (ℕ × ℕ) × List ℕ)) (s : TspAnalysis), (∀ r ∈ rs, StartOrder r.1 r.2) →
      ∃ s', loopList rs (fun r s => analyse n maxCount edges r.1 r.2 s) s = some s' ∧ s.deltas <+: s'.deltas ∧
        (s.deltas.Nodup → s'.deltas.Nodup) ∧
        ∀ d ∈ s'.deltas, d ∈ s.deltas ∨ d ≠ [] ∧ ∃ r ∈ rs, ∃ l, IsCycle (Joined r.1) l ∧ IsCut edges (· ∈ l) d := by
    intro rs
    induction rs with
    | nil => intro s _; exact ⟨s, rfl, List.prefix_rfl, id, fun d hd => Or.inl hd⟩
    | cons r rs ih =>
      intro s ho
      have hr := ho r List.mem_cons_self
      obtain ⟨loops, h1, -⟩ := C17_subtours hr
      have ha : analyse n maxCount edges r.1 r.2 s = some (analyseLoops n maxCount edges loops s) := by simp [analyse, h1]
      obtain ⟨a1, a2, a3, -⟩ := C19_round hr ha
      obtain ⟨s', b1, b2, b3, b4⟩ := ih (analyseLoops n maxCount edges loops s) fun r hr => ho r (List.mem_cons_of_mem _ hr)
      refine ⟨s', by simp only [loopList, ha, Option.bind_some, b1], a1.trans b2, fun h => b3 (a2 h), fun d hd => ?_⟩
      rcases b4 d hd with h | ⟨h, r', hr', h'⟩
      · rcases a3 d h with h | ⟨h, l, -, h1, h2⟩
        · exact Or.inl h
        · exact Or.inr ⟨h, r, List.mem_cons_self, l, h1, h2⟩
      · exact Or.inr ⟨h, r', List.mem_cons_of_mem _ hr', h'⟩
  obtain ⟨s1, a1, a2, a3, a4⟩ := key rounds s fun r hr => ho r (List.mem_append_left _ hr)
  obtain ⟨s2, b1, b2, b3, b4⟩ := key more s1 fun r hr => ho r (List.mem_append_right _ hr)
  refine ⟨s1, s2, a1, b1, b2, b3 (a3 (by rw [hs]; simp)), fun d hd => ?_⟩
  rcases b4 d hd with h | ⟨h, r, hr, h'⟩
  · rcases a4 d h with h | ⟨h, r, hr, h'⟩
    · rw [hs] at h; simp at h
    · exact ⟨h, r, List.mem_append_left _ hr, h'⟩
  · exact ⟨h, r, List.mem_append_right _ hr, h'⟩

/-- C19, on a complete graph with at least three nodes every constraint that can be added has two distinct edges, which is
what the message passing needs (see C38). -/
theorem C19_two_edges (hn : 3 ≤ n) (hok : EdgesOk n edges) (hc : Complete n edges) {S : ℕ → Prop} {d : List ℕ}
    (hd : IsCut edges S d) (hne : d ≠ []) : d.Nodup ∧ 2 ≤ d.length ∧ ∀ e ∈ d, e < edges.length := by
  have hnd : d.Nodup := hd.1.imp (fun h => Nat.ne_of_lt h)
  refine ⟨hnd, ?_, ?_⟩
  · obtain ⟨i, hi⟩ := List.exists_mem_of_ne_nil _ hne
    obtain ⟨⟨a, b⟩, hcI, ha, hb⟩ := (hd.2 i).mp hi
    obtain ⟨han, hbn, hab⟩ := hok _ (List.mem_of_getElem? hcI)
    simp only at ha hb han hbn hab
    obtain ⟨z, hz, hza, hzb⟩ : ∃ z < n, z ≠ a ∧ z ≠ b := by
      by_cases h0 : 0 ≠ a ∧ 0 ≠ b
      · exact ⟨0, by omega, h0⟩
      · by_cases h1 : 1 ≠ a ∧ 1 ≠ b
        · exact ⟨1, by omega, h1⟩
        · exact ⟨2, by omega, by omega, by omega⟩
    have hj : ∃ j ∈ d, j ≠ i := by
      by_cases hS : S z
      · obtain ⟨j, hj⟩ := List.mem_iff_getElem?.mp (hc z hz b hbn hzb)
        refine ⟨j, (hd.2 j).mpr ⟨_, hj, hS, hb⟩, ?_⟩
        rintro rfl; rw [hj] at hcI; simp at hcI; exact hza hcI
      · obtain ⟨j, hj⟩ := List.mem_iff_getElem?.mp (hc a han z hz (Ne.symm hza))
        refine ⟨j, (hd.2 j).mpr ⟨_, hj, ha, hS⟩, ?_⟩
        rintro rfl; rw [hj] at hcI; simp at hcI; exact hzb hcI
    obtain ⟨j, hj, hij⟩ := hj
    by_contra hlt
    match d, hi, hj, hlt with
    | [x], hi, hj, _ => simp at hi hj; exact hij (hj.trans hi.symm)
    | x :: y :: l, _, _, hlt => simp at hlt
  · intro e he
    obtain ⟨c, hc, -⟩ := (hd.2 e).mp he
    by_contra h
    rw [List.getElem?_eq_none (by omega)] at hc; simp at hc

end

/-- Complete graph on four nodes. -/
def k4 : List (ℕ × ℕ) := [(0, 1), (0, 2), (0, 3), (1, 0), (1, 2), (1, 3), (2, 0), (2, 1), (2, 3), (3, 0), (3, 1), (3, 2)]

/-- Two rounds that find `{0, 1}`, `{2, 3}`, then `{0, 1}` again and `{0, 2, 3}`. -/
example : (loopList [([(0, 1), (1, 0), (2, 3), (3, 2)], [3, 2, 1, 0]), ([(0, 1), (1, 0)], [0, 1]), ([(0, 2), (2, 3), (3, 0)], [0, 3, 2])]
    (fun r s => analyse 4 3 k4 r.1 r.2 s) {}).map (fun s => (s.deltas, s.subtourPaths, s.closedPathsSize)) =
    some ([[6, 7, 9, 10], [1, 2, 4, 5], [0, 7, 10]], [[2, 3, 0]], [3]) := by decide +kernel
example : IsCut k4 (· ∈ [2, 3, 0]) [0, 7, 10] := by
  have h : leavingEdges k4 [2, 3, 0] = [0, 7, 10] := by decide +kernel
  rw [← h]; exact Proofs.leavingEdges_isCut k4 [2, 3, 0]

/-! ## C18 -/

/-- C18, the full claim: when a tour is newly reported, the reported cost is the cost of the tour. -/
def C18_claim : Prop :=
  ∀ (n maxCount : ℕ) (edges : List (ℕ × ℕ)) (w : ℕ → ℕ → ℚ) (cost intr : Arr Num) (thr : Num) (sel : List (ℕ × ℕ)) (total : Num)
    (order : List ℕ) (s s' : TspAnalysis), EdgesOk n edges → edges.Nodup →
    cost.Is edges.length (fun e => w (src edges e) (dst edges e)) → intr.size = edges.length →
    hardDecision edges.length thr intr edges cost = some (sel, total) → StartOrder sel order → s.tourFlag = false →
    analyse n maxCount edges sel order s = some s' → s'.tourFlag = true → total = fin (walkCost w s'.tour)

section
variable {n maxCount : ℕ} {edges sel : List (ℕ × ℕ)} {w : ℕ → ℕ → ℚ} {cost intr : Arr Num} {thr total : Num}
  {order : List ℕ} {s s' : TspAnalysis}

/-- C18, what always holds: the reported cost is the cost of the reported tour plus the cost of the selected edges that are
not steps of the tour.  Missing for the full claim: the second part need not be zero. -/
theorem C18_cost_partial (hok : EdgesOk n edges) (hnd : edges.Nodup)
    (hc : cost.Is edges.length (fun e => w (src edges e) (dst edges e))) (hi : intr.size = edges.length)
    (hh : hardDecision edges.length thr intr edges cost = some (sel, total)) (ho : StartOrder sel order) (hs : s.tourFlag = false)
    (h : analyse n maxCount edges sel order s = some s') (ht : s'.tourFlag = true) :
    total = fin (walkCost w s'.tour + ((sel.filter (fun c => c ∉ s'.tour.zip s'.tour.tail)).map (fun c => w c.1 c.2)).sum) := by
  rw [Proofs.hardDecision_eq hi rfl hc.1] at hh
  simp only [Option.some.injEq, Prod.mk.injEq] at hh
  obtain ⟨h1, h2⟩ := hh
  have hL : ∀ e ∈ Proofs.chosen edges.length thr intr, e < edges.length := fun e hm => List.mem_range.mp (List.mem_filter.mp hm).1
  have hLnd : (Proofs.chosen edges.length thr intr).Nodup := List.nodup_range.filter _
  have hmem : ∀ c ∈ sel, c ∈ edges := by
    intro c hc
    rw [← h1] at hc
    obtain ⟨e, he, rfl⟩ := List.mem_map.mp hc
    have := hL e he
    simp [this]
  have hsel : ∀ c ∈ sel, c.1 < n ∧ c.2 < n := fun c hc => ⟨(hok c (hmem c hc)).1, (hok c (hmem c hc)).2.1⟩
  have hselnd : sel.Nodup := by
    rw [← h1]
    refine hLnd.map_on ?_
    intro a ha b hb hab
    have ha := hL a ha
    have hb := hL b hb
    have e : ∀ {i} (hi : i < edges.length), edges.getD i (0, 0) = edges[i] := fun hi => by simp [hi]
    rw [e ha, e hb] at hab
    exact (List.Nodup.getElem_inj_iff hnd).mp hab
  obtain ⟨htour, -⟩ := C16_tour hsel ho hs h ht
  obtain ⟨-, t2, t3⟩ := Proofs.isTour_steps htour
  rw [← h2, zero_def, Proofs.foldl_fin hc hL, zero_add]
  have e1 : ((Proofs.chosen edges.length thr intr).map (fun e => w (src edges e) (dst edges e))).sum = (sel.map (fun c => w c.1 c.2)).sum := by
    rw [← h1, List.map_map]; rfl
  have e2 : sel.Perm (s'.tour.zip s'.tour.tail ++ sel.filter (fun c => c ∉ s'.tour.zip s'.tour.tail)) := by
    rw [List.perm_ext_iff_of_nodup hselnd]
    · intro c
      rw [List.mem_append, List.mem_filter]
      constructor
      · intro hc
        by_cases hm : c ∈ s'.tour.zip s'.tour.tail
        · exact Or.inl hm
        · exact Or.inr ⟨hc, by simpa using hm⟩
      · rintro (h | h)
        · exact t3 c h
        · exact h.1
    · rw [List.nodup_append]
      refine ⟨t2, hselnd.filter _, ?_⟩
      rintro a ha b hb rfl
      have := (List.mem_filter.mp hb).2
      simp only [decide_not, Bool.not_eq_eq_eq_not, Bool.not_true, decide_eq_false_iff_not] at this
      exact this ha
  rw [e1, (e2.map (fun c => w c.1 c.2)).sum_eq, List.map_append, List.sum_append]
  rfl

/-- C18, the claim holds when exactly `n` edges are selected (as many as a tour has steps). -/
theorem C18_exact_partial (hok : EdgesOk n edges) (hnd : edges.Nodup)
    (hc : cost.Is edges.length (fun e => w (src edges e) (dst edges e))) (hi : intr.size = edges.length)
    (hh : hardDecision edges.length thr intr edges cost = some (sel, total)) (ho : StartOrder sel order) (hs : s.tourFlag = false)
    (h : analyse n maxCount edges sel order s = some s') (ht : s'.tourFlag = true) (hsn : sel.length = n) :
    total = fin (walkCost w s'.tour) := by
  have hp := C18_cost_partial hok hnd hc hi hh ho hs h ht
  suffices hf : sel.filter (fun c => c ∉ s'.tour.zip s'.tour.tail) = [] by rw [hp, hf]; simp
  rw [Proofs.hardDecision_eq hi rfl hc.1] at hh
  simp only [Option.some.injEq, Prod.mk.injEq] at hh
  have hsel : ∀ c ∈ sel, c.1 < n ∧ c.2 < n := by
    intro c hc
    rw [← hh.1] at hc
    obtain ⟨e, he, rfl⟩ := List.mem_map.mp hc
    have := List.mem_range.mp (List.mem_filter.mp he).1
    have hm : edges.getD e (0, 0) ∈ edges := by simp [this]
    exact ⟨(hok _ hm).1, (hok _ hm).2.1⟩
  obtain ⟨htour, -⟩ := C16_tour hsel ho hs h ht
  obtain ⟨t1, t2, t3⟩ := Proofs.isTour_steps htour
  have hperm := (List.subperm_of_subset t2 (fun c hc => t3 c hc)).perm_of_length_le (by omega)
  rw [List.filter_eq_nil_iff]
  intro c hc
  simpa using hperm.mem_iff.mpr hc
end

/-- C18 is false for the code: with the edges `0 → 1 → 2 → 0` and also `0 → 2` selected, the loop `[2, 0]` is dropped as a part
of the long one, a tour is reported, and the reported cost still contains the extra edge. -/
theorem C18_claim_false : ¬ C18_claim := by
  intro h
  have := h 3 3 [(0, 1), (1, 2), (2, 0), (0, 2)] (fun _ _ => 1) (Arr.ofList [fin 1, fin 1, fin 1, fin 1])
    (Arr.ofList [fin (-1), fin (-1), fin (-1), fin (-1)]) (fin 0) [(0, 1), (1, 2), (2, 0), (0, 2)] (fin 4) [2, 1, 0] {}
    { subtourPaths := [[0, 1, 2]], tourFlag := true, satisfied := true, tour := [0, 1, 2, 0] }
    (by unfold EdgesOk; decide) (by decide) ⟨rfl, by decide⟩ rfl (by decide +kernel)
    ⟨by decide, fun u => ⟨fun hu => by
      simp only [List.mem_cons, List.not_mem_nil, or_false] at hu
      rcases hu with rfl | rfl | rfl
      · exact ⟨0, by simp [Joined]⟩
      · exact ⟨2, by simp [Joined]⟩
      · exact ⟨1, by simp [Joined]⟩, fun ⟨v, hv⟩ => by
      simp only [Joined, List.mem_cons, List.not_mem_nil, or_false, Prod.mk.injEq] at hv
      simp only [List.mem_cons, List.not_mem_nil, or_false]; omega⟩⟩ rfl rfl rfl
  simp [walkCost] at this
  norm_num at this

/-- Three edges selected: the cost is the cost of the tour. -/
example : hardDecision 6 (fin 0) (Arr.ofList [fin (-1), fin 1, fin 1, fin (-1), fin (-1), fin 1])
    [(0, 1), (0, 2), (1, 0), (1, 2), (2, 0), (2, 1)] (Arr.ofList [fin 1, fin 9, fin 9, fin 2, fin 4, fin 9]) =
    some ([(0, 1), (1, 2), (2, 0)], fin 7) ∧
    (analyse 3 3 [(0, 1), (0, 2), (1, 0), (1, 2), (2, 0), (2, 1)] [(0, 1), (1, 2), (2, 0)] [2, 1, 0] {}).map (fun s => s.tour) =
      some [0, 1, 2, 0] := by decide +kernel

end Verif.Properties
