import Mathlib.Tactic.FinCases
import Verif.Proofs.TspExcess

/-! C25: the post-processing of the TSP solver.  C45: the edges it removes at overfull nodes. -/

namespace Verif.Properties
open Verif Model Spec Proofs Num

/-- The input of the post-processing: a complete graph with costs `C`, one belief per edge, distinct selected edges, subtours along selected
edges, and a recursion limit of at least the number of nodes. -/
structure PostInput (py : TspPy) (C : ℕ → ℕ → ℚ) (limit : ℕ) (sel : List (ℕ × ℕ)) (subtours : Option (List (List ℕ))) : Prop where
  graph : PyOk py C
  beliefs : py.edges.length ≤ py.intr.length
  selected : ∀ e ∈ sel, e ∈ py.edges
  distinct : sel.Nodup
  closed : SubtoursOk sel subtours
  deep : py.n ≤ limit

section
variable {py : TspPy} {C : ℕ → ℕ → ℚ} {limit : ℕ} {sel : List (ℕ × ℕ)} {subtours : Option (List (List ℕ))}

theorem closeTour {C : ℕ → ℕ → ℚ} {n : ℕ} {t : List ℕ} (ht : Visits n t) (hn : 2 ≤ n) :
    IsTour (fun u v => u ≠ v) n (t ++ t.head?.toList) ∧ walkCost C (t ++ t.head?.toList) = tourLength C t := by
  obtain ⟨a, q, rfl, h⟩ := visits_isTour ht hn
  exact ⟨by simpa using h, by simpa using walkCost_closed C a q⟩

/-- C25, safety: whatever was selected, if the post-processing returns, its result is a closed tour through all nodes, each visited once, and
the returned cost is the cost of that tour. -/
theorem C25_tour (h : PostInput py C limit sel subtours) {kOpt : Bool} {out : List ℕ} {cost : Num}
    (hr : runPostProcessing py limit kOpt sel subtours = some (out, cost)) :
    IsTour (fun u v => u ≠ v) py.n out ∧ cost = fin (walkCost C out) := by
  obtain ⟨E, -, paths, -, ⟨-, h2⟩ | ⟨-, t, t1, -, hn, ht⟩⟩ := post_spec h.graph h.beliefs h.selected h.distinct h.closed h.deep kOpt
  · rw [h2] at hr; simp at hr
  · rcases ht with ⟨-, e⟩ | ⟨-, -, e⟩ | ⟨-, -, -, t2, v2, -, -, e⟩ <;> rw [e] at hr
    · obtain ⟨rfl, rfl⟩ : t ++ t.head?.toList = out ∧ fin (tourLength C t) = cost := by simpa using hr
      obtain ⟨a, b⟩ := closeTour (C := C) t1 hn
      exact ⟨a, by rw [b]⟩
    · simp at hr
    · obtain ⟨rfl, rfl⟩ : t2 ++ t2.head?.toList = out ∧ fin (tourLength C t2) = cost := by simpa using hr
      obtain ⟨a, b⟩ := closeTour (C := C) v2 hn
      exact ⟨a, by rw [b]⟩

/-- C25, when it returns: exactly if some kept edge leads to a node that no kept edge leaves and, with k-opt, there are at least five nodes.
In all other cases the code raises an exception. -/
theorem C25_returns (h : PostInput py C limit sel subtours) (kOpt : Bool) :
    ∃ E, keptEdges py sel subtours = some E ∧
      ((runPostProcessing py limit kOpt sel subtours).isSome ↔ HasEnd E ∧ (kOpt = true → 5 ≤ py.n)) := by
  obtain ⟨E, e1, paths, -, ⟨h1, h2⟩ | ⟨h1, t, -, -, -, ht⟩⟩ := post_spec h.graph h.beliefs h.selected h.distinct h.closed h.deep kOpt
  · exact ⟨E, e1, by simp [h2, h1]⟩
  · refine ⟨E, e1, ?_⟩
    rcases ht with ⟨k, e⟩ | ⟨k, hn, e⟩ | ⟨-, hn, -, t2, -, -, -, e⟩ <;> rw [e]
    · simp [h1, k]
    · simp [k]; omega
    · simp [h1, hn]

/-- C25: the kept edges are selected edges, and no two of them leave or enter the same node. -/
theorem C25_kept (h : PostInput py C limit sel subtours) : ∃ E, keptEdges py sel subtours = some E ∧ E.Nodup ∧ (∀ e ∈ E, e ∈ sel) ∧
    OneOut E ∧ OneIn E := by
  obtain ⟨R, B, E, -, e1, e2, e3, e4, e5, -⟩ := keptEdges_spec h.graph.edges.2.1 h.beliefs h.selected h.distinct h.closed
  exact ⟨E, e1, e2, fun e he => ((e3 e).mp he).1, e4, e5⟩

/-- C25: without k-opt the returned tour contains the open paths of the kept edges, in the cheapest order that starts with the first path,
and the other nodes at the two ends, where they were added greedily.  With k-opt it is an improvement of that tour. -/
theorem C25_structure (h : PostInput py C limit sel subtours) {kOpt : Bool} {out : List ℕ} {cost : Num}
    (hr : runPostProcessing py limit kOpt sel subtours = some (out, cost)) :
    ∃ E paths t, keptEdges py sel subtours = some E ∧ OpenPaths E paths ∧ Joining py.n C paths t ∧
      (kOpt = false → out = t ++ t.head?.toList) ∧
      (kOpt = true → ∃ t1 t2, BestOf C Rotated3 t t1 ∧ BestOf C Swapped t1 t2 ∧ out = t2 ++ t2.head?.toList) := by
  obtain ⟨E, e1, paths, p1, ⟨-, h2⟩ | ⟨-, t, t1, t2, hn, ht⟩⟩ := post_spec h.graph h.beliefs h.selected h.distinct h.closed h.deep kOpt
  · rw [h2] at hr; simp at hr
  · refine ⟨E, paths, t, e1, p1, t2, ?_⟩
    rcases ht with ⟨k, e⟩ | ⟨-, -, e⟩ | ⟨k, -, s1, s2, -, b1, b2, e⟩ <;> rw [e] at hr
    · have : t ++ t.head?.toList = out := by simpa using congrArg (Option.map Prod.fst) hr
      exact ⟨fun _ => this.symm, fun hk => by rw [k] at hk; cases hk⟩
    · simp at hr
    · have : s2 ++ s2.head?.toList = out := by simpa using congrArg (Option.map Prod.fst) hr
      exact ⟨fun hk => absurd (k.symm.trans hk) (by decide), fun _ => ⟨s1, s2, b1, b2, this.symm⟩⟩

/-- C25 as stated, with the guard that a path is found: some kept edge leads to a node without kept outgoing edge. -/
def C25_claim : Prop :=
  ∀ (py : TspPy) (C : ℕ → ℕ → ℚ) (limit : ℕ) (kOpt : Bool) (sel : List (ℕ × ℕ)) (subtours : Option (List (List ℕ))) (E : List (ℕ × ℕ)),
    PostInput py C limit sel subtours → keptEdges py sel subtours = some E → HasEnd E →
    ∃ out, runPostProcessing py limit kOpt sel subtours = some (out, fin (walkCost C out)) ∧ IsTour (fun u v => u ≠ v) py.n out

/-- C25 without that guard, for every nonempty selection. -/
def C25_selection_claim : Prop :=
  ∀ (py : TspPy) (C : ℕ → ℕ → ℚ) (limit : ℕ) (kOpt : Bool) (sel : List (ℕ × ℕ)) (subtours : Option (List (List ℕ))),
    PostInput py C limit sel subtours → 5 ≤ py.n → sel ≠ [] →
    ∃ out, runPostProcessing py limit kOpt sel subtours = some (out, fin (walkCost C out)) ∧ IsTour (fun u v => u ≠ v) py.n out

/-- Attributes for `n` nodes with all costs and beliefs one. -/
def pyOnes (n : ℕ) : TspPy :=
  let m := costMatrix false n (fun _ _ => fin 1)
  { edges := nonzeroEdges m, costs := (edgeCosts m (nonzeroEdges m)).getD [], intr := (nonzeroEdges m).map (fun _ => fin 1), matrix := m, n := n }

theorem pyOnes_ok (n : ℕ) : ∃ C, PyOk (pyOnes n) C := by
  obtain ⟨C, hC, -⟩ := C34_matrix false n (fun _ _ => 1)
  obtain ⟨-, -, h3⟩ := C34_edges hC
  refine ⟨C, (C34_complete false n (fun _ _ => one_ne_zero)).1, ?_, hC⟩
  unfold pyOnes
  simp only [h3, Option.getD_some]

theorem pyOnes_input {n limit : ℕ} (hl : n ≤ limit) {sel : List (ℕ × ℕ)} (hsel : ∀ e ∈ sel, e ∈ (pyOnes n).edges) (hd : sel.Nodup) :
    ∃ C, PostInput (pyOnes n) C limit sel none := by
  obtain ⟨C, hC⟩ := pyOnes_ok n
  exact ⟨C, hC, by simp [pyOnes], hsel, hd, fun s h => by simp at h, hl⟩

/-- With four nodes and k-opt the code raises an exception. -/
theorem C25_claim_false : ¬ C25_claim := by
  intro h
  obtain ⟨C, hC⟩ := pyOnes_input (n := 4) (le_refl _) (sel := [(0, 1)]) (by decide +kernel) (by decide)
  obtain ⟨out, h1, -⟩ := h (pyOnes 4) C 4 true [(0, 1)] none [(0, 1)] hC (by decide +kernel) ⟨0, 1, by simp [Joined], by simp [Joined]⟩
  rw [show runPostProcessing (pyOnes 4) 4 true [(0, 1)] none = none by decide +kernel] at h1
  simp at h1

/-- With equal beliefs and two nodes that each select the same two successors all four edges are removed, and the code raises an
exception. -/
theorem C25_selection_claim_false : ¬ C25_selection_claim := by
  intro h
  obtain ⟨C, hC⟩ := pyOnes_input (n := 5) (le_refl _) (sel := [(0, 2), (0, 3), (1, 2), (1, 3)]) (by decide +kernel) (by decide)
  obtain ⟨out, h1, -⟩ := h (pyOnes 5) C 5 false _ none hC (le_refl _) (by simp)
  rw [show runPostProcessing (pyOnes 5) 5 false [(0, 2), (0, 3), (1, 2), (1, 3)] none = none by decide +kernel] at h1
  simp at h1

/-- C25 for runs that find a path: it holds without k-opt, and with k-opt from five nodes on.  Missing for the full claim: k-opt with at most
four nodes, where the code raises an exception. -/
theorem C25_path_partial (h : PostInput py C limit sel subtours) {kOpt : Bool} {E : List (ℕ × ℕ)} (hE : keptEdges py sel subtours = some E)
    (hend : HasEnd E) (hn : kOpt = true → 5 ≤ py.n) :
    ∃ out, runPostProcessing py limit kOpt sel subtours = some (out, fin (walkCost C out)) ∧ IsTour (fun u v => u ≠ v) py.n out := by
  obtain ⟨E', e1, e2⟩ := C25_returns h kOpt
  obtain rfl : E = E' := by rw [hE] at e1; simpa using e1
  obtain ⟨⟨out, cost⟩, hr⟩ := Option.isSome_iff_exists.mp (e2.mpr ⟨hend, hn⟩)
  obtain ⟨h1, rfl⟩ := C25_tour h hr
  exact ⟨out, hr, h1⟩

/-- C25 for every nonempty selection, under conditions on the selection: no two selected edges leave or enter the same node, and either some
selected edge leads to a node that no selected edge leaves, or there are reported subtours, without common nodes.  Missing for the full
claim: selections with overfull nodes, where all edges may be removed, and selections that consist of cycles that were not reported. -/
theorem C25_selection_partial (h : PostInput py C limit sel subtours) {kOpt : Bool} (hn : kOpt = true → 5 ≤ py.n) (hout : OneOut sel)
    (hin : OneIn sel) (hcase : HasEnd sel ∨ ∃ s, subtours = some s ∧ s ≠ [] ∧ s.Pairwise List.Disjoint) :
    ∃ out, runPostProcessing py limit kOpt sel subtours = some (out, fin (walkCost C out)) ∧ IsTour (fun u v => u ≠ v) py.n out := by
  obtain ⟨R, B, E, r1, e1, -, e3, -, -, b1, b2⟩ := keptEdges_spec h.graph.edges.2.1 h.beliefs h.selected h.distinct h.closed
  obtain rfl : [] = R := by rw [excess_none h.distinct hin hout] at r1; simpa using r1
  refine C25_path_partial h e1 ?_ hn
  rcases hcase with ⟨u, v, hj, hno⟩ | ⟨s, rfl, hne, hdis⟩
  · refine ⟨u, v, (e3 _).mpr ⟨hj, by simp, fun hB => ?_⟩, fun w hw => hno w ((e3 _).mp hw).1⟩
    obtain ⟨s, rfl, p, hp, -, hpair, -⟩ := b1 _ hB
    obtain ⟨w, hw⟩ := closed_next (h.closed s rfl p hp).1 hpair
    exact hno w (pairs_joined (h.closed s rfl p hp).2.1 _ hw)
  · obtain ⟨p, hp⟩ := List.exists_mem_of_ne_nil _ hne
    obtain ⟨c1, c2⟩ := b2 s rfl
    rcases c1 p hp with ⟨x, -, hx⟩ | ⟨e, heB, hep⟩
    · simp at hx
    obtain ⟨hc, hch, -⟩ := h.closed s rfl p hp
    obtain ⟨w, hw⟩ := closed_prev hc hep
    have hesel : e ∈ sel := pairs_joined hch e hep
    have hwsel : (w, e.1) ∈ sel := pairs_joined hch _ hw
    refine ⟨w, e.1, (e3 _).mpr ⟨hwsel, by simp, fun hB => ?_⟩, fun x hx => ?_⟩
    · have := c2 hdis p hp _ hB _ heB hw hep
      have hd := (h.graph.edges.2.1 _ (h.selected _ hwsel)).2.2
      rw [this] at hd
      have h2 : w = e.1 := congrArg Prod.fst this
      have h3 : e.1 = e.2 := congrArg Prod.snd this
      exact hd h3
    · obtain ⟨hx1, -, hx2⟩ := (e3 _).mp hx
      have : e.2 = x := hout e.1 e.2 x hesel hx1
      exact hx2 (by rw [← this]; exact heB)
end

/-- Two reported subtours and a free node: both subtours are cut and joined. -/
example : (runPostProcessing { pyOnes 6 with intr := (List.range 30).map (fun i => fin (i + 1)) } 6 true
    [(0, 1), (1, 0), (2, 3), (3, 4), (4, 2)] (some [[0, 1, 0], [2, 3, 4, 2]])) = some ([5, 1, 0, 3, 4, 2, 5], fin 6) := by decide +kernel

/-- The cut subtours. -/
example : keptEdges { pyOnes 6 with intr := (List.range 30).map (fun i => fin (i + 1)) } [(0, 1), (1, 0), (2, 3), (3, 4), (4, 2)]
    (some [[0, 1, 0], [2, 3, 4, 2]]) = some [(1, 0), (3, 4), (4, 2)] := by decide +kernel

/-! ## C45 -/

/-- C45: an edge that is removed because of an overfull node shares an end with a kept edge of at least the same strength. -/
def C45_claim : Prop :=
  ∀ (py : TspPy) (C : ℕ → ℕ → ℚ) (limit : ℕ) (sel : List (ℕ × ℕ)) (b : ℕ × ℕ → ℚ) (R : List (ℕ × ℕ)), PostInput py C limit sel none →
    Beliefs py b → removeExcess py (constructGraph sel) = some R →
    ∀ e ∈ R, ∃ e' ∈ sel, e' ∉ R ∧ (e'.1 = e.1 ∨ e'.2 = e.2) ∧ |b e| ≤ |b e'|

/-- The claim fails: all edges may be removed. -/
theorem C45_claim_false : ¬ C45_claim := by
  intro h
  obtain ⟨C, hC⟩ := pyOnes_input (n := 5) (le_refl _) (sel := [(0, 2), (0, 3), (1, 2), (1, 3)]) (by decide +kernel) (by decide)
  obtain ⟨e', h1, h2, -⟩ := h (pyOnes 5) C 5 _ (fun _ => 1) [(0, 2), (1, 2), (0, 3), (1, 3)] hC rfl (by decide +kernel) (0, 2) (by simp)
  apply h2
  fin_cases h1 <;> simp

/-- C45 holds when every node is entered by at most one selected edge (or left by at most one).  Missing for the full claim: selections with
overfull nodes in both directions. -/
theorem C45_replaced_partial {py : TspPy} {C : ℕ → ℕ → ℚ} {limit : ℕ} {sel : List (ℕ × ℕ)} {b : ℕ × ℕ → ℚ} {R : List (ℕ × ℕ)}
    (h : PostInput py C limit sel none) (hb : Beliefs py b) (hR : removeExcess py (constructGraph sel) = some R) :
    (OneIn sel → ∀ e ∈ sel, ∃ e' ∈ sel, e' ∉ R ∧ e'.1 = e.1 ∧ |b e| ≤ |b e'|) ∧
    (OneOut sel → ∀ e ∈ sel, ∃ e' ∈ sel, e' ∉ R ∧ e'.2 = e.2 ∧ |b e| ≤ |b e'|) := by
  refine ⟨fun hin e he => ?_, fun hout e he => ?_⟩
  · obtain ⟨e', a, b', c, d⟩ := excess_out h.beliefs h.selected h.distinct hb hin hR e he
    exact ⟨e', a, c, b', d⟩
  · obtain ⟨e', a, b', c, d⟩ := excess_in h.beliefs h.selected h.distinct hb hout hR e he
    exact ⟨e', a, c, b', d⟩

/-- C45, one direction of one node: with at most one edge nothing is removed; if one of the edges was removed at another node before, all are
removed; otherwise exactly one is kept, and it is a strongest. -/
theorem C45_node {py : TspPy} (hlen : py.edges.length ≤ py.intr.length) {conns : List (ℕ × ℕ)} (hc : ∀ e ∈ conns, e ∈ py.edges)
    (hd : conns.Nodup) (removed : List (ℕ × ℕ)) :
    ∃ R, thinOut py conns conns.length [] removed = some R ∧ (∀ e, e ∉ conns → (e ∈ R ↔ e ∈ removed)) ∧
      (conns.length ≤ 1 → R = removed) ∧ (2 ≤ conns.length → (∃ e ∈ conns, e ∈ removed) → ∀ e ∈ conns, e ∈ R) ∧
      (2 ≤ conns.length → (∀ e ∈ conns, e ∉ removed) →
        ∃ e ∈ conns, (∀ e' ∈ conns, e' ∉ R ↔ e' = e) ∧ ∀ b, Beliefs py b → ∀ e' ∈ conns, |b e'| ≤ |b e|) := by
  obtain ⟨R, h1, h2, h3, h4⟩ := thinOut_node hlen hc hd removed
  exact ⟨R, h1, fun e he => ⟨fun h => (h3 e h).resolve_right he, h2 e⟩, h4⟩

/-- C45: a reported subtour that lost no edge at an overfull node loses its weakest edge, and only such edges are removed in addition. -/
theorem C45_subtours {py : TspPy} {C : ℕ → ℕ → ℚ} {limit : ℕ} {sel : List (ℕ × ℕ)} {s : List (List ℕ)}
    (h : PostInput py C limit sel (some s)) {b : ℕ × ℕ → ℚ} (hb : Beliefs py b) :
    ∃ R B E : List (ℕ × ℕ), removeExcess py (constructGraph sel) = some R ∧ keptEdges py sel (some s) = some E ∧ (∀ e, e ∈ E ↔ e ∈ sel ∧ e ∉ R ∧ e ∉ B) ∧
      (∀ p ∈ s, ∃ e ∈ p.zip p.tail, e ∉ E) ∧
      (∀ e ∈ B, ∃ p ∈ s, (∀ x ∈ p.zip p.tail, x ∉ R) ∧ e ∈ p.zip p.tail ∧ ∀ e' ∈ p.zip p.tail, |b e| ≤ |b e'|) := by
  obtain ⟨R, B, E, r1, e1, -, e3, -, -, b1, b2⟩ := keptEdges_spec h.graph.edges.2.1 h.beliefs h.selected h.distinct h.closed
  refine ⟨R, B, E, r1, e1, e3, fun p hp => ?_, fun e he => ?_⟩
  · rcases (b2 s rfl).1 p hp with ⟨x, hx, hR⟩ | ⟨e, heB, hep⟩
    · exact ⟨x, hx, fun hE => ((e3 x).mp hE).2.1 hR⟩
    · exact ⟨e, hep, fun hE => ((e3 e).mp hE).2.2 heB⟩
  · obtain ⟨s', hs, p, hp, a1, a2, a3⟩ := b1 e he
    obtain rfl : s = s' := by simpa using hs
    exact ⟨p, hp, a1, a2, a3 b hb⟩

/-- Three edges leave node 0; the strongest is kept. -/
example : removeExcess { pyOnes 5 with intr := (List.range 20).map (fun i => fin (if i = 1 then -9 else i)) }
    (constructGraph [(0, 1), (0, 2), (0, 3), (4, 0)]) = some [(0, 1), (0, 3)] := by decide +kernel

end Verif.Properties
