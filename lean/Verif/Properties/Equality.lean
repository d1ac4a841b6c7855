import Verif.Proofs.Equality
import Mathlib.Tactic.NormNum

/-! Property C09: variable (equality) nodes send the sum of everything except the recipient's own message. -/

namespace Verif.Properties
open Verif Num Spec Model Proofs

/-- C09, relaxed TSP graph: an edge `(a, b)` has two neighbours, the degree constraints of `a` and `b`.  Towards `a` it
sends its cost plus the message of `b`, and the other way round. -/
theorem C09_edge_relaxed {n E : ℕ} {edges : List (ℕ × ℕ)} (hok : EdgesOk n edges) (hE : edges.length = E)
    {D cost out : Mat Num} {d c : ℕ → ℕ → ℚ} (hD : D.Is E n d) (hc : cost.Is E n c) (hr : out.rows = E) (hcol : out.cols = n) :
    ∃ r, edgeToDegreeRelaxed E edges cost D out = some r ∧ r.rows = E ∧ r.cols = n ∧
      ∀ e a b, edges[e]? = some (a, b) →
        r.data e a = fin (c e a + d e b) ∧ r.data e b = fin (c e b + d e a) ∧
        ∀ v < n, v ≠ a → v ≠ b → r.data e v = fin (c e v + d e v) := by
  obtain ⟨r, h1, h2, h3, h4⟩ := edgeToDegreeRelaxed_is hok hE hD hc hr hcol
  refine ⟨r, h1, h2, h3, fun e a b hab => ?_⟩
  obtain ⟨he, hg⟩ := List.getElem?_eq_some_iff.mp hab
  obtain ⟨ha, hb, hne⟩ := EdgesOk.get hok he
  have h := h4 e he
  rw [hg] at ha hb hne h
  simp only at ha hb hne h
  refine ⟨?_, ?_, fun v hv hva hvb => ?_⟩
  · rw [h a ha, if_pos rfl, add_comm]
  · rw [h b hb, if_neg (Ne.symm hne), if_pos rfl, add_comm]
  · rw [h v hv, if_neg hva, if_neg hvb, add_comm]

/-- C09, augmented TSP graph towards the degree constraints: cost, the message of the other end, and the messages of all
subtour constraints. -/
theorem C09_edge_augmented {n E C : ℕ} {edges : List (ℕ × ℕ)} (hok : EdgesOk n edges) (hE : edges.length = E)
    {D S cost out : Mat Num} {d s c o : ℕ → ℕ → ℚ} (hD : D.Is E n d) (hS : S.Is C E s) (hc : cost.Is E n c)
    (ho : out.Is E n o) :
    ∃ r, edgeToDegreeAugmented E D S edges cost out = some r ∧ r.rows = E ∧ r.cols = n ∧
      ∀ e a b, edges[e]? = some (a, b) →
        r.data e a = fin (c e a + d e b + ∑ k ∈ Finset.range C, s k e) ∧
        r.data e b = fin (c e b + d e a + ∑ k ∈ Finset.range C, s k e) ∧
        ∀ v < n, v ≠ a → v ≠ b → r.data e v = fin (o e v) := by
  obtain ⟨r, h1, h2, h3, h4⟩ := edgeToDegreeAugmented_is hok hE hD hS hc ho
  refine ⟨r, h1, h2, h3, fun e a b hab => ?_⟩
  obtain ⟨he, hg⟩ := List.getElem?_eq_some_iff.mp hab
  obtain ⟨ha, hb, hne⟩ := EdgesOk.get hok he
  have h := h4 e he
  rw [hg] at ha hb hne h
  simp only at ha hb hne h
  refine ⟨?_, ?_, fun v hv hva hvb => ?_⟩
  · rw [h a ha, if_pos rfl]
  · rw [h b hb, if_neg (Ne.symm hne), if_pos rfl]
  · rw [h v hv, if_neg hva, if_neg hvb]

/-- C09, augmented TSP graph towards subtour constraint `k`: cost, both degree messages, and the messages of all *other*
subtour constraints.  One statement covers any number of constraints, hence also the separate code path for a single
one.  Edges that are not in the constraint get zero. -/
theorem C09_edge_subtour {n E C : ℕ} {edges : List (ℕ × ℕ)} (hok : EdgesOk n edges) (hE : edges.length = E)
    {deltas : List (List ℕ)} (hC : deltas.length = C) (hd : ∀ l ∈ deltas, ∀ e ∈ l, e < E)
    {cost : Arr Num} {D S : Mat Num} {c : ℕ → ℚ} {d s : ℕ → ℕ → ℚ}
    (hcost : cost.Is E c) (hD : D.Is E n d) (hS : S.Is C E s) :
    ∃ r, edgeToSubtour E deltas cost D S edges = some r ∧ r.rows = C ∧ r.cols = E ∧
      ∀ k l, deltas[k]? = some l → ∀ e a b, edges[e]? = some (a, b) →
        (e ∈ l → r.data k e = fin (c e + d e a + d e b + ∑ j ∈ (Finset.range C).erase k, s j e)) ∧
        (e ∉ l → r.data k e = 0) := by
  obtain ⟨r, h1, h2, h3, h4⟩ := edgeToSubtour_is hok hE hC hd hcost hD hS
  refine ⟨r, h1, h2, h3, fun k l hl e a b hab => ?_⟩
  obtain ⟨he, hg⟩ := List.getElem?_eq_some_iff.mp hab
  obtain ⟨hk, hgk⟩ := List.getElem?_eq_some_iff.mp hl
  have h := h4 k hk e he
  rw [hg, hgk] at h
  simp only at h
  constructor
  · intro hm; rw [h, if_pos hm]
  · intro hm; rw [h, if_neg hm]; rfl

/-- C09, k-SAT: a used variable sends each of its clauses its cost plus the messages of its *other* clauses; every other
entry is zero.  (The guard "only overwrite when larger in magnitude" never changes the value.) -/
theorem C09_variable_to_clause {nv C : ℕ} {K V : Mat Num} {x : ℕ → ℕ → ℚ} (hK : K.Is C nv x) (hVr : V.rows = C)
    (hVc : V.cols = nv) {used : List ℕ} (hu : ∀ v ∈ used, v < nv) {conns : List (List ℕ)} (hlen : conns.length = nv)
    (hcl : ∀ l ∈ conns, ∀ c ∈ l, c < C) (hnd : ∀ l ∈ conns, l.Nodup) {cost : Arr Num} {w : ℕ → ℚ} (hw : cost.Is nv w) :
    ∃ r, variableToKsat nv K V used cost conns = some r ∧ r.rows = C ∧ r.cols = nv ∧
      ∀ v l, conns[v]? = some l → ∀ c < C,
        (v ∈ used → c ∈ l → r.data c v = fin (w v + ∑ j ∈ l.toFinset.erase c, x j v)) ∧
        (¬ (v ∈ used ∧ c ∈ l) → r.data c v = 0) := by
  obtain ⟨r, h1, h2, h3, h4⟩ := variableToKsat_is hK hVr hVc hu hlen hcl hw
  refine ⟨r, h1, h2, h3, fun v l hl c hc => ?_⟩
  obtain ⟨hv, hg⟩ := List.getElem?_eq_some_iff.mp hl
  have hgd : conns.getD v [] = l := by simp [hl]
  have h := h4 c hc v (by omega)
  simp only at h
  rw [hgd] at h
  have hn : l.Nodup := hnd l (hg ▸ List.getElem_mem hv)
  constructor
  · intro hu' hcl'
    rw [h, if_pos ⟨hu', hcl'⟩, ← List.sum_toFinset _ hn, ← Finset.add_sum_erase _ _ (List.mem_toFinset.mpr hcl')]
    congr 1; ring
  · intro hm; rw [h, if_neg hm]; rfl

/-- C09, assignment solver: a team tells its coupling constraint its reward plus the messages of all departments. -/
theorem C09_team_to_coupling {D T : ℕ} {dept : Mat Num} {x : ℕ → ℕ → ℚ} (hd : dept.Is D T x) {reward t2o : Arr Num}
    {w : ℕ → ℚ} (hw : reward.Is T w) (ht : t2o.size = T) :
    ∃ r, teamToOric T dept t2o reward = some r ∧ r.size = T ∧
      ∀ t < T, r.data t = fin (w t + ∑ d ∈ Finset.range D, x d t) := by
  obtain ⟨r, h1, h2⟩ := teamToOric_is hd ht hw
  refine ⟨r, h1, h2.1, fun t ht => ?_⟩
  rw [h2.2 t ht]

/-- C09, assignment solver: a pair tells the coupling constraint its reward plus the project's message. -/
theorem C09_project_to_coupling {P T : ℕ} {p2e e2o reward : Mat Num} {x w : ℕ → ℕ → ℚ} (hx : p2e.Is P T x)
    (hw : reward.Is P T w) (hr : e2o.rows = P) (hc : e2o.cols = T) :
    ∃ r, projectToOric p2e e2o reward = some r ∧ r.rows = P ∧ r.cols = T ∧
      ∀ p < P, ∀ t < T, r.data p t = fin (w p t + x p t) := by
  obtain ⟨r, h1, h2⟩ := projectToOric_is hx hr hc hw
  refine ⟨r, h1, h2.1, h2.2.1, fun p hp t ht => ?_⟩
  rw [h2.2.2 p hp t ht]

/-- The hypotheses are met by concrete instances: three nodes, four edges, two overlapping subtour constraints; three
variables (one unused) and two clauses. -/
example : EdgesOk 3 [(0, 1), (1, 2), (2, 0), (0, 2)] ∧
    (∀ l ∈ [[0, 3], [1, 3]], ∀ e ∈ l, e < [(0, 1), (1, 2), (2, 0), (0, 2)].length) ∧
    ((edgeToSubtour 4 [[0, 3], [1, 3]] (Arr.ofList [fin 1, fin 2, fin 3, fin 4]) (Mat.ofRat 4 3 fun e v => e + v)
      (Mat.ofRat 2 4 fun k e => 10 * k + e) [(0, 1), (1, 2), (2, 0), (0, 2)]).bind fun r => r.rd 0 3) = some (fin 25) := by
  unfold EdgesOk
  decide +kernel

example : (∀ l ∈ [[0, 1], [1], []], ∀ c ∈ l, c < 2) ∧ (∀ l ∈ [[0, 1], [1], []], l.Nodup) ∧
    ((variableToKsat 3 (Mat.ofRat 2 3 fun c v => 10 * c + v - 5) (Mat.fill 2 3 0) [0, 1]
      (Arr.ofList [fin 1, fin 2, fin 3]) [[0, 1], [1], []]).bind fun r => r.rd 0 0) = some (fin 6) := by
  decide +kernel

example : ((edgeToDegreeAugmented 2 (Mat.ofRat 2 3 fun e v => e + v) (Mat.ofRat 2 2 fun k e => 10 * k + e)
    [(0, 1), (1, 2)] (Mat.fill 2 3 (fin 7)) (Mat.fill 2 3 0)).bind fun r => r.rd 1 1) = some (fin 22) ∧
    ((edgeToDegreeRelaxed 2 [(0, 1), (1, 2)] (Mat.fill 2 3 (fin 7)) (Mat.ofRat 2 3 fun e v => e + v)
      (Mat.fill 2 3 0)).bind fun r => r.rd 1 1) = some (fin 10) := by
  decide +kernel

example : ((teamToOric 2 (Mat.ofRat 3 2 fun d t => d + t) (Arr.fill 2 0) (Arr.ofList [fin 1, fin (-2)])).bind fun r => r.rd 1)
    = some (fin 4) ∧
    ((projectToOric (Mat.ofRat 2 2 fun d t => d + t) (Mat.fill 2 2 0) (Mat.fill 2 2 (fin 5))).bind fun r => r.rd 1 1)
      = some (fin 7) := by
  decide +kernel

end Verif.Properties
