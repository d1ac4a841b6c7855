import Verif.Proofs.Degree
import Verif.Proofs.Subtour

/-! Properties C05 and C06: the degree and subtour elimination constraints of the TSP solver. -/

namespace Verif.Properties
open Verif Num Spec Model Proofs

/-! ## C05 -/

/-- C05: on every loop-free edge list in which each node has an outgoing and an incoming edge, the update runs without
out-of-range access; the message to an outgoing (incoming) edge of `v` is the exact min-sum message of "exactly one
outgoing (incoming) edge of `v` is selected"; entries of edges that do not touch `v` keep their value (zero, as the
caller starts from a zero matrix). -/
theorem C05_degree_messages_exact {n E : ℕ} {x : ℕ → ℕ → ℚ} {M old : Mat Num} {edges : List (ℕ × ℕ)}
    (hok : EdgesOk n edges) (hE : edges.length = E) (ho : ∀ v < n, (outEdges edges v).Nonempty)
    (hi : ∀ v < n, (inEdges edges v).Nonempty) (hM : M.Is E n x) (hr : old.rows = E) (hc : old.cols = n) :
    ∃ out, degreeUpdate n E M edges old = some out ∧ out.rows = E ∧ out.cols = n ∧
      ∀ v < n,
        (∀ e ∈ outEdges edges v, IsMessage (outEdges edges v) ExactlyOne (fun e => x e v) e (out.data e v)) ∧
        (∀ e ∈ inEdges edges v, IsMessage (inEdges edges v) ExactlyOne (fun e => x e v) e (out.data e v)) ∧
        ∀ e, e ∉ outEdges edges v → e ∉ inEdges edges v → out.data e v = old.data e v := by
  obtain ⟨out, h1, h2, h3, h4⟩ := degreeUpdate_eq hok hE ho hi hM hr hc
  refine ⟨out, h1, h2, h3, fun v hv => ?_⟩
  obtain ⟨h5, h6, h7⟩ := h4 v hv
  refine ⟨?_, ?_, h7⟩
  · intro e he
    obtain ⟨w, hw, e'⟩ := h5 e he
    rw [e']; exact exactlyOne_message he hw
  · intro e he
    obtain ⟨w, hw, e'⟩ := h6 e he
    rw [e']; exact exactlyOne_message he hw

/-- C05, what this means in numbers: the message is minus the least message of the *other* candidate edges; a sole
candidate gets minus infinity (it is forced).  In particular the message does not depend on the edge's own message. -/
theorem C05_degree_messages_value {n E : ℕ} {x : ℕ → ℕ → ℚ} {M old out : Mat Num} {edges : List (ℕ × ℕ)}
    (hok : EdgesOk n edges) (hE : edges.length = E) (ho : ∀ v < n, (outEdges edges v).Nonempty)
    (hi : ∀ v < n, (inEdges edges v).Nonempty) (hM : M.Is E n x) (hr : old.rows = E) (hc : old.cols = n)
    (hout : degreeUpdate n E M edges old = some out) {v : ℕ} (hv : v < n) (G : Finset ℕ)
    (hG : G = outEdges edges v ∨ G = inEdges edges v) {e : ℕ} (he : e ∈ G) :
    (G = {e} → out.data e v = ninf) ∧
    ∀ q, IsLeast {q | ∃ e' ∈ G, e' ≠ e ∧ x e' v = q} q → out.data e v = fin (-q) := by
  obtain ⟨out', h1, h2, h3, h4⟩ := degreeUpdate_eq hok hE ho hi hM hr hc
  obtain rfl : out = out' := by rw [hout] at h1; exact Option.some.inj h1
  obtain ⟨h5, h6, -⟩ := h4 v hv
  obtain ⟨w, hw, e'⟩ : ∃ w, IsMin (others G (fun e => x e v) e) w ∧ out.data e v = -w := by
    rcases hG with rfl | rfl
    · exact h5 e he
    · exact h6 e he
  constructor
  · rintro rfl
    have : others ({e} : Finset ℕ) (fun e => x e v) e = ∅ := by ext q; simp [others]
    rw [this] at hw
    rw [e', hw.unique isMin_empty]; rfl
  · intro q hq
    rw [e', hw.unique (isMin_fin hq)]; rfl

/-- Complete directed graph on three nodes in the order of the edge list built by the Python caller. -/
def exEdges3 : List (ℕ × ℕ) := [(0, 1), (0, 2), (1, 0), (1, 2), (2, 0), (2, 1)]

/-- Non-trivial instance of the hypotheses, and computed messages. -/
example : EdgesOk 3 exEdges3 ∧ (∀ v < 3, (outEdges exEdges3 v).Nonempty) ∧ (∀ v < 3, (inEdges exEdges3 v).Nonempty) ∧
    (degreeUpdate 3 6 (Mat.ofRat 6 3 (fun e v => (e : ℚ) - v)) exEdges3 (Mat.fill 6 3 0)).map
      (fun o => (o.data 0 0, o.data 1 0, o.data 2 0, o.data 4 0, o.data 3 0)) =
      some (fin (-1), fin 0, fin (-4), fin (-2), fin 0) := by
  refine ⟨by unfold EdgesOk exEdges3; decide, ?_, ?_, by decide +kernel⟩
  · intro v hv
    rw [Finset.nonempty_iff_ne_empty]
    revert v; decide
  · intro v hv
    rw [Finset.nonempty_iff_ne_empty]
    revert v; decide

/-! ## C06 -/

/-- C06: for every list of nonempty duplicate-free edge sets, the message of each constraint to each of its edges is
the exact min-sum message of "at least one of these edges is selected", never positive, and other entries keep their
value (zero in the caller). -/
theorem C06_subtour_messages_exact {E C : ℕ} {x : ℕ → ℕ → ℚ} {M old : Mat Num} {deltas : List (List ℕ)}
    (hC : deltas.length = C) (hd : ∀ l ∈ deltas, l.Nodup ∧ l ≠ [] ∧ ∀ e ∈ l, e < E) (hM : M.Is C E x)
    (hr : old.rows = C) (hc : old.cols = E) :
    ∃ out, subtourUpdate E M deltas old = some out ∧ out.rows = C ∧ out.cols = E ∧
      ∀ c, ∀ h : c < deltas.length,
        (∀ e ∈ deltas[c], IsMessage deltas[c].toFinset AtLeastOne (x c) e (out.data c e) ∧
          (out.data c e = ninf ∧ deltas[c] = [e] ∨ ∃ q, out.data c e = fin q ∧ q ≤ 0)) ∧
        ∀ e, e ∉ deltas[c] → out.data c e = old.data c e := by
  obtain ⟨out, h1, h2, h3, h4⟩ := subtourUpdate_eq hC hd hM hr hc
  refine ⟨out, h1, h2, h3, fun c h => ?_⟩
  obtain ⟨h5, h6⟩ := h4 c h
  refine ⟨fun e he => ?_, h6⟩
  obtain ⟨w, hw, e'⟩ := h5 e he
  rw [e']
  refine ⟨atLeastOne_message (by simpa using he) hw, ?_⟩
  rcases hw with ⟨hem, rfl⟩ | ⟨q, rfl, -⟩
  · left
    refine ⟨rfl, ?_⟩
    have hall : ∀ f ∈ deltas[c], f = e := by
      intro f hf
      by_contra hne
      have : x c f ∈ others deltas[c].toFinset (x c) e := ⟨f, by simpa using hf, hne, rfl⟩
      rw [hem] at this; exact this
    have hnd := (hd _ (List.getElem_mem h)).1
    generalize deltas[c] = l at he hall hnd
    match l with
    | [] => simp at he
    | [a] => rw [hall a (by simp)]
    | a :: b :: l =>
      have h1 := hall a (by simp)
      have h2 := hall b (by simp)
      rw [h1, h2] at hnd; simp at hnd
  · right
    exact ⟨min (-q) 0, by simp, min_le_right _ _⟩

/-- Non-trivial instance: two constraints on six edges. -/
example : (∀ l ∈ [[0, 3, 4], [1, 5]], l.Nodup ∧ l ≠ [] ∧ ∀ e ∈ l, e < 6) ∧
    (subtourUpdate 6 (Mat.ofRat 2 6 (fun c e => (e : ℚ) + 1 - 3 * c)) [[0, 3, 4], [1, 5]] (Mat.fill 2 6 0)).map
      (fun o => (o.data 0 0, o.data 0 3, o.data 1 1, o.data 1 5, o.data 0 1)) =
      some (fin (-4), fin (-1), fin (-3), fin 0, fin 0) := by
  refine ⟨by decide, by decide +kernel⟩

end Verif.Properties
