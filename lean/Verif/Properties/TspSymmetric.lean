import Verif.Proofs.TspSymmetric
import Verif.Properties.TspCall

/-! # C51: symmetric costs -/

namespace Verif.Properties
open Verif Num Spec Model

section
variable {s : TspSettings} {order : ℕ → List (ℕ × ℕ) → List ℕ} {fuel limit n : ℕ} {m : Mat Num} {C : ℕ → ℕ → ℚ} {edges : List (ℕ × ℕ)}
  {r : TspResult} {done : Bool}

/-- C51, the algorithm.  If going from `u` to `v` costs as much as going back, then in round 0 (without cuts) an edge is selected if
and only if its reverse is. -/
theorem C51_round (h : AllEdges n edges) (hC : ∀ u < n, ∀ v < n, C u v = C v u) {R : ℕ → TspRound} {k : ℕ}
    (hR : TspRounds (callProblem s n C edges) (endCosts C edges) R k) (u v : ℕ) : Joined (R 0).sel u v ↔ Joined (R 0).sel v u := by
  obtain ⟨rev, hr⟩ := Proofs.exists_reverses h
  obtain ⟨cost, hs⟩ := (hR.ok 0 (Nat.zero_le k)).selects
  have ht := (hR.ok 0 (Nat.zero_le k)).trace
  rw [hR.first_cuts] at ht
  have hlt : ∀ e < edges.length, src edges e < n ∧ dst edges e < n := fun e he => by
    have := h.2.1 _ (List.getElem_mem he)
    rw [Proofs.src_dst he] at this
    exact ⟨this.1, this.2.1⟩
  have hends : ∀ e < edges.length, ∀ v, v = src edges e ∨ v = dst edges e → endCosts C edges (rev e) v = endCosts C edges e v := by
    intro e he v hv
    obtain ⟨a1, a2, a3, -⟩ := hr e he
    unfold endCosts
    rw [a2, a3, if_pos (Or.comm.mp hv), if_pos hv]
    exact hC _ (hlt e he).2 _ (hlt e he).1
  have hbel : ∀ e < edges.length, (R 0).output (callProblem s n C edges) (rev e) + (callProblem s n C edges).w (rev e) =
      (R 0).output (callProblem s n C edges) e + (callProblem s n C edges).w e := by
    intro e he
    obtain ⟨a1, a2, a3, -⟩ := hr e he
    have h1 : (R 0).output (callProblem s n C edges) (rev e) = (R 0).output (callProblem s n C edges) e := by
      unfold TspRound.output
      rw [hR.first_cuts]
      refine Proofs.reverse_output h.2.1 hr hends (fun e he v hv => ?_) (fun e he v hv => ?_) ht he
      · obtain ⟨b1, b2, b3, -⟩ := hr e he
        have hv' : v = src edges (rev e) ∨ v = dst edges (rev e) := by rw [b2, b3]; exact Or.comm.mp hv
        rw [hR.first_start _ b1 v hv', hR.first_start _ he v hv]
        exact hends e he v hv
      · obtain ⟨b1, b2, b3, -⟩ := hr e he
        have hv' : v = src edges (rev e) ∨ v = dst edges (rev e) := by rw [b2, b3]; exact Or.comm.mp hv
        rw [hR.first_degree _ b1 v hv', hR.first_degree _ he v hv]
    rw [h1]
    congr 1
    show C (src edges (rev e)) (dst edges (rev e)) = C (src edges e) (dst edges e)
    rw [a2, a3]
    exact hC _ (hlt e he).2 _ (hlt e he).1
  have key : ∀ u v, Joined (R 0).sel u v → Joined (R 0).sel v u := by
    intro u v huv
    obtain ⟨e, he, rfl, rfl⟩ := Proofs.edge_of_mem (Proofs.selects_sub hs _ huv)
    obtain ⟨a1, a2, a3, -⟩ := hr e he
    have h1 := (Proofs.selects_joined hs h.1 he).mp huv
    rw [← hbel e he] at h1
    have := (Proofs.selects_joined hs h.1 a1).mpr h1
    rwa [show src (callProblem s n C edges).edges (rev e) = dst edges e from a2,
      show dst (callProblem s n C edges).edges (rev e) = src edges e from a3] at this
  exact ⟨key u v, key v u⟩

/-- C51, the call.  With symmetric costs, a call that returns without augmentation has selected every edge together with its
reverse.  So if it reports a tour of selected edges, the reverse tour is selected too; and if costs are not negative, the reported
cost is at least twice the cost of the tour. -/
theorem C51_call (hm : m.Is n n C) (h : AllEdges n edges) (hn : 3 ≤ n) (hC : ∀ u < n, ∀ v < n, C u v = C v u)
    (ho : ∀ k sel, StartOrder sel (order k sel)) (ha : 1 ≤ s.maxAugm) (hlim : n ≤ limit)
    (hr : runImpa s order fuel limit n m edges = some (some (r, done))) (h0 : r.numAugm = 0) :
    (∀ u v, (u, v) ∈ r.selected ↔ (v, u) ∈ r.selected) ∧
    (done = false → ∀ t, r.tour = some t → IsTour (Joined r.selected) n t ∧ IsTour (Joined r.selected) n t.reverse ∧
      ((∀ u < n, ∀ v < n, 0 ≤ C u v) → ∃ q, r.cost = fin q ∧ 2 * walkCost C t ≤ q)) := by
  obtain ⟨k, R, g1, g2, -, -, g5, -, -, g8, -⟩ := C49_result hm h hn ho ha hlim hr
  have hk : k = 0 := by omega
  subst hk
  have hsym : ∀ u v, Joined r.selected u v ↔ Joined r.selected v u := by
    rw [g5]; exact C51_round h hC g1
  refine ⟨hsym, fun hd t ht => ?_⟩
  obtain ⟨p1, cost, p2, p3⟩ := g8 hd
  have htour := (p1 t ht).1
  refine ⟨htour, Proofs.reverse_tour (fun u v => (hsym u v).mp) htour (by omega), fun hpos => ⟨cost, p3, ?_⟩⟩
  obtain ⟨q1, q2⟩ := Proofs.selects_sum h.1 p2
  rw [q2]
  have hsub := Proofs.selects_sub p2
  exact Proofs.double_cost q1 (fun p hp => hpos _ (h.2.1 p (hsub p hp)).1 _ (h.2.1 p (hsub p hp)).2.1) hC (fun u v => (hsym u v).mp) htour hn
    (fun u v huv => (h.2.1 _ (hsub _ huv)).2.2)

/-- C51, generated instances: `create_cost_matrix` in symmetric mode gives such a matrix for all positive random numbers. -/
theorem C51_generated (n : ℕ) {q : ℕ → ℕ → ℚ} (hq : ∀ i j, 0 < q i j) :
    ∃ C, (costMatrix true n (fun i j => fin (q i j))).Is n n C ∧ AllEdges n (nonzeroEdges (costMatrix true n (fun i j => fin (q i j)))) ∧
      (∀ u < n, ∀ v < n, C u v = C v u) ∧ ∀ u < n, ∀ v < n, 0 ≤ C u v := by
  obtain ⟨C, hC, c0, c1, c2, -⟩ := C34_matrix true n q
  refine ⟨C, hC, (C34_complete true n (fun i j => (hq i j).ne')).1, fun u _ v _ => c2 rfl u v, fun u _ v _ => ?_⟩
  rcases lt_trichotomy u v with h | h | h
  · rw [c1 u v h]; exact (hq u v).le
  · rw [h, c0]
  · rw [c2 rfl, c1 v u h]; exact (hq v u).le

end

/-- Nine nodes on a ring: neighbours are near. -/
def ringCosts (u v : ℕ) : ℚ := if u = v then 0 else if (u + 1) % 9 = v ∨ (v + 1) % 9 = u then 1 else 9
/-- All edges, at every node the edge to the next one first. -/
def ringEdges : List (ℕ × ℕ) := (List.range 9).flatMap fun u => (List.range 8).map fun k => (u, (u + k + 1) % 9)

example : AllEdges 9 ringEdges ∧ ∀ u < 9, ∀ v < 9, ringCosts u v = ringCosts v u ∧ 0 ≤ ringCosts u v := by
  refine ⟨⟨by decide +kernel, by unfold EdgesOk; decide +kernel, fun u hu v hv => ?_⟩, by decide +kernel⟩
  interval_cases u <;> interval_cases v <;> decide +kernel
/-- One iteration: the tour of cost 9 is reported with cost 18. -/
example : (runImpa ⟨1, true, true, false, 0, fin 0, 2, 6, true, true⟩ someOrder 8 10 9 (Mat.ofRat 9 9 ringCosts) ringEdges).map
    (Option.map fun p => (p.1.tour, p.1.cost, p.2)) = some (some (some [1, 2, 3, 4, 5, 6, 7, 8, 0, 1], fin 18, false)) := by decide +kernel
example : walkCost ringCosts [1, 2, 3, 4, 5, 6, 7, 8, 0, 1] = 9 := by decide +kernel

end Verif.Properties
