import Verif.Proofs.TspIO
import Verif.Properties.TspCost
import Verif.Properties.TspRounds

/-! # C48: the inputs of the TSP solver -/

namespace Verif.Properties
open Verif Num Spec Model

section
variable {n : ℕ} {m : Mat Num} {edges : List (ℕ × ℕ)}

/-- The tables as Python builds them and the native side decodes them: `(inputs, start messages)`. -/
def tspInputs (flag : Bool) (alpha : ℚ) (n : ℕ) (m : Mat Num) (edges : List (ℕ × ℕ)) : Option (TspInputs × Mat Num) :=
  (tspTables n m edges).bind (fun t => tspDecode n (n * n - n) flag alpha (tspFlatten m edges t.1 t.2))

/-- C48.  With one edge per edge variable the native side receives, for any numbers in the matrix (also infinite or NaN): the
list of edges, the cost of every edge, the cost matrix, and for every edge a row with its cost at its two ends and zero at all other
nodes, both as degree costs and as start messages. -/
theorem C48_decoded (flag : Bool) (alpha : ℚ) (hr : m.rows = n) (hc : m.cols = n) (h : EdgesOk n edges)
    (hl : edges.length = n * n - n) :
    ∃ inp a, tspInputs flag alpha n m edges = some (inp, a) ∧
      inp.numNodes = n ∧ inp.numEdges = n * n - n ∧ inp.edges = edges ∧ inp.flag = flag ∧ inp.alpha = alpha ∧
      inp.cost.size = n * n - n ∧ (∀ e < n * n - n, inp.cost.data e = m.data (src edges e) (dst edges e)) ∧
      (inp.costMatrix.rows = n ∧ inp.costMatrix.cols = n ∧ ∀ u < n, ∀ v < n, inp.costMatrix.data u v = m.data u v) ∧
      (inp.degCost.rows = n * n - n ∧ inp.degCost.cols = n ∧ ∀ e < n * n - n, ∀ v < n,
        inp.degCost.data e v = if v = src edges e ∨ v = dst edges e then m.data (src edges e) (dst edges e) else 0) ∧
      a.rows = n * n - n ∧ a.cols = n ∧ ∀ e < n * n - n, ∀ v < n,
        a.data e v = if v = src edges e ∨ v = dst edges e then m.data (src edges e) (dst edges e) else 0 := by
  obtain ⟨costs, table, t1, t2, t3, -, t4, t5, t6, -⟩ := Proofs.tspTables_spec hr hc h hl.le
  obtain ⟨inp, a, d1, d2, d3, d4, d5, d6, d7, d8, d9, d10, d11, d12, d13⟩ := Proofs.tspDecode_spec flag alpha hr hc hl t2 t4 t5
  rw [hl] at t3 t6
  refine ⟨inp, a, by rw [tspInputs, t1]; exact d1, d2, d3, d4, d5, d6, d7, fun e he => by rw [d8 e he, t3 e he], d9,
    ⟨d10.1, d10.2.1, fun e he v hv => by rw [d10.2.2 e he v hv, t6 e he v hv]⟩, d11, d12,
    fun e he v hv => by rw [d13 e he v hv, t6 e he v hv]⟩

/-- C48, other numbers of edges.  With more edges Python raises `IndexError`; with fewer edges Python goes on and the native side
reads past the end of the array of connections. -/
theorem C48_defined (flag : Bool) (alpha : ℚ) (hr : m.rows = n) (hc : m.cols = n) (h : EdgesOk n edges) :
    ((tspTables n m edges).isSome ↔ edges.length ≤ n * n - n) ∧
    ((tspInputs flag alpha n m edges).isSome ↔ edges.length = n * n - n) := by
  rcases lt_trichotomy edges.length (n * n - n) with hl | hl | hl
  · obtain ⟨costs, table, t1, -⟩ := Proofs.tspTables_spec hr hc h hl.le
    refine ⟨by simp [t1, hl.le], ?_⟩
    rw [tspInputs, t1, Option.bind_some, Proofs.tspDecode_short flag alpha hl]
    simp [hl.ne]
  · obtain ⟨costs, table, t1, -⟩ := Proofs.tspTables_spec hr hc h hl.le
    obtain ⟨inp, a, d, -⟩ := C48_decoded flag alpha hr hc h hl
    exact ⟨by simp [t1, hl.le], by simp [d, hl]⟩
  · have t := Proofs.tspTables_long (m := m) hl
    refine ⟨by simp [t, hl], ?_⟩
    rw [tspInputs, t]
    simp [hl.ne']

/-- The number of edges of a complete graph. -/
theorem allEdges_length (h : AllEdges n edges) : edges.length = n * n - n := by
  have : edges.toFinset = (Finset.range n).offDiag := by
    ext ⟨i, j⟩
    simp only [List.mem_toFinset, Finset.mem_offDiag, Finset.mem_range]
    exact ⟨fun he => h.2.1 _ he, fun he => h.2.2 i he.1 j he.2.1 he.2.2⟩
  rw [← List.toFinset_card_of_nodup h.1, this, Finset.offDiag_card, Finset.card_range]

/-- C48, zero costs.  The edges are the nonzero entries of the matrix.  With a zero diagonal the inputs can be decoded exactly if
all costs between different nodes are nonzero: one zero cost is enough for a read past the end of an array. -/
theorem C48_zero_cost (flag : Bool) (alpha : ℚ) {C : ℕ → ℕ → ℚ} (hm : m.Is n n C) (h0 : ∀ v < n, C v v = 0) :
    (tspInputs flag alpha n m (nonzeroEdges m)).isSome ↔ ∀ u < n, ∀ v < n, u ≠ v → C u v ≠ 0 := by
  obtain ⟨e1, e2, -⟩ := C34_edges hm
  have hok : EdgesOk n (nonzeroEdges m) := fun e he => by
    obtain ⟨a, b, c⟩ := (e2 e.1 e.2).mp he
    exact ⟨a, b, fun hh => c (by rw [← hh]; exact h0 _ a)⟩
  have hnd : (nonzeroEdges m).Nodup := e1.imp (fun {a b} h hab => by subst hab; omega)
  rw [(C48_defined flag alpha hm.1 hm.2.1 hok).2]
  constructor
  · intro hl u hu v hv huv
    have hsub : (nonzeroEdges m).toFinset ⊆ (Finset.range n).offDiag := by
      rintro ⟨i, j⟩ hij
      simp only [List.mem_toFinset, Finset.mem_offDiag, Finset.mem_range] at hij ⊢
      exact hok _ hij
    have heq : (nonzeroEdges m).toFinset = (Finset.range n).offDiag := by
      refine Finset.eq_of_subset_of_card_le hsub ?_
      rw [List.toFinset_card_of_nodup hnd, hl, Finset.offDiag_card, Finset.card_range]
    have : (u, v) ∈ (nonzeroEdges m).toFinset := by
      rw [heq]; simp [hu, hv, huv]
    rw [List.mem_toFinset] at this
    exact ((e2 u v).mp this).2.2
  · intro hC
    exact allEdges_length ⟨hnd, hok, fun u hu v hv huv => (e2 u v).mpr ⟨hu, hv, hC u hu v hv huv⟩⟩

/-- C48, for a complete graph with finite costs and at least three nodes the decoded inputs are a well-formed instance for the
theorems about the solver (C12, C38, C46), with the cost of each edge taken from the matrix. -/
theorem C48_instance (flag : Bool) (alpha : ℚ) {C : ℕ → ℕ → ℚ} (hm : m.Is n n C) (h : AllEdges n edges) (hn : 3 ≤ n) :
    ∃ inp a, tspInputs flag alpha n m edges = some (inp, a) ∧ inp.numNodes = n ∧ inp.numEdges = n * n - n ∧ inp.edges = edges ∧
      inp.flag = flag ∧ inp.alpha = alpha ∧
      TspOk inp (fun e => C (src edges e) (dst edges e))
        (fun e v => if v = src edges e ∨ v = dst edges e then C (src edges e) (dst edges e) else 0) ∧
      inp.costMatrix.Is n n C ∧
      a.Is (n * n - n) n (fun e v => if v = src edges e ∨ v = dst edges e then C (src edges e) (dst edges e) else 0) := by
  have hl := allEdges_length h
  obtain ⟨inp, a, d1, d2, d3, d4, d5, d6, d7, d8, d9, d10, d11, d12, d13⟩ := C48_decoded flag alpha hm.1 hm.2.1 h.2.1 hl
  have hlt : ∀ e < n * n - n, src edges e < n ∧ dst edges e < n := fun e he => Proofs.src_dst_lt h.2.1 (by omega)
  have hcell : ∀ e < n * n - n, ∀ v, (if v = src edges e ∨ v = dst edges e then m.data (src edges e) (dst edges e) else 0) =
      fin (if v = src edges e ∨ v = dst edges e then C (src edges e) (dst edges e) else 0) := by
    intro e he v
    split_ifs
    · exact hm.2.2 _ (hlt e he).1 _ (hlt e he).2
    · rfl
  refine ⟨inp, a, d1, d2, d3, d4, d5, d6, ⟨by rw [d2, d4]; exact h.2.1, by rw [d4, d3]; exact hl, ?_, ⟨by omega, fun e he => ?_⟩,
    ⟨by omega, by omega, fun e he v hv => ?_⟩⟩, ⟨d9.1, d9.2.1, fun u hu v hv => by rw [d9.2.2 u hu v hv, hm.2.2 u hu v hv]⟩,
    ⟨d11, d12, fun e he v hv => by rw [d13 e he v hv]; exact hcell e he v⟩⟩
  · rw [d2, d4]
    exact C12_complete_two_ways hn h.2.2
  · rw [d3] at he
    rw [d8 e he, hm.2.2 _ (hlt e he).1 _ (hlt e he).2]
  · rw [d3] at he; rw [d2] at hv
    rw [d10.2.2 e he v hv]
    exact hcell e he v

end

/-- The complete graph with the costs of C46 is such an instance. -/
example : AllEdges 4 k4 ∧ (Mat.ofRat 4 4 c46Cost).Is 4 4 c46Cost ∧ nonzeroEdges (Mat.ofRat 4 4 c46Cost) = k4 := by
  refine ⟨⟨by decide, by unfold EdgesOk; decide, ?_⟩, Mat.ofRat_is _ _ _, by decide +kernel⟩
  unfold Complete
  intro u hu v hv
  interval_cases u <;> interval_cases v <;> decide
/-- Its decoded inputs: row of the edge `(1, 2)`, with cost 7 at the nodes 1 and 2. -/
example : (tspInputs true (1 / 2) 4 (Mat.ofRat 4 4 c46Cost) k4).map (fun p => (p.1.edges.getD 4 (0, 0), (List.range 4).map (p.2.data 4))) =
    some ((1, 2), [0, fin 7, fin 7, 0]) := by decide +kernel
/-- One zero cost, from node 0 to node 1. -/
def zeroCost (u v : ℕ) : ℚ := if u = v ∨ (u = 0 ∧ v = 1) then 0 else 1
/-- Python builds the tables, the native side reads past the end. -/
example : ((tspTables 3 (Mat.ofRat 3 3 zeroCost) (nonzeroEdges (Mat.ofRat 3 3 zeroCost))).isSome,
    (tspInputs false 0 3 (Mat.ofRat 3 3 zeroCost) (nonzeroEdges (Mat.ofRat 3 3 zeroCost))).isSome) = (true, false) := by decide +kernel

end Verif.Properties
