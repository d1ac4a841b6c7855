import Verif.Model.TspIO
import Verif.Proofs.KcIO
import Verif.Proofs.TspOut
import Verif.Spec.TspTables

/-! Lemmas about the interface of the TSP solver. -/

namespace Verif.Proofs
open Verif Num Spec Model

/-- A loop fails if some iteration fails in every state that the earlier iterations can reach. -/
theorem loopUp_none {σ : Type} {n k : ℕ} {body : ℕ → σ → Option σ} {s : σ} (P : σ → Prop) (h0 : P s)
    (hs : ∀ i < n, ∀ t t', P t → body i t = some t' → P t') (hk : k < n) (hf : ∀ t, P t → body k t = none) :
    loopUp n body s = none := by
  have key : ∀ m ≤ n, (∀ t, loopUp m body s = some t → P t) := by
    intro m
    induction m with
    | zero => intro _ t ht; simp only [loopUp, Option.some.injEq] at ht; exact ht ▸ h0
    | succ m ih =>
      intro hm t ht
      simp only [loopUp, Option.bind_eq_some_iff] at ht
      obtain ⟨t0, a, b⟩ := ht
      exact hs m (by omega) t0 t (ih (by omega) t0 a) b
  have hk1 : loopUp (k + 1) body s = none := by
    simp only [loopUp]
    cases h : loopUp k body s with
    | none => rfl
    | some t => exact hf t (key k (by omega) t h)
  have : ∀ m, loopUp (k + 1 + m) body s = none := by
    intro m
    induction m with
    | zero => exact hk1
    | succ m ih => rw [← Nat.add_assoc]; simp only [loopUp, ih, Option.bind_none]
  have := this (n - (k + 1))
  rwa [show k + 1 + (n - (k + 1)) = n by omega] at this

theorem flatMap_pair_slice (l : List (ℕ × ℕ)) {i : ℕ} (hi : i < l.length) :
    slice (l.flatMap (fun e => [e.1, e.2])) (2 * i) (2 * (i + 1)) = some [(l.getD i (0, 0)).1, (l.getD i (0, 0)).2] := by
  have h := slice_pieces (l.map (fun e => [e.1, e.2])) (i := i) (by simpa using hi)
  have e1 : (l.map (fun e => [e.1, e.2])).flatten = l.flatMap (fun e => [e.1, e.2]) := rfl
  have e2 : ((l.map (fun e => [e.1, e.2])).map List.length) = List.replicate l.length 2 := by
    rw [List.map_map]
    refine List.ext_getElem (by simp) fun j h1 h2 => by simp
  rw [e1, e2, List.take_replicate, List.sum_replicate_nat, min_eq_left hi.le] at h
  simp only [List.getElem_map, List.length_cons, List.length_nil] at h
  have e3 : l[i] = l.getD i (0, 0) := by simp [hi]
  rw [e3] at h
  rw [← h]
  congr 1 <;> ring

section
variable {n : ℕ} {m : Mat Num} {edges : List (ℕ × ℕ)}

theorem src_dst_lt (h : EdgesOk n edges) {e : ℕ} (he : e < edges.length) : src edges e < n ∧ dst edges e < n := by
  have := h (edges.getD e (0, 0)) (by simp [he])
  exact ⟨this.1, this.2.1⟩

theorem edges_getElem? {e : ℕ} (he : e < edges.length) : edges[e]? = some (src edges e, dst edges e) := by
  simp [src, dst, he]

/-- The tables built from a list of edges that fits. -/
theorem tspTables_spec (hr : m.rows = n) (hc : m.cols = n) (h : EdgesOk n edges) (hl : edges.length ≤ n * n - n) :
    ∃ costs table, tspTables n m edges = some (costs, table) ∧ costs.size = n * n - n ∧
      (∀ e < edges.length, costs.data e = m.data (src edges e) (dst edges e)) ∧
      (∀ e, edges.length ≤ e → costs.data e = 0) ∧ table.rows = n * n - n ∧ table.cols = n ∧
      (∀ e < edges.length, ∀ v < n, table.data e v = if v = src edges e ∨ v = dst edges e then m.data (src edges e) (dst edges e) else 0) ∧
      (∀ e, edges.length ≤ e → ∀ v, table.data e v = 0) := by
  obtain ⟨s, h1, h2, h3, h4, h5, h6, h7, h8⟩ := loopUp_inv (n := edges.length) (body := fun i (s : Arr Num × Mat Num) => do
      let e ← edges[i]?
      let cost ← m.rd e.1 e.2
      let costs ← s.1.wr i cost
      let t ← s.2.wr i e.1 cost
      let t ← t.wr i e.2 cost
      some (costs, t)) (s := (Arr.fill (n * n - n) 0, Mat.fill (n * n - n) n 0))
    (fun k s => s.1.size = n * n - n ∧ (∀ e < k, s.1.data e = m.data (src edges e) (dst edges e)) ∧
      (∀ e, k ≤ e → s.1.data e = 0) ∧ s.2.rows = n * n - n ∧ s.2.cols = n ∧
      (∀ e < k, ∀ v < n, s.2.data e v = if v = src edges e ∨ v = dst edges e then m.data (src edges e) (dst edges e) else 0) ∧
      (∀ e, k ≤ e → ∀ v, s.2.data e v = 0))
    ⟨rfl, fun e he => by omega, fun e _ => rfl, rfl, rfl, fun e he => by omega, fun e _ v => rfl⟩
    (by
      rintro i hi s ⟨c1, c2, c3, c4, c5, c6, c7⟩
      obtain ⟨a, b⟩ := src_dst_lt h hi
      rw [edges_getElem? hi]
      simp only [Option.bind_eq_bind, Option.bind_some]
      rw [Mat.rd_of_lt (by omega) (by omega)]
      simp only [Option.bind_some]
      rw [Arr.wr_of_lt (by omega), Mat.wr_of_lt (by omega) (by omega)]
      simp only [Option.bind_some]
      rw [Mat.wr_of_lt (show i < _ by show i < s.2.rows; omega) (show dst edges i < _ by show dst edges i < s.2.cols; omega)]
      refine ⟨_, rfl, c1, fun e he => ?_, fun e he => ?_, c4, c5, fun e he v hv => ?_, fun e he v => ?_⟩
      · simp only
        by_cases hh : e = i
        · rw [if_pos hh, hh]
        · rw [if_neg hh]; exact c2 e (by omega)
      · simp only
        rw [if_neg (by omega)]; exact c3 e (by omega)
      · simp only
        by_cases hh : e = i
        · subst hh
          by_cases h1 : v = dst edges e
          · rw [if_pos ⟨rfl, h1⟩, if_pos (Or.inr h1)]
          · rw [if_neg (fun x => h1 x.2)]
            by_cases h2 : v = src edges e
            · rw [if_pos ⟨rfl, h2⟩, if_pos (Or.inl h2)]
            · rw [if_neg (fun x => h2 x.2), if_neg (by tauto)]
              exact c7 e le_rfl v
        · rw [if_neg (fun x => hh x.1), if_neg (fun x => hh x.1)]; exact c6 e (by omega) v hv
      · simp only
        rw [if_neg (fun x => by omega), if_neg (fun x => by omega)]; exact c7 e (by omega) v)
  exact ⟨s.1, s.2, h1, h2, h3, h4, h5, h6, h7, h8⟩

/-- Too many edges. -/
theorem tspTables_long (hl : n * n - n < edges.length) : tspTables n m edges = none := by
  refine loopUp_none (k := n * n - n) (fun s => s.1.size = n * n - n) rfl (fun i _ t t' ht hb => ?_) hl (fun t ht => ?_)
  · simp only [Option.bind_eq_bind, Option.bind_eq_some_iff, Option.some.injEq] at hb
    obtain ⟨e, -, c, -, a, ha, t1, -, t2, -, rfl⟩ := hb
    unfold Arr.wr at ha
    split at ha
    · simp only [Option.some.injEq] at ha; subst ha; exact ht
    · cases ha
  · simp only [Option.bind_eq_bind]
    cases edges[n * n - n]? with
    | none => rfl
    | some e =>
      simp only [Option.bind_some]
      cases m.rd e.1 e.2 with
      | none => rfl
      | some c =>
        simp only [Option.bind_some]
        rw [Arr.wr, if_neg (by omega)]
        rfl

/-- Decoding the arrays of the caller. -/
theorem tspDecode_spec {costs : Arr Num} {table : Mat Num} {E : ℕ} (flag : Bool) (alpha : ℚ) (hr : m.rows = n) (hc : m.cols = n)
    (hl : edges.length = E) (h1 : costs.size = E) (h2 : table.rows = E) (h3 : table.cols = n) :
    ∃ inp a, tspDecode n E flag alpha (tspFlatten m edges costs table) = some (inp, a) ∧
      inp.numNodes = n ∧ inp.numEdges = E ∧ inp.edges = edges ∧ inp.flag = flag ∧ inp.alpha = alpha ∧
      inp.cost.size = E ∧ (∀ e < E, inp.cost.data e = costs.data e) ∧
      (inp.costMatrix.rows = n ∧ inp.costMatrix.cols = n ∧ ∀ u < n, ∀ v < n, inp.costMatrix.data u v = m.data u v) ∧
      (inp.degCost.rows = E ∧ inp.degCost.cols = n ∧ ∀ e < E, ∀ v < n, inp.degCost.data e v = table.data e v) ∧
      a.rows = E ∧ a.cols = n ∧ ∀ e < E, ∀ v < n, a.data e v = table.data e v := by
  have ft : flattenMat table = (Spec.table E n table.data).flatten := flattenMat_congr h2 h3 fun _ _ _ _ => rfl
  have fm : flattenMat m = (Spec.table n n m.data).flatten := flattenMat_congr hr hc fun _ _ _ _ => rfl
  have fc : costs.toList = listOf E costs.data := by rw [Arr.toList, h1]; rfl
  obtain ⟨s, b1, b2, b3, b4, b5, b6, b7, b8⟩ := loopUp_inv (n := E) (body := fun i (s : List (ℕ × ℕ) × Mat Num × Mat Num) => do
      let p ← slice (edges.flatMap (fun e => [e.1, e.2])) (2 * i) (2 * (i + 1))
      let u ← p[0]?
      let v ← p[1]?
      let a ← slice (flattenMat table) (n * i) (n * (i + 1))
      let a ← s.2.1.wrRow i (Arr.ofList a)
      let d ← slice (flattenMat table) (n * i) (n * (i + 1))
      let d ← s.2.2.wrRow i (Arr.ofList d)
      some (s.1 ++ [(u, v)], a, d))
    (s := (([] : List (ℕ × ℕ)), Mat.fill E n (0 : Num), Mat.fill E n (0 : Num)))
    (fun k s => s.1 = edges.take k ∧ s.2.1.rows = E ∧ s.2.1.cols = n ∧
      (∀ e < k, ∀ v < n, s.2.1.data e v = table.data e v) ∧ s.2.2.rows = E ∧ s.2.2.cols = n ∧
      ∀ e < k, ∀ v < n, s.2.2.data e v = table.data e v)
    ⟨by simp, rfl, rfl, fun d hd => by omega, rfl, rfl, fun d hd => by omega⟩
    (by
      rintro i hi s ⟨c1, c2, c3, c4, c5, c6, c7⟩
      rw [flatMap_pair_slice edges (by omega), ft, slice_table hi]
      simp only [Option.bind_eq_bind, Option.bind_some, List.getElem?_cons_zero, List.getElem?_cons_succ]
      rw [Mat.wrRow_of_lt (by omega) (by rw [ofList_size, c3]), Mat.wrRow_of_lt (by omega) (by rw [ofList_size, c6])]
      refine ⟨_, rfl, ?_, c2, c3, fun e he t ht => ?_, c5, c6, fun e he t ht => ?_⟩
      · simp only [c1]
        have : edges.getD i (0, 0) = edges[i]'(by omega) := by simp [show i < edges.length by omega]
        rw [this, List.take_succ_eq_append_getElem (by omega)]
      · show (if e = i then _ else _) = _
        by_cases hh : e = i
        · subst hh; rw [if_pos rfl, ofList_listOf ht]
        · rw [if_neg hh]; exact c4 e (by omega) t ht
      · show (if e = i then _ else _) = _
        by_cases hh : e = i
        · subst hh; rw [if_pos rfl, ofList_listOf ht]
        · rw [if_neg hh]; exact c7 e (by omega) t ht)
  obtain ⟨q, d1, d2, d3, d4⟩ := loopUp_inv (n := n) (body := fun v (q : Mat Num) => do
      let r ← slice (flattenMat m) (n * v) (n * (v + 1))
      q.wrRow v (Arr.ofList r)) (s := Mat.fill n n (0 : Num))
    (fun k q => q.rows = n ∧ q.cols = n ∧ ∀ u < k, ∀ v < n, q.data u v = m.data u v) ⟨rfl, rfl, fun d hd => by omega⟩
    (by
      rintro p hp q ⟨c1, c2, c3⟩
      rw [fm, slice_table hp]
      simp only [Option.bind_eq_bind, Option.bind_some]
      rw [Mat.wrRow_of_lt (by omega) (by rw [ofList_size, c2])]
      refine ⟨_, rfl, c1, c2, fun e he t ht => ?_⟩
      show (if e = p then _ else _) = _
      by_cases hh : e = p
      · subst hh; rw [if_pos rfl, ofList_listOf ht]
      · rw [if_neg hh]; exact c3 e (by omega) t ht)
  refine ⟨{ numNodes := n, numEdges := E, edges := s.1, cost := Arr.ofList (listOf E costs.data), costMatrix := q, degCost := s.2.2,
            flag := flag, alpha := alpha }, s.2.1, ?_, rfl, rfl, ?_, rfl, rfl, ofList_size, fun e he => ofList_listOf he,
    ⟨d2, d3, d4⟩, ⟨b6, b7, b8⟩, b3, b4, b5⟩
  · simp only [Option.bind_eq_bind] at b1 d1
    simp only [tspDecode, tspFlatten, fc, slice_all listOf_length, Option.bind_eq_bind, Option.bind_some]
    rw [b1]
    simp only [Option.bind_some]
    rw [d1]
    rfl
  · simp only [b2, ← hl, List.take_length]

/-- Too few edges: the list of connections ends before the last edge variable. -/
theorem tspDecode_short {costs : Arr Num} {table : Mat Num} {E : ℕ} (flag : Bool) (alpha : ℚ) (hl : edges.length < E) :
    tspDecode n E flag alpha (tspFlatten m edges costs table) = none := by
  unfold tspDecode
  simp only [Option.bind_eq_bind]
  cases slice (tspFlatten m edges costs table).costs 0 E with
  | none => rfl
  | some c =>
    simp only [Option.bind_some]
    rw [loopUp_none (k := edges.length) (fun _ => True) trivial (fun _ _ _ _ _ _ => trivial) hl]
    · rfl
    · intro t _
      have : slice (tspFlatten m edges costs table).edges (2 * edges.length) (2 * (edges.length + 1)) = none := by
        rw [slice, if_neg]
        simp only [tspFlatten, flatMap_pair_length]
        omega
      rw [this]
      rfl

end

end Verif.Proofs
