import Verif.Proofs.IndexInt
import Verif.Proofs.KsatCall
import Verif.Properties.KcIO
import Verif.Properties.KsatForest
import Verif.Properties.KsatIO
import Verif.Properties.TspIO
import Mathlib.Algebra.BigOperators.Fin

/-! # C78: sizes for which positions in the arguments fit into `int` -/

namespace Verif.Properties
open Verif Num Spec Model

/-- C78, TSP.  With up to 1290 nodes 32-bit arithmetic reads the arguments as exact arithmetic does.  With more nodes a position exceeds the largest
`int`, for all arguments. -/
theorem C78_tsp {n : ℕ} (hn : 2 ≤ n) (flag : Bool) (alpha : ℚ) (f : TspFlat) :
    Int32.tspDecode n (n * n - n) flag alpha f = if n ≤ 1290 then tspDecode n (n * n - n) flag alpha f else none := by
  have hm : n * n - n = n * (n - 1) := by rw [Nat.mul_sub_one]
  rw [hm]
  split
  · rename_i h
    have h1 : n * n ≤ 1290 * 1290 := Nat.mul_le_mul h h
    have h2 : n * (n * (n - 1)) ≤ 1290 * (1290 * 1289) := Nat.mul_le_mul h (Nat.mul_le_mul h (by omega))
    exact Proofs.tspDecode32_ok flag alpha f hn (by omega) (by omega)
  · rename_i h
    have h2 : 1291 * (1291 * 1290) ≤ n * (n * (n - 1)) := Nat.mul_le_mul (by omega) (Nat.mul_le_mul (by omega) (by omega))
    exact Proofs.tspDecode32_none flag alpha f (by omega) (Nat.mul_pos (by omega) (by omega)) (Or.inl (by omega))

/-- C78, assignment.  With at least one unit, team and project, 32-bit arithmetic reads the arguments as exact arithmetic does if the product of the
numbers of teams and units and that of teams and projects are at most the largest `int`, and otherwise a position exceeds it.  In the first case the
position of a pair in the output fits as well.  With more than 2147483648 pairs the position of the last one does not. -/
theorem C78_kc {D T P : ℕ} (hD : 1 ≤ D) (hT : 1 ≤ T) (hP : 1 ≤ P) {wf : ℕ → ℕ → ℕ} {cap : ℕ → ℕ} {w : ℕ → Num} {R : ℕ → ℕ → Num} {f : KcFlat}
    (hf : kcFlatten (pythonTables D T P wf cap w R) = some f) (flag : Bool) (alpha : ℚ) :
    Int32.kcDecode D T P flag alpha f = (if T * D ≤ 2147483647 ∧ T * P ≤ 2147483647 then kcDecode D T P flag alpha f else none) ∧
    (T * P ≤ 2147483647 → ∀ p < P, ∀ t < T, Int32.mwmIndex T p t = some (p + t + p * (T - 1)) ∧ p + t + p * (T - 1) = T * p + t) ∧
    (2147483648 < T * P → Int32.mwmIndex T (P - 1) (T - 1) = none) := by
  have hmax : f.maxSize ≤ T := by
    have h1 : f.sizes.max? = some f.maxSize := by
      have hf' := hf
      unfold kcFlatten at hf'
      simp only [Option.bind_eq_bind, Option.bind_eq_some_iff, Option.some.injEq] at hf'
      obtain ⟨_, -, nz, -, _, -, _, -, M, hM, _, -, rfl⟩ := hf'
      exact hM
    obtain ⟨f', h2, -, -, -, -, -, h3, -⟩ := Proofs.kcFlatten_spec (D := D) (T := T) (P := P) (wf := wf) (cap := cap) (w := w) (R := R) (by omega)
    rw [show Proofs.kcPyOf D T P wf cap w R = pythonTables D T P wf cap w R from rfl, hf, Option.some.injEq] at h2
    subst h2
    have h4 := (List.max?_eq_some_iff.mp h1).1
    rw [h3] at h4
    obtain ⟨d, -, hd⟩ := List.mem_map.mp h4
    rw [← hd]
    have h5 := List.length_filter_le (fun t => wf d t ≠ 0) (List.range T)
    rw [List.length_range] at h5
    exact h5
  refine ⟨?_, ?_, fun h => Proofs.mwmIndex_last hT hP h⟩
  · split
    · rename_i h
      exact Proofs.kcDecode32_ok flag alpha f hT hmax h.1 h.2
    · rename_i h
      exact Proofs.kcDecode32_none flag alpha f hD hP (by omega)
  · intro h p hp t ht
    refine ⟨Proofs.mwmIndex_ok hp ht h, ?_⟩
    obtain ⟨k, rfl⟩ : ∃ k, T = k + 1 := ⟨T - 1, by omega⟩
    simp only [Nat.add_sub_cancel]; ring

/-- The lists of clauses of the variables have one entry for every literal. -/
theorem conns_length {n k : ℕ} {t : KsatTables} (hf : KFormula n k t.clauses t.used t.conns) :
    (t.conns.map (List.map Prod.fst)).flatten.length = k * t.clauses.length := by
  have h1 : (t.conns.map (List.map Prod.fst)).flatten.length = ∑ v ∈ Finset.range n, ((t.conns.getD v []).map Prod.fst).toFinset.card := by
    have e : t.conns.map (List.map Prod.fst) = (List.range n).map (fun v => (t.conns.getD v []).map Prod.fst) := by
      refine List.ext_getElem (by simp [hf.length]) fun i h _ => ?_
      rw [List.length_map] at h
      simp [List.getD_eq_getElem?_getD, List.getElem?_eq_getElem h]
    rw [e, List.length_flatten, List.map_map, Finset.sum_range, ← List.sum_ofFn, List.ofFn_eq_map, ← List.map_coe_finRange_eq_range, List.map_map]
    congr 1
    refine List.map_congr_left fun v _ => ?_
    simp only [Function.comp]
    rw [List.toFinset_card_of_nodup (hf.nodup v)]
  have h2 : ∀ v < n, ((t.conns.getD v []).map Prod.fst).toFinset = (Finset.range t.clauses.length).filter (fun c => v ∈ varsOf t.clauses c) := by
    intro v hv
    ext c
    rw [Finset.mem_filter, Finset.mem_range, varsOf, List.mem_toFinset, List.mem_toFinset]
    simp only [List.mem_map, Prod.exists, exists_and_right, exists_eq_right]
    constructor
    · rintro ⟨s, hs⟩
      have hm := (hf.tables.mem v c s).mp hs
      refine ⟨?_, ⟨s, hm⟩⟩
      by_contra hc
      rw [List.getD_eq_getElem?_getD, List.getElem?_eq_none (by omega)] at hm
      cases hm
    · rintro ⟨-, s, hm⟩
      exact ⟨s, (hf.tables.mem v c s).mpr hm⟩
  have h3 := Finset.sum_card_bipartiteAbove_eq_sum_card_bipartiteBelow (s := Finset.range n) (t := Finset.range t.clauses.length)
    (fun v c => v ∈ varsOf t.clauses c)
  rw [h1, Finset.sum_congr rfl fun v hv => by rw [h2 v (Finset.mem_range.mp hv)]]
  refine h3.trans ?_
  have h4 : ∀ c ∈ Finset.range t.clauses.length, (Finset.bipartiteBelow (fun v c => v ∈ varsOf t.clauses c) (Finset.range n) c).card = k := by
    intro c hc
    have hc := Finset.mem_range.mp hc
    have hmem : t.clauses.getD c [] ∈ t.clauses := by
      rw [List.getD_eq_getElem?_getD, List.getElem?_eq_getElem hc]; exact List.getElem_mem hc
    obtain ⟨a1, a2, -⟩ := hf.clause _ hmem
    have : Finset.bipartiteBelow (fun v c => v ∈ varsOf t.clauses c) (Finset.range n) c = varsOf t.clauses c := by
      ext v
      simp only [Finset.mem_bipartiteBelow, Finset.mem_range, and_iff_right_iff_imp]
      intro hv
      obtain ⟨l, hl, rfl⟩ := List.mem_map.mp (List.mem_toFinset.mp hv)
      exact hf.tables.used_lt _ (hf.tables.used_mem _ hmem l hl)
    rw [this, varsOf, List.toFinset_card_of_nodup a2, List.length_map, a1]
  rw [Finset.sum_congr rfl h4, Finset.sum_const, Finset.card_range, smul_eq_mul, mul_comm]

/-- C78, k-SAT.  For every well-formed formula with at least one clause, 32-bit arithmetic reads the arguments as exact arithmetic does if the number
of literals and the product of the numbers of variables and clauses are at most the largest `int`, and otherwise a position exceeds it. -/
theorem C78_ksat {n k : ℕ} {t : KsatTables} (hf : KFormula n k t.clauses t.used t.conns) (hn : 1 ≤ n) (hk : 1 ≤ k) (hC : 1 ≤ t.clauses.length)
    {cost : List Num} {f : KsatFlat} (hfl : ksatFlatten (ksatObject n k t cost) = some f) (flag : Bool) (alpha : ℚ) :
    Int32.ksatDecode n t.clauses.length t.used.length k flag alpha f =
      if k * t.clauses.length ≤ 2147483647 ∧ n * t.clauses.length ≤ 2147483647 then ksatDecode n t.clauses.length t.used.length k flag alpha f
      else none := by
  have hc : f.conns = (t.conns.map (List.map Prod.fst)).flatten := by
    unfold ksatFlatten at hfl
    simp only [Option.bind_eq_bind, Option.bind_eq_some_iff, Option.some.injEq] at hfl
    obtain ⟨_, -, _, -, _, -, rfl⟩ := hfl
    rfl
  split
  · rename_i h
    exact Proofs.ksatDecode32_ok flag alpha f hn hk h.1 h.2 (by rw [hc, conns_length hf]; exact h.1)
  · rename_i h
    exact Proofs.ksatDecode32_none flag alpha f hC (by omega)

/-- 1290 nodes can be read and 1291 nodes cannot. -/
example (f : TspFlat) : Int32.tspDecode 1290 1662810 false 0 f = tspDecode 1290 1662810 false 0 f ∧ Int32.tspDecode 1291 1665390 false 0 f = none :=
  ⟨C78_tsp (n := 1290) (by norm_num) false 0 f, C78_tsp (n := 1291) (by norm_num) false 0 f⟩

/-- 65536 teams and 32768 units are too many, since 65536 * 32768 is one more than the largest `int`. -/
example {wf : ℕ → ℕ → ℕ} {cap : ℕ → ℕ} {w : ℕ → Num} {R : ℕ → ℕ → Num} {f : KcFlat}
    (hf : kcFlatten (pythonTables 32768 65536 10 wf cap w R) = some f) : Int32.kcDecode 32768 65536 10 false 0 f = none :=
  (C78_kc (by norm_num) (by norm_num) (by norm_num) hf false 0).1.trans (if_neg (by norm_num))

/-- Such arguments exist. -/
example : (kcFlatten (pythonTables 32768 65536 10 (fun _ _ => 1) (fun _ => 1) (fun _ => 0) (fun _ _ => 0))).isSome = true :=
  C23_flattens.mpr (by norm_num)

/-- The tables of C23: reading with 32-bit arithmetic gives the same. -/
example : ((kcFlatten c23Py).bind (Int32.kcDecode 2 3 2 false 0)).map (fun r => (r.1.nzs, flattenMat r.1.weights)) =
    some ([[0, 2], [1, 2]], [1, 0, 2, 0, 3, 1]) := by decide +kernel

/-- A path of clauses: nothing overflows. -/
example {f : KsatFlat} (hfl : ksatFlatten (ksatObject 4 2 pathFormula [fin 1, fin 2, fin 3, fin 4]) = some f) :
    Int32.ksatDecode 4 pathFormula.clauses.length pathFormula.used.length 2 false 0 f =
      ksatDecode 4 pathFormula.clauses.length pathFormula.used.length 2 false 0 f :=
  (C78_ksat pathFormula_ok (by norm_num) (by norm_num) (by decide) hfl false 0).trans (if_pos (by decide))

example : (ksatFlatten (ksatObject 4 2 pathFormula [fin 1, fin 2, fin 3, fin 4])).isSome = true := by decide +kernel

end Verif.Properties
