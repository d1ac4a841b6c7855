import Verif.Model.PyKcCall
import Verif.Proofs.BigPairCall
import Verif.Properties.KcBounds
import Verif.Properties.KsatCall

/-! Whole runs of the pure Python programs. -/

namespace Verif.Proofs
open Verif Num Spec Model Properties

theorem tableOfRows_data {α : Type} {m n : ℕ} {x : ℕ → ℕ → α} {d : α} {i j : ℕ} (hi : i < m) (hj : j < n) :
    (tableOfRows m n d (table m n x)).data i j = x i j := by
  simp [tableOfRows, table, List.getD_eq_getElem?_getD, hi, hj]

/-- The same inputs with the lists of nonzero weights that the native program stores. -/
def withLists (D T : ℕ) (wf : ℕ → ℕ → ℕ) (inp : KcInputs) : KcInputs :=
  { inp with nzs := (List.range D).map (fun d => teamsOf T (wf d)), sizes := ⟨D, fun d => (teamsOf T (wf d)).length⟩ }

theorem pyKcSolve_lists (inp : KcInputs) (D T : ℕ) (wf : ℕ → ℕ → ℕ) (a : Mat Num) (K : ℕ) :
    pyKcSolve (withLists D T wf inp) a K = pyKcSolve inp a K := rfl

section
variable {D T P : ℕ} {wf : ℕ → ℕ → ℕ} {cap : ℕ → ℕ} {w : ℕ → ℚ} {R : ℕ → ℕ → ℚ} {flag : Bool} {alpha : ℚ}

theorem pyKcInputs_ok (h : KcProblemOk D T P wf cap) :
    KcOk (withLists D T wf (pyKcInputs flag alpha (pythonTables D T P wf cap (fun t => fin (w t)) (fun p t => fin (R p t))))) wf cap w R := by
  have e1 : (pythonTables D T P wf cap (fun t => fin (w t)) (fun p t => fin (R p t))).maxState.length = D := listOf_length
  refine ⟨h.projects, rfl, fun d hd => ?_, ?_, ?_, rfl, fun d hd => ?_, fun t ht => ?_, ?_, ?_⟩
  · exact listOf_getD (by rw [← e1]; exact hd)
  · simp only [withLists, pyKcInputs, List.length_map, List.length_range, e1]
  · exact e1.symm
  · have hd : d < D := by rw [← e1]; exact hd
    have hn : (withLists D T wf (pyKcInputs flag alpha (pythonTables D T P wf cap (fun t => fin (w t)) (fun p t => fin (R p t))))).nzs.getD d [] = teamsOf T (wf d) := by
      simp [withLists, hd]
    refine ⟨by rw [hn]; exact teamsOf_sorted, fun t => ?_, ?_, ?_, rfl, fun t ht => ?_, fun t ht => ?_⟩
    · rw [hn, mem_teamsOf]; rfl
    · obtain ⟨t, t1, t2⟩ := h.used d hd
      exact List.ne_nil_of_mem (a := t) (by rw [hn, mem_teamsOf]; exact ⟨t1, t2⟩)
    · rw [hn]; rfl
    · show (tableOfRows D T 0 (table D T wf)).data d t = wf d t
      exact tableOfRows_data hd ht
    · rw [hn, mem_teamsOf] at ht
      exact h.fits d hd t ht.1
  · show (depts (pythonTables D T P wf cap (fun t => fin (w t)) (fun p t => fin (R p t))).maxState.length wf t).card ≤ 2
    rw [e1]; exact h.two t ht
  · exact ⟨listOf_length, fun t ht => listOf_getD ht⟩
  · exact ⟨rfl, rfl, fun p hp t ht => tableOfRows_data hp ht⟩

theorem pyKcStart_is :
    (pyKcStart (pyKcInputs flag alpha (pythonTables D T P wf cap (fun t => fin (w t)) (fun p t => fin (R p t))))).Is D T
      (fun d t => if wf d t ≠ 0 then w t else 0) := by
  have e1 : (pythonTables D T P wf cap (fun t => fin (w t)) (fun p t => fin (R p t))).maxState.length = D := listOf_length
  refine ⟨e1, rfl, fun d hd t ht => ?_⟩
  have e2 : (pyKcInputs flag alpha (pythonTables D T P wf cap (fun t => fin (w t)) (fun p t => fin (R p t)))).weights.data d t = wf d t := by
    show (tableOfRows D T 0 (table D T wf)).data d t = wf d t
    exact tableOfRows_data hd ht
  have e3 : (pyKcInputs flag alpha (pythonTables D T P wf cap (fun t => fin (w t)) (fun p t => fin (R p t)))).reward.data t = fin (w t) :=
    listOf_getD ht
  show (if _ then _ else _) = fin (if _ then _ else _)
  rw [e2, e3]
  split <;> rfl

/-- `iterate` of the pure Python program returns the results of the textbook algorithm. -/
theorem pyKcIterate_spec (h : KcProblemOk D T P wf cap) (hfa : flag = true → alpha ≠ 0) (hP : 2 ≤ P) (hT : 2 ≤ T) (hne : P ≠ T) :
    ∃ a raw o y e c, IsKcTrace D T P wf cap w R flag alpha none (fun d t => if wf d t ≠ 0 then w t else 0) a raw o y e c ∧
      ∀ K, ∃ m, pyKcIterate (K + 1) flag alpha (pythonTables D T P wf cap (fun t => fin (w t)) (fun p t => fin (R p t))) =
        some (listOf T (fun t => fin (c K t + ∑ d ∈ depts D wf t, damped flag alpha (fun i => raw i d t) K + w t)), m) ∧
        m.Is P T (fun p t => o K p t + y K p t + R p t) := by
  have e1 : (pythonTables D T P wf cap (fun t => fin (w t)) (fun p t => fin (R p t))).maxState.length = D := listOf_length
  have hok := pyKcInputs_ok (w := w) (R := R) (flag := flag) (alpha := alpha) h
  have hA := pyKcStart_is (D := D) (T := T) (P := P) (wf := wf) (cap := cap) (w := w) (R := R) (flag := flag) (alpha := alpha)
  have eD : (withLists D T wf (pyKcInputs flag alpha (pythonTables D T P wf cap (fun t => fin (w t)) (fun p t => fin (R p t))))).numDepartments = D := e1
  obtain ⟨a, raw, o, y, e, c, ht, hr⟩ := pyKc_run hok hfa hP hT hne (A := pyKcStart (pyKcInputs flag alpha (pythonTables D T P wf cap (fun t => fin (w t)) (fun p t => fin (R p t)))))
    (by rw [eD]; exact hA)
  rw [eD] at ht
  refine ⟨a, raw, o, y, e, c, ht, fun K => ?_⟩
  obtain ⟨ext, intr, h1, h2, h3⟩ := hr K
  rw [eD] at h2
  rw [pyKcSolve_lists] at h1
  refine ⟨intr, ?_, h3⟩
  have hl : ext.toList = listOf T (fun t => fin (c K t + ∑ d ∈ depts D wf t, damped flag alpha (fun i => raw i d t) K)) := by
    show (List.range ext.size).map ext.data = _
    rw [show ext.size = T from h2.1]
    exact List.map_congr_left fun t ht => h2.2 t (List.mem_range.mp ht)
  have hr : (pythonTables D T P wf cap (fun t => fin (w t)) (fun p t => fin (R p t))).reward = listOf T (fun t => fin (w t)) := rfl
  simp only [pyKcIterate, h1, Option.bind_eq_bind, Option.bind_some, hl, hr]
  rw [npAdd, if_pos (by rw [listOf_length, listOf_length])]
  simp only [Option.bind_some, Option.some.injEq, Prod.mk.injEq, and_true]
  simp [listOf, List.zipWith_map]

end

/-- `initialize` of the pure Python program on costs of the right shape. -/
theorem pyKcInitialize_eq {d : TeamData} {caps types : List ℕ} {T P : ℕ} {w : ℕ → Num} {R : ℕ → ℕ → Num} {wf : ℕ → ℕ → ℕ} {cap : ℕ → ℕ}
    {R' : ℕ → ℕ → Num} {teams : KcTeamsPy} (h : kcInitialize d ⟨caps, types, listOf T w, table T P R⟩ = some (pythonTables caps.length T P wf cap w R', teams)) :
    pyKcInitialize d ⟨caps, types, listOf T w, table T P R⟩ = some (pythonTables caps.length T P wf cap w R', teams) := by
  simp only [kcInitialize, pyKcInitialize, Option.bind_eq_bind] at h ⊢
  obtain ⟨first, h1, h⟩ := Option.bind_eq_some_iff.mp h
  obtain ⟨combos, h2, h⟩ := Option.bind_eq_some_iff.mp h
  obtain ⟨g, h3, h⟩ := Option.bind_eq_some_iff.mp h
  obtain ⟨ty, h4, h⟩ := Option.bind_eq_some_iff.mp h
  obtain ⟨cs, h5, h⟩ := Option.bind_eq_some_iff.mp h
  have hlen : (table T P R).length = T := by simp [table]
  by_cases hc : g.rewards.length = (table T P R).length
  · rw [if_pos hc] at h
    obtain ⟨e1, e2⟩ := Prod.mk.inj (Option.some.inj h)
    have ew : g.weights = table caps.length T wf := congrArg KcPy.weights e1
    simp only [h1, h2, h3, h4, h5, Option.bind_some]
    rw [if_pos ⟨by rw [hlen]; exact listOf_length, fun r hr => by
      rw [ew] at hr
      obtain ⟨i, -, rfl⟩ := List.mem_map.mp hr
      simp [listOf]⟩]
    rw [← h]
    simp [hc, hlen, listOf]
  · rw [if_neg hc] at h; cases h

/-- With one project the minimum over the other projects is taken of an empty array. -/
theorem pyOricToProject_one {T : ℕ} (hT : 0 < T) (e2o : Mat Num) (t2o : Arr Num) (reward : Mat Num) :
    pyOricToProject 1 T e2o t2o reward = none := by
  obtain ⟨T, rfl⟩ : ∃ n, T = n + 1 := ⟨T - 1, by omega⟩
  simp [pyOricToProject, Mat.genM, Arr.genM, List.range_succ_eq_map, npMin]

theorem pyKcSolve_one {inp : KcInputs} (hP : inp.numProjects = 1) (hT : 0 < inp.numTeams) (a : Mat Num) (K : ℕ) : pyKcSolve inp a K = none := by
  have hi : ∀ i s, pyKcIter inp i s = none := by
    intro i s
    simp only [pyKcIter, hP, pyOricToProject_one hT, Option.bind_eq_bind, Option.bind_none, Option.bind_fun_none]
  cases K with
  | zero => rfl
  | succ K => simp [pyKcSolve, loopUp, hi]

/-! ## k-SAT -/

section
variable {n k : ℕ} {t : KsatTables} (hf : KFormula n k t.clauses t.used t.conns)
include hf

theorem tableOfRows_map {α : Type} (f : ℕ × ℤ → α) : tableOfRows t.clauses.length k (f (0, 0)) (t.clauses.map (List.map f)) =
    ⟨t.clauses.length, k, fun c s => f ((t.clauses.getD c []).getD s (0, 0))⟩ := by
  unfold tableOfRows
  congr 1
  funext c s
  by_cases hc : c < t.clauses.length
  · by_cases hs : s < (t.clauses[c]).length
    · simp [List.getD_eq_getElem?_getD, hc, hs]
    · simp [List.getD_eq_getElem?_getD, hc, hs]
  · simp [List.getD_eq_getElem?_getD, hc]

/-- The beliefs of the two k-SAT programs. -/
theorem pyKsat_beliefs (hk : 2 ≤ k) (w : ℕ → ℚ) {flag : Bool} {alpha : ℚ} (hfa : flag = true → alpha ≠ 0) (K : ℕ) :
    ∃ (v2k : Mat Num) (ext used : Arr Num) (b : List Num),
      ksatStart (ksatObject n k t (listOf n (fun v => fin (w v)))) = some v2k ∧
      pyKsatSolve (pyKsatInputs flag alpha (ksatObject n k t (listOf n (fun v => fin (w v))))) v2k (K + 1) = some ext ∧
      pyUsedCosts n t.used (pyKsatInputs flag alpha (ksatObject n k t (listOf n (fun v => fin (w v))))).cost = some used ∧
      npAdd ext.toList used.toList = some b ∧
      ksatBeliefs (K + 1) flag alpha (ksatObject n k t (listOf n (fun v => fin (w v)))) = some b := by
  set inp := pyKsatInputs flag alpha (ksatObject n k t (listOf n (fun v => fin (w v)))) with hinp
  have e1 : inp.conx = ⟨t.clauses.length, k, litVar t⟩ := tableOfRows_map hf Prod.fst
  have e2 : inp.conxType = ⟨t.clauses.length, k, litSign t⟩ := tableOfRows_map hf Prod.snd
  have ht : ClauseTables inp.numConstraints inp.k inp.numVars inp.conx inp.conxType := by rw [e1, e2]; exact clause_tables hf
  have hco : ConnectionsOk inp.numConstraints inp.k inp.numVars inp.conx inp.used inp.conns := by rw [e1]; exact connections_ok hf
  have hw : inp.cost.Is inp.numVars w := ⟨listOf_length, fun v hv => listOf_getD hv⟩
  obtain ⟨V, v1, v2, v3, v4⟩ := ksatStart_spec (used := t.used) (conns := t.conns.map (List.map Prod.fst)) (ty := litSign t)
    (w := fun v => fin (w v)) (C := t.clauses.length) (k := k) (n := n) (cx := litVar t) (fun c hc s hs => lit_lt hf hc hs)
  have hV : V.Is inp.numConstraints inp.numVars (fun c v => if ∃ s < k, litVar t c s = v then w v else 0) := by
    refine ⟨v2, v3, fun c hc v hv => ?_⟩
    rw [v4 c hc v hv]
    show _ = fin (if ∃ s < k, litVar t c s = v then w v else 0)
    split <;> rfl
  obtain ⟨⟨x, r, htr⟩, hrun⟩ := C13_ksat_run ht hco hw hk hV
  obtain ⟨out, o1, o2⟩ := hrun x r htr K
  obtain ⟨p, q, a1, a2, a3⟩ := C36_ksat_run ht hco hw hk hfa hV (K + 1)
  rw [o1] at a2
  obtain rfl := Option.some.inj a2
  obtain ⟨used, u1, u2⟩ := usedCosts_is (nv := n) (used := t.used) hf.tables.used_lt (cost := inp.cost) (c := w) hw
  rw [e1, e2] at htr
  rw [e1] at o2
  have hb := C24_call flag alpha hk (fun c hc s hs => lit_lt hf hc hs) (fun c hc => lit_inj hf hc) (fun c hc s hs => lit_sign hf hc hs)
    (connections_ok hf) htr K
  rw [← object_eq hf] at hb
  refine ⟨V, p, used, _, ?_, a1, u1, ?_, hb⟩
  · rw [object_eq hf]; exact v1
  · have l1 : p.toList = listOf n (fun v => fin (∑ c ∈ occurrences t.clauses.length k ⟨t.clauses.length, k, litVar t⟩ v, damped flag alpha (fun i => r i c v) K)) := by
      show (List.range p.size).map p.data = _
      rw [a3.1]
      exact List.map_congr_left fun v hv => by rw [a3.2.2 v (List.mem_range.mp hv), o2.2 v (List.mem_range.mp hv)]; rfl
    have l2 : used.toList = listOf n (fun v => fin (if v ∈ t.used then w v else 0)) := by
      show (List.range used.size).map used.data = _
      rw [u2.1]
      exact List.map_congr_left fun v hv => u2.2 v (List.mem_range.mp hv)
    rw [l1, l2, npAdd, if_pos (by rw [listOf_length, listOf_length])]
    simp [listOf, List.zipWith_map]

end

end Verif.Proofs
