import Verif.Proofs.KsatSafe
import Verif.Properties.KsatIO
import Verif.Proofs.KsatCall
import Mathlib.Tactic.IntervalCases

/-!
Property C93: the k-SAT solver stays inside its arrays exactly if its tables name variables and clauses that exist.  The numbers
do not matter: they may be infinite or not a number, a clause may repeat a variable, the signs may be any integers.
-/

namespace Verif.Properties
open Verif Num Model Spec

/-- C93, the native solver: with tables of the right sizes and at least one iteration it never reads or writes outside an array
exactly if the clauses and the list of used variables name variables that exist and the lists of the variables name clauses that
exist. -/
theorem C93_solver {inp : KsatInputs} {v2k : Mat Num} (h : KsatShapes inp v2k) (K : ℕ) :
    (∃ out, ksatSolve inp v2k (K + 1) = some out) ↔ NamesExist inp :=
  ⟨fun ⟨_, h'⟩ => Proofs.ksatSolve_needs h h', fun hn => (Proofs.ksatSolve_safe h hn (K + 1)).imp fun _ h => h.1⟩

/-- C93: the answer has one entry per variable. -/
theorem C93_size {inp : KsatInputs} {v2k : Mat Num} (h : KsatShapes inp v2k) (hn : NamesExist inp) (K : ℕ) :
    ∃ out, ksatSolve inp v2k K = some out ∧ out.size = inp.numVars := Proofs.ksatSolve_safe h hn K

/-- C93, no iterations: nothing is looked up, so no name can be wrong. -/
theorem C93_no_iterations (inp : KsatInputs) (v2k : Mat Num) : ∃ out, ksatSolve inp v2k 0 = some out ∧ out.size = inp.numVars :=
  Proofs.ksatSolve_zero inp v2k

/-- C93, the whole call: the beliefs of every call on existing variables and clauses are computed, one per variable, whatever the
costs, the signs, the damping and the number of iterations; a clause may repeat variables and the clause lists of the variables
need not fit the clauses. -/
theorem C93_call {n C k : ℕ} {used : List ℕ} {conns : List (List ℕ)} {cx : ℕ → ℕ → ℕ} (ty : ℕ → ℕ → ℤ) (w : ℕ → Num) (K : ℕ) (flag : Bool) (alpha : ℚ)
    (hv : ∀ c < C, ∀ s < k, cx c s < n) (hl : conns.length = n) (hu : ∀ v < n, conns.getD v [] ≠ [] → v ∈ used) (hb : ∀ v ∈ used, v < n)
    (hc : ∀ l ∈ conns, ∀ c ∈ l, c < C) :
    ∃ bs, ksatBeliefs K flag alpha (pythonFormula n C k used conns cx ty w) = some bs ∧ bs.length = n := by
  obtain ⟨f, inp, A, h0, h1, g1, g2, g3, g4, g5, g6, g7, g8, g9, g10, g11, g12, g13, g14⟩ := C24_decoded (cx := cx) (ty := ty) (w := w) flag alpha hv hl hu
  have hs : KsatShapes inp A := by
    refine ⟨by rw [g10, g1], by rw [g7, hl, g1], ?_, ?_, ?_⟩
    · rw [g2, g3]; exact ⟨g8.1, g8.2.1⟩
    · rw [g2, g3]; exact ⟨g9.1, g9.2.1⟩
    · rw [g1, g2]; exact ⟨g12, g13⟩
  have hn : NamesExist inp := by
    refine ⟨fun c hc s hs => ?_, by rw [g1, g6]; exact hb, by rw [g2, g7]; exact hc⟩
    rw [g2] at hc; rw [g3] at hs
    rw [g8.2.2 c hc s hs, g1]; exact hv c hc s hs
  obtain ⟨out, e1, e2⟩ := Proofs.ksatSolve_safe hs hn K
  have hcost : (pythonFormula n C k used conns cx ty w).cost.length = n := by simp [pythonFormula, listOf]
  obtain ⟨u, u1, u2⟩ := Proofs.loopList_total (P := fun a : Arr Num => a.size = n) (l := used) (s := Arr.fill n 0)
    (body := fun v (u : Arr Num) => ((pythonFormula n C k used conns cx ty w).cost[v]?).bind fun c => u.wr v c) rfl (fun v hv a ha => by
      rw [List.getElem?_eq_getElem (by rw [hcost]; exact hb v hv), Option.bind_some]
      exact Proofs.size_wr ha (hb v hv) _)
  have hlen : out.toList.length = n := by rw [Arr.toList, List.length_map, List.length_range, e2, g1]
  have hsl : slice out.toList 0 n = some out.toList := Proofs.slice_all hlen
  refine ⟨List.zipWith (· + ·) out.toList u.toList, ?_, ?_⟩
  · unfold ksatBeliefs
    simp only [h0, Option.bind_eq_bind, Option.bind_some, ksatWrapper]
    change ((ksatDecode n C used.length k flag alpha f).bind _).bind _ = _
    rw [h1]
    simp only [Option.bind_some, e1]
    change ((slice out.toList 0 n).bind _).bind _ = _
    rw [hsl, Option.bind_some]
    change (if out.toList.length ≤ (List.replicate n (0 : Num)).length then _ else _ : Option (List Num)).bind _ = _
    rw [if_pos (by simp [hlen])]
    simp only [Option.bind_some]
    change (loopList used _ (Arr.fill n 0)).bind _ = _
    rw [u1, Option.bind_some, hlen]
    have : List.drop n (List.replicate (pythonFormula n C k used conns cx ty w).numVars (0 : Num)) = [] := by simp [pythonFormula]
    rw [this, List.append_nil, hlen, u2, if_pos rfl]
  · rw [List.length_zipWith, hlen, Arr.toList, List.length_map, List.length_range, u2, Nat.min_self]

/-- C93, the whole call with the report: for every well-formed formula, all costs and thresholds (infinite ones and NaN included), all
settings and every number of iterations the call returns one belief and one decision per variable, and the reported flag,
violated clauses and active and inactive variables are those of the returned decisions. -/
theorem C93_report {n k : ℕ} {t : KsatTables} (hf : KFormula n k t.clauses t.used t.conns) (w : ℕ → Num) (K : ℕ) (flag : Bool) (alpha : ℚ) (thr : Num)
    {order order' : List ℕ → List ℕ} (ho : ∀ l, (order l).Perm l) (ho' : ∀ l, (order' l).Perm l) (post : Bool) (pp : ℕ) {sol : List Bool}
    (hs : sol = [] ∨ sol.length = n) :
    ∃ res, ksatCall n k K flag alpha thr order order' post pp sol t (listOf n w) = some res ∧ res.beliefs.length = n ∧ res.post.hard.length = n ∧
      (res.post.flag = true ↔ violated t.clauses (asgn res.post.hard) = []) ∧ res.post.sum.unsat = violated t.clauses (asgn res.post.hard) ∧
      (∀ v, v ∈ res.post.sum.active ↔ v ∈ t.used ∧ asgn res.post.hard v = true) ∧
      (∀ v, v ∈ res.post.sum.inactive ↔ v ∈ t.used ∧ asgn res.post.hard v = false) ∧
      (res.requiredPP = true ↔ post = true ∧ violated t.clauses (asgn (hardDecisions thr res.beliefs)) ≠ []) := by
  have hco := Proofs.connections_ok hf
  obtain ⟨bs, h1, h2⟩ := C93_call (ty := Proofs.litSign t) w K flag alpha (fun c hc s hs => Proofs.lit_lt hf hc hs) (conns := t.conns.map (List.map Prod.fst))
    (used := t.used) hco.length (fun v hv hne => by
      obtain ⟨c, hc⟩ := List.exists_mem_of_ne_nil _ hne
      have := (hco.mem v hv c).mp hc
      simp only [occurrences, Finset.mem_filter, Finset.mem_range] at this
      exact hco.used_mem c this.1 v this.2) hco.used_lt (fun l hl c hc => by
      obtain ⟨v, hv, rfl⟩ := List.mem_iff_getElem.mp hl
      have hv' : v < n := by rw [← hco.length]; exact hv
      have := (hco.mem v hv' c).mp (by rw [List.getD_eq_getElem _ _ hv]; exact hc)
      simp only [occurrences, Finset.mem_filter, Finset.mem_range] at this
      exact this.1)
  have h1' : ksatBeliefs K flag alpha (ksatObject n k t (listOf n w)) = some bs := by
    rw [Proofs.object_eq hf]; exact h1
  obtain ⟨res, e1, e2, e3, e4, -⟩ := Proofs.call_of_beliefs hf ho ho' (thr := thr) (post := post) (pp := pp) hs h1' h2
  obtain ⟨st, g1, g2, g3, g4, g5, g6, -⟩ := C30_reported hf.tables ho ho' post pp thr h2
  rw [e3] at g1
  obtain rfl := Option.some.inj g1
  exact ⟨res, e1, by rw [e2, h2], g2, g3, g4, g5, g6, by rw [e2]; exact e4⟩

/-- Three variables and three clauses; the first clause repeats a variable, the last one holds it with both signs, one cost is
infinite, one is not a number. -/
def oddInputs : KsatInputs where
  numVars := 3
  numConstraints := 3
  k := 2
  flag := true
  alpha := 1 / 2
  used := [0, 1, 2]
  conns := [[0, 1], [1, 2], [2]]
  conx := ⟨3, 2, fun c s => ((([[0, 0], [0, 1], [2, 2]] : List (List ℕ)).getD c []).getD s 0)⟩
  conxType := ⟨3, 2, fun c s => ((([[1, 1], [-1, 1], [1, -1]] : List (List ℤ)).getD c []).getD s 0)⟩
  cost := ⟨3, fun v => ([pinf, nan, fin 4] : List Num).getD v 0⟩

/-- Its initial messages. -/
def oddMessages : Mat Num := ⟨3, 3, fun _ v => ([pinf, nan, fin 4] : List Num).getD v 0⟩

theorem oddInputs_shapes : KsatShapes oddInputs oddMessages := ⟨rfl, rfl, ⟨rfl, rfl⟩, ⟨rfl, rfl⟩, ⟨rfl, rfl⟩⟩

/-- All names exist, so the solver returns three numbers, after any number of iterations. -/
example (K : ℕ) : ∃ out, ksatSolve oddInputs oddMessages K = some out ∧ out.size = 3 :=
  C93_size oddInputs_shapes ⟨by decide, by decide, by decide⟩ K

example : (ksatSolve oddInputs oddMessages 2).map Arr.toList = some [fin 0, fin 0, fin 3] := by decide +kernel

/-- A clause that names a fourth variable: the first iteration leaves the array. -/
example (K : ℕ) : ¬ ∃ out, ksatSolve { oddInputs with conx := ⟨3, 2, fun c s => if c = 1 ∧ s = 1 then 3 else oddInputs.conx.data c s⟩ } oddMessages (K + 1) = some out := by
  rw [C93_solver ⟨rfl, rfl, ⟨rfl, rfl⟩, ⟨rfl, rfl⟩, ⟨rfl, rfl⟩⟩]
  intro h
  exact absurd (h.vars 1 (by decide) 1 (by decide)) (by decide)

/-- A list of used variables that counts from one. -/
example (K : ℕ) : ¬ ∃ out, ksatSolve { oddInputs with used := [1, 2, 3] } oddMessages (K + 1) = some out := by
  rw [C93_solver ⟨rfl, rfl, ⟨rfl, rfl⟩, ⟨rfl, rfl⟩, ⟨rfl, rfl⟩⟩]
  intro h
  exact absurd (h.used 3 (by decide)) (by decide)

/-- A list of a variable that names a clause that does not exist. -/
example (K : ℕ) : ¬ ∃ out, ksatSolve { oddInputs with conns := [[0, 1], [1, 2], [3]] } oddMessages (K + 1) = some out := by
  rw [C93_solver ⟨rfl, rfl, ⟨rfl, rfl⟩, ⟨rfl, rfl⟩, ⟨rfl, rfl⟩⟩]
  intro h
  exact absurd (h.clauses [3] (by decide) 3 (by decide)) (by decide)

set_option synthInstance.maxSize 1000 in
/-- Infinite costs and a cost that is not a number: the first decisions violate a clause, post-processing repairs it. -/
example : ((ksatCall 3 2 2 true (1 / 2) (fin 0) id id true 2 [] ⟨[0, 1, 2], [[(0, 1), (1, -1)], [(1, 1), (2, 1)]], [[(0, 1)], [(0, -1), (1, 1)], [(1, 1)]]⟩
    [pinf, nan, pinf]).map fun res => (res.beliefs, res.post.hard, res.post.flag, res.requiredPP)) = some ([pinf, nan, pinf], [true, true, false], true, true) := by decide +kernel

/-- A whole call with a repeated variable and infinite costs. -/
example (K : ℕ) (w : ℕ → Num) : ∃ bs, ksatBeliefs K true (1 / 3) (pythonFormula 3 2 2 [0, 1, 2] [[0], [0, 1], [1]]
    (fun c s => (([[0, 1], [2, 2]] : List (List ℕ)).getD c []).getD s 0) (fun _ _ => 1) w) = some bs ∧ bs.length = 3 :=
  C93_call _ w K true _ (by decide) rfl (by decide) (by decide) (by decide)

end Verif.Properties
