import Verif.Model.Samples
import Verif.Properties.KsatMetrics
import Verif.Properties.TspSafe
import Verif.Properties.TspCost

/-! # C96: the scripts that write test inputs -/

namespace Verif.Properties
open Verif Num Spec Model

/-- Clauses whose sets of variables differ pairwise are not reported. -/
theorem similar_false {F : List (List (ℕ × ℤ))} (h : F.Pairwise (fun a b => ¬ ∀ v, v ∈ a.map Prod.fst ↔ v ∈ b.map Prod.fst)) :
    similarClauses F = false := by
  rw [← Bool.not_eq_true]
  intro hs
  simp only [similarClauses, List.any_eq_true, List.mem_range, Bool.and_eq_true, decide_eq_true_eq] at hs
  obtain ⟨i, hi, j, hj, hij, hsame⟩ := hs
  rw [List.getD_eq_getElem?_getD, List.getElem?_eq_getElem hi, List.getD_eq_getElem?_getD, List.getElem?_eq_getElem hj, Option.getD_some,
    Option.getD_some] at hsame
  simp only [sameVars, Bool.and_eq_true, List.all_eq_true, List.contains_iff_mem] at hsame
  exact List.pairwise_iff_getElem.mp h i j hi hj hij fun v => ⟨hsame.1 v, hsame.2 v⟩

section
variable {n m k : ℕ} (hk : 2 ≤ k) (hm : m ≠ 0) {sol : List Bool} (hsol : sol.length = n) (hn : n ≠ 0) {type : ℤ} {var : ℚ} (sgn : ℕ → Bool)
  {noise : ℕ → ℚ} {order0 : List ℕ → List ℕ} (ho0 : ∀ l, (order0 l).Perm l) {first : ℕ → ℕ} {pick : ℕ → ℕ → ℕ} {sign : ℕ → ℕ → Bool}
  (hf : ∀ c < m, first c < n) (hp : ∀ c < m, ∀ j < k - 1, pick c j < n - 1 - j)
include hk hm hsol hn ho0 hf hp

/-- C96, k-SAT files, written: for every outcome of every draw the script stores a sample and never ends with an error.  The sample contains between one and
`m` different clauses over `n` variables, `k` literals each, its count of clauses is right, the planted assignment is stored and satisfies the formula, and
there is one finite cost per variable. -/
theorem C96_ksat_written : ∃ f, ksatSample n m k type var sol sgn noise order0 first pick sign = some (some f) ∧ f.n = n ∧ f.k = k ∧ f.type = type ∧
    f.sol = sol ∧ KFormula n k f.tables.clauses f.tables.used f.tables.conns ∧ f.numConstraints = f.tables.clauses.length ∧ 1 ≤ f.numConstraints ∧
    f.numConstraints ≤ m ∧ violated f.tables.clauses (asgn sol) = [] ∧ ∃ w : ℕ → ℚ, f.cost = listOf n (fun v => fin (w v)) := by
  obtain ⟨t, g0, g1, g2, g3, g4, g5, g6, -, -, g9, g10⟩ := C29_generated (sign := sign) (show 1 ≤ k by omega) hsol hf hp ho0
  obtain ⟨m1, m2, -⟩ := C81_metrics (n := n) (sol := sol) var sgn noise
  obtain ⟨⟨a0, b0, c0⟩, ⟨a2, b2, c2⟩, hrest⟩ := m2 (Or.inl hsol)
  have hcost : ∃ (a : Arr Num) (w : ℕ → ℚ), generateMetrics n type var sol sgn noise = some a ∧ a.toList = listOf n (fun v => fin (w v)) := by
    by_cases h0 : type = 0
    · subst h0; exact ⟨a0, _, b0, c0⟩
    by_cases h1 : type = 1
    · subst h1
      obtain ⟨a, b, c⟩ := m1 hsol hn
      exact ⟨a, _, b, c⟩
    by_cases h2 : type = 2
    · subst h2; exact ⟨a2, _, b2, c2⟩
    · obtain ⟨a, b, c⟩ := hrest type h0 h1 h2
      exact ⟨a, fun _ => 0, b, c⟩
  obtain ⟨a, w, b, c⟩ := hcost
  refine ⟨⟨n, t.clauses.length, k, t, a.toList, type, sol⟩, ?_, rfl, rfl, rfl, rfl,
    ⟨fun cl hcl => ⟨(g2 cl hcl).1, (g2 cl hcl).2.1, fun l hl => ((g2 cl hcl).2.2 l hl).2⟩, g4, g5, g6⟩, rfl, List.length_pos_iff.mpr (g10 hm), g9, g1, w, c⟩
  simp [ksatSample, b, g0, similar_false g3]

/-- C96, k-SAT files, used: with every setting the program returns on the stored sample, and its flag says whether its decisions satisfy the formula. -/
theorem C96_ksat_runs (K : ℕ) (flag : Bool) (alpha thr : ℚ) {order order' : List ℕ → List ℕ} (ho : ∀ l, (order l).Perm l)
    (ho' : ∀ l, (order' l).Perm l) (post : Bool) (pp : ℕ) :
    ∃ f res, ksatSample n m k type var sol sgn noise order0 first pick sign = some (some f) ∧
      runKsatSample f (K + 1) flag alpha (fin thr) order order' post pp = some res ∧
      (res.post.flag = true ↔ violated f.tables.clauses (asgn res.post.hard) = []) ∧ res.post.hard.length = n := by
  obtain ⟨f, f1, f2, f3, f4, f5, f6, -, -, -, -, w, f11⟩ :=
    C96_ksat_written hk hm hsol hn (type := type) (var := var) sgn (noise := noise) ho0 (sign := sign) hf hp
  obtain ⟨res, b, r1, -, -, r4, r5, -⟩ := C53_call f6 hk w flag alpha thr ho ho' post pp (sol := f.sol) (Or.inr (by rw [f5, hsol])) K
  refine ⟨f, res, f1, ?_, r5, r4⟩
  unfold runKsatSample ksatFileTest
  simp only [Bool.false_eq_true, if_false, Option.bind_eq_bind, Option.bind_some, f2, f3, f11]
  exact r1

/-- C96, k-SAT files with biased costs: if the noise of all variables is small against the variance, the program solves the sample without post-processing
by exactly the planted values. -/
theorem C96_ksat_biased (K : ℕ) {flag : Bool} {alpha thr : ℚ} (ha : flag = true → 0 ≤ alpha ∧ alpha ≤ 1)
    (hclear : ∀ v < n, Clear var thr noise v) {order order' : List ℕ → List ℕ} (ho : ∀ l, (order l).Perm l) (ho' : ∀ l, (order' l).Perm l) (post : Bool)
    (pp : ℕ) :
    ∃ f res, ksatSample n m k 1 var sol sgn noise order0 first pick sign = some (some f) ∧
      runKsatSample f (K + 1) flag alpha (fin thr) order order' post pp = some res ∧ res.post.flag = true ∧ res.requiredPP = false ∧
      (∀ v, v ∈ res.post.sum.active ↔ v ∈ f.tables.used ∧ asgn sol v = true) ∧
      (∀ v, v ∈ res.post.sum.inactive ↔ v ∈ f.tables.used ∧ asgn sol v = false) ∧ res.similarity = some 100 := by
  obtain ⟨f, f1, f2, f3, f4, f5, f6, -⟩ :=
    C96_ksat_written hk hm hsol hn (type := 1) (var := var) sgn (noise := noise) ho0 (sign := sign) hf hp
  obtain ⟨t, res, r1, r2, r3, r4, r5, r6, r7⟩ := C81_random hk ha ho ho' post pp K hsol hn sgn ho0 (sign := sign) hf hp hclear
  unfold ksatRandomTest at r1
  simp only [Option.bind_eq_bind, Option.bind_eq_some_iff, Option.some.injEq, Prod.mk.injEq] at r1
  obtain ⟨cost, c1, t', c2, res', c3, rfl, rfl⟩ := r1
  unfold ksatSample at f1
  simp only [c1, c2, Option.bind_eq_bind, Option.bind_some] at f1
  by_cases hsim : similarClauses t'.clauses = true
  · rw [if_pos hsim] at f1
    simp at f1
  rw [if_neg hsim] at f1
  obtain rfl := Option.some.inj (Option.some.inj f1)
  refine ⟨⟨n, t'.clauses.length, k, t', cost.toList, 1, sol⟩, res', ?_, ?_, r2, r4, r5, r6, r7⟩
  · unfold ksatSample
    simp only [c1, c2, Option.bind_eq_bind, Option.bind_some]
    rw [if_neg hsim]
  · unfold runKsatSample ksatFileTest
    simp only [Bool.false_eq_true, if_false, Option.bind_eq_bind, Option.bind_some]
    exact c3

end

/-- C96, TSP files: with drawn numbers other than zero the stored edges are all ordered pairs of different nodes, each once and sorted; the stored number of
every edge is the drawn one; the program builds its tables, and its first round returns for every number of iterations (with at least two nodes). -/
theorem C96_tsp {n : ℕ} {q : ℕ → ℕ → ℚ} (hq : ∀ i j, q i j ≠ 0) (hn : 2 ≤ n) :
    let f := tspSample n (fun i j => fin (q i j))
    f.n = n ∧ f.symmetric = false ∧ AllEdges n f.edges ∧ f.edges.Pairwise (fun a b => a.1 < b.1 ∨ a.1 = b.1 ∧ a.2 < b.2) ∧ f.edges.length = n ^ 2 - n ∧
    (∀ i < n, ∀ j < n, f.matrix.rd i j = some (fin (if i = j then 0 else q i j))) ∧
    ∀ (s : TspSettings) (order : ℕ → List (ℕ × ℕ) → List ℕ), (∀ k sel, StartOrder sel (order k sel)) → s.numIter ≠ 0 →
      ∃ inp a st, tspInputs s.flag s.alpha n f.matrix f.edges = some (inp, a) ∧
        iterateRelaxed (tspSetup inp s.numIter s.reset s.augmentation s.thr s.maxCount s.maxAugm order) (tspStart inp a) = some st := by
  intro f
  obtain ⟨h1, h2⟩ := C34_complete false n hq
  obtain ⟨C, c1, c2, c3, -, c5⟩ := C34_matrix false n q
  obtain ⟨e1, -⟩ := C34_edges c1
  refine ⟨rfl, rfl, h1, e1, h2, fun i hi j hj => ?_, fun s order ho hK => ?_⟩
  · have : (costMatrix false n (fun i j => fin (q i j))).rd i j = some (fin (C i j)) := by
      unfold Mat.rd
      rw [if_pos ⟨by rw [c1.1]; exact hi, by rw [c1.2.1]; exact hj⟩, c1.2.2 i hi j hj]
    refine this.trans ?_
    by_cases h : i = j
    · subst h; rw [c2, if_pos rfl]
    · rw [c5 rfl i j h, if_neg h]
  · obtain ⟨K, e⟩ := Nat.exists_eq_succ_of_ne_zero hK
    obtain ⟨inp, a, t1, t2⟩ := C92_complete (flag := s.flag) (alpha := s.alpha) (thr := s.thr) c1.1 c1.2.1 h1 K s.reset s.augmentation s.maxCount s.maxAugm ho
    obtain ⟨st, hst⟩ := t2.mpr (by omega)
    exact ⟨inp, a, st, t1, by rw [e]; exact hst⟩

set_option synthInstance.maxSize 1000 in
/-- Non-vacuity of C96: four draws of clauses over five variables, the third one a duplicate that is left out, give a sample with three clauses, solved in
two iterations; a sample with three nodes has six edges. -/
example :
    ((ksatSample 5 4 2 1 10 [true, false, true, false, true] (fun _ => true) (fun v => [1, -3, 4, 2, 0].getD v 0) id (fun c => [0, 3, 1, 4].getD c 0)
      (fun c _ => [0, 1, 0, 2].getD c 0) (fun c _ => [false, true, true, false].getD c false)).map
        (fun o => o.map (fun f => (f.numConstraints, f.tables.clauses, f.cost, f.sol)))) =
      some (some (3, [[(0, 1), (1, -1)], [(3, -1), (1, 1)], [(4, 1), (2, -1)]], [fin (-4), fin 2, fin (-1), fin 7, fin (-5)],
        [true, false, true, false, true])) ∧
    ((ksatSample 5 4 2 1 10 [true, false, true, false, true] (fun _ => true) (fun v => [1, -3, 4, 2, 0].getD v 0) id (fun c => [0, 3, 1, 4].getD c 0)
      (fun c _ => [0, 1, 0, 2].getD c 0) (fun c _ => [false, true, true, false].getD c false)).bind
        (fun o => o.bind (fun f => (runKsatSample f 2 true (1 / 2) (fin (-1 / 10000)) id id true 3).map (fun r => (r.post.flag, r.similarity))))) =
      some (true, some 100) ∧
    similarClauses [[(0, 1), (1, 1)], [(2, 1), (1, 1)], [(1, -1), (0, 1)]] = true ∧
    (tspSample 3 (fun i j => fin (10 * i + j + 1))).edges = [(0, 1), (0, 2), (1, 0), (1, 2), (2, 0), (2, 1)] := by
  decide +kernel

end Verif.Properties
