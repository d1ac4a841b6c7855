import Verif.Proofs.PyKcCall
import Verif.Properties.KcOptimal

/-! # C87: the pure Python programs report the same as the programs with native code -/

namespace Verif.Properties
open Verif Num Spec Model

/-- C87 as claimed for the assignment programs: on every input that both accept, with a threshold of at most zero and a damping rate between
0 and 1, both return the same beliefs, keep the same teams and report the same entries. -/
def C87_claim : Prop :=
  ∀ (d : TeamData) (caps types : List ℕ) (combos : List (ℕ × ℕ)) (count : ℕ × ℕ × ℕ → ℕ), KcCallOk d caps types combos count →
    ∀ (P : ℕ), 0 < P → ∀ (w : ℕ → ℚ) (R : ℕ → ℕ → ℚ) (flag : Bool) (alpha q : ℚ), 0 < alpha → alpha ≤ 1 → q ≤ 0 → ∀ (K : ℕ) (post : Bool) (r r' : KcResult),
      pyKcCall d (K + 1) flag alpha post (fin q) (inputFile caps types (teams combos types count).length P w R) = some r →
      kcCall d (K + 1) flag alpha post 1 (fin q) (inputFile caps types (teams combos types count).length P w R) = some r' → r = r'

section
variable {d : TeamData} {caps types : List ℕ} {combos : List (ℕ × ℕ)} {count : ℕ × ℕ × ℕ → ℕ} {P : ℕ} {w : ℕ → ℚ} {R : ℕ → ℕ → ℚ}
  {flag : Bool} {alpha q : ℚ}

/-- C87, assignment.  With at least two projects, at least two teams, different numbers of them, and costs that keep all messages to teams below the
limit of the native code (C70), both whole programs return the same for every number of iterations (at least one), with and without
post-processing.  Missing for the full claim: the other inputs, where the programs differ (`C87_claim_false`). -/
theorem C87_same_partial (h : KcCallOk d caps types combos count) {L : List (ℕ × ℕ × ℕ)} (hL : L = teams combos types count) (hP : 2 ≤ P)
    (hT : 2 ≤ L.length) (hne : P ≠ L.length) (ha : flag = true → 0 < alpha ∧ alpha ≤ 1) (hc : CheapTakeover L.length P w R) (hq : q ≤ 0) (K : ℕ) (post : Bool) :
    ∃ r, pyKcCall d (K + 1) flag alpha post (fin q) (inputFile caps types L.length P w R) = some r ∧
      kcCall d (K + 1) flag alpha post 1 (fin q) (inputFile caps types L.length P w R) = some r := by
  obtain ⟨hprob, T, -, -, -, hi⟩ := call_start (w := w) (R := R) h (by omega : 0 < P) hL
  obtain ⟨a, raw, o, y, e, c, ht, hr⟩ := Proofs.pyKcIterate_spec (w := w) (R := R) hprob (fun hf => (ha hf).1.ne') hP hT hne
  obtain ⟨a', raw', o', y', e', c', ht'⟩ := C23_trace (w := w) (R := R) hprob flag alpha
  obtain ⟨m, h1, h2⟩ := hr K
  obtain ⟨m', k1, k2⟩ := C23_call hprob flag alpha ht' K
  have hl := Proofs.kcTrace_limit ht ht' (K := K) fun j _ t htT =>
    (C70_below_limit ht (fun hf => ⟨(ha hf).1.le, (ha hf).2⟩) hc j htT).le
  have hb : listOf L.length (fun t => fin (c K t + ∑ i ∈ depts caps.length (weightOf L) t, damped flag alpha (fun j => raw j i t) K + w t)) =
      listOf L.length (fun t => fin (c' K t + ∑ i ∈ depts caps.length (weightOf L) t, damped flag alpha (fun j => raw' j i t) K + w t)) := by
    refine List.map_congr_left fun t htT => ?_
    have htT := List.mem_range.mp htT
    rw [(hl K le_rfl).2.2 t htT]
    congr 3
    refine Finset.sum_congr rfl fun i hi => Proofs.damped_congr fun j hj => ?_
    have := Proofs.mem_depts.mp hi
    exact ((hl j hj).1 i this.1 t htT this.2).2
  rw [hb] at h1
  have hsame : ∀ p < P, ∀ t < L.length, m.data p t = m'.data p t ∨ lt (m.data p t) (fin q) = false ∧ lt (m'.data p t) (fin q) = false := by
    intro p hp t htT
    refine Or.inl ?_
    rw [h2.2.2 p hp t htT, k2.2.2 p hp t htT]
    simp only [((hl K le_rfl).2.1 p hp t htT).2.1, ((hl K le_rfl).2.1 p hp t htT).2.2]
  have hpost := fun byTeams => Proofs.post_same hq k2.1 k2.2.1 h2.1 h2.2.1 hsame (analysisData caps combos T) byTeams L.length
    (listOf L.length (fun t => fin (c' K t + ∑ i ∈ depts caps.length (weightOf L) t, damped flag alpha (fun j => raw' j i t) K + w t)))
  have hi' := Proofs.pyKcInitialize_eq (wf := weightOf L) hi
  have heq : pyKcCall d (K + 1) flag alpha post (fin q) (inputFile caps types L.length P w R) =
      kcCall d (K + 1) flag alpha post 1 (fin q) (inputFile caps types L.length P w R) := by
    have e1 : (pythonTables caps.length L.length P (weightOf L) (fun d => caps.getD d 0) (fun t => fin (w t)) (fun p t => fin (R p t))).numTeams =
      L.length := rfl
    have hi'' : pyKcInitialize d (inputFile caps types L.length P w R) = _ := hi'
    unfold pyKcCall kcCall
    simp only [hi'', hi, h1, k1, Option.bind_eq_bind, Option.bind_some, e1, (hpost true).1, (hpost true).2.1, fun b => (hpost b).2.2, if_true]
  have hs : ∃ r, kcCall d (K + 1) flag alpha post 1 (fin q) (inputFile caps types L.length P w R) = some r := by
    cases post with
    | true =>
      obtain ⟨r, -, hr, -⟩ := (C54_call (w := w) (R := R) (flag := flag) (alpha := alpha) h (by omega : 0 < P) hL).2 a' raw' o' y' e' c' ht' K q false hq
      exact ⟨r, hr⟩
    | false =>
      obtain ⟨r, hr, -⟩ := C54_plain (w := w) (R := R) (flag := flag) (alpha := alpha) h (by omega : 0 < P) hL ht' K 1 hq
      exact ⟨r, hr⟩
  obtain ⟨r, hr⟩ := hs
  exact ⟨r, heq.trans hr, hr⟩

/-- C87, one project: the pure Python program raises an exception on every input with a single project, after which nothing is reported,
whatever the number of iterations; the program with native code returns (C54). -/
theorem C87_one_project (h : KcCallOk d caps types combos count) {L : List (ℕ × ℕ × ℕ)} (hL : L = teams combos types count) (K : ℕ) (post : Bool)
    (threshold : Num) : pyKcCall d K flag alpha post threshold (inputFile caps types L.length 1 w R) = none := by
  obtain ⟨hprob, T, -, -, -, hi⟩ := call_start (w := w) (R := R) h (by norm_num : 0 < 1) hL
  obtain ⟨t, ht, -⟩ := hprob.used 0 h.units
  have hi' : pyKcInitialize d (inputFile caps types L.length 1 w R) = _ := Proofs.pyKcInitialize_eq (wf := weightOf L) hi
  unfold pyKcCall pyKcIterate
  simp only [hi', Option.bind_eq_bind, Option.bind_some, Proofs.pyKcSolve_one (inp := pyKcInputs flag alpha (pythonTables caps.length L.length 1 (weightOf L)
    (fun d => caps.getD d 0) (fun t => fin (w t)) (fun p t => fin (R p t)))) rfl (show 0 < L.length by omega), Option.bind_none]

/-- C87 and C62: where all generated teams fit and one assignment is the best by `gap`, the pure Python program reports it, too. -/
theorem C87_optimal {gap B : ℚ} {m : ℕ → Option ℕ} (h : KcCallOk d caps types combos count) {L : List (ℕ × ℕ × ℕ)} (hL : L = teams combos types count)
    (hP : 2 ≤ P) (hT : 2 ≤ L.length) (hne : P ≠ L.length) (ha : flag = true → 0 < alpha ∧ alpha ≤ 1) (hc : CheapTakeover L.length P w R)
    (hfit : AllFit caps.length L.length (weightOf L) (fun d => caps.getD d 0)) (hg : 0 < gap)
    (hb : BestBy gap L.length P (fun t p => w t + R p t) m) (hw : ∀ t < L.length, |w t| ≤ B) (hR : ∀ t < L.length, ∀ p, m t = some p → |R p t| ≤ B)
    {K : ℕ} (hK : (L.length + 1) * B + gap ≤ K * gap) (hq0 : q ≤ 0) (hq : -(2 * (gap / (L.length + 1))) < q) (post : Bool) :
    ∃ r, pyKcCall d (K + 1) flag alpha post (fin q) (inputFile caps types L.length P w R) = some r ∧
      r.kept.Pairwise (· < ·) ∧ (∀ t, t ∈ r.kept ↔ t < L.length ∧ m t ≠ none) ∧
      r.entries = r.kept.map (fun t => (((L.getD t (0, 0, 0)).1, (L.getD t (0, 0, 0)).2.1), (L.getD t (0, 0, 0)).2.2,
        [t + 1], [(m t).getD 0 + 1])) := by
  obtain ⟨r, h1, h2⟩ := C87_same_partial h hL hP hT hne ha hc hq0 K post
  obtain ⟨r', k1, k2⟩ := C62_call h (by omega) hL hfit hg hb hw hR hK hq0 hq post false
  obtain rfl : r = r' := Option.some.inj (h2.symm.trans k1)
  exact ⟨r, h1, k2⟩

end

/-- C87, k-SAT.  On every well-formed formula with at least two literals per clause, with any finite costs and a nonzero rate if damping is on, the pure
Python program returns the beliefs, decisions, active and inactive variables and violated clauses that the program with native code returns
without post-processing. -/
theorem C87_ksat {n k : ℕ} {t : KsatTables} (hf : KFormula n k t.clauses t.used t.conns) (hk : 2 ≤ k) (w : ℕ → ℚ) {flag : Bool} {alpha : ℚ}
    (hfa : flag = true → alpha ≠ 0) (thr : ℚ) {order order' : List ℕ → List ℕ} (ho : ∀ l, (order l).Perm l) (ho' : ∀ l, (order' l).Perm l) (pp K : ℕ) :
    ∃ res, ksatCall n k (K + 1) flag alpha (fin thr) order order' false pp [] t (listOf n (fun v => fin (w v))) = some res ∧
      pyKsatCall n k (K + 1) flag alpha (fin thr) t (listOf n (fun v => fin (w v))) = some (res.beliefs, res.post.hard, res.post.sum) := by
  obtain ⟨res, b, h1, -⟩ := C53_call hf hk w flag alpha thr ho ho' false pp (Or.inl rfl) K
  refine ⟨res, h1, ?_⟩
  obtain ⟨v2k, ext, used, b', p1, p2, p3, p4, p5⟩ := Proofs.pyKsat_beliefs hf hk w hfa K
  simp only [ksatCall, p5, Option.bind_eq_bind, Option.bind_some] at h1
  obtain ⟨first, g1, h1⟩ := Option.bind_eq_some_iff.mp h1
  simp only [decideAndPost, g1, Option.bind_eq_bind, Option.bind_some, Bool.false_eq_true, and_false, if_false] at h1
  obtain ⟨sim, -, h1⟩ := Option.bind_eq_some_iff.mp h1
  obtain rfl := Option.some.inj h1
  simp only [pyKsatCall, p1, p2, p3, p4, g1, Option.bind_eq_bind, Option.bind_some]

/-! ## Examples -/

/-- Costs of three projects (rows) for three teams, all positive. -/
def c87Cost (p t : ℕ) : ℚ := ([[1, 2, 3], [2, 1, 5], [4, 4, 1]].getD p []).getD t 0

set_option synthInstance.maxSize 1000 in
/-- With three teams and three projects, where every assignment costs something, the pure Python program reports three assignments and the program
with native code none. -/
theorem C87_balanced :
    (pyKcCall flatData 5 false 0 true (fin 0) (inputFile [1, 2] [1] 3 3 (fun _ => 0) c87Cost)).map (fun r => (r.kept, r.entries.map (fun e => e.2.2))) =
      some ([0, 1, 2], [([1], [1]), ([2], [2]), ([3], [3])]) ∧
    (kcCall flatData 5 false 0 true 1 (fin 0) (inputFile [1, 2] [1] 3 3 (fun _ => 0) c87Cost)).map (fun r => (r.kept, r.entries.map (fun e => e.2.2))) =
      some ([], []) := by decide +kernel

/-- C87 is false as claimed. -/
theorem C87_claim_false : ¬ C87_claim := by
  intro hcl
  have e1 : (pyKcCall flatData 5 false 1 true (fin 0) (inputFile [1, 2] [1] 3 3 (fun _ => 0) c87Cost)).map (fun r => r.kept) = some [0, 1, 2] := by
    decide +kernel
  have e2 : (kcCall flatData 5 false 1 true 1 (fin 0) (inputFile [1, 2] [1] 3 3 (fun _ => 0) c87Cost)).map (fun r => r.kept) = some [] := by
    decide +kernel
  obtain ⟨r, h1, k1⟩ := Option.map_eq_some_iff.mp e1
  obtain ⟨r', h2, k2⟩ := Option.map_eq_some_iff.mp e2
  have := hcl flatData [1, 2] [1] _ _ c62_ok 3 (by norm_num) (fun _ => 0) c87Cost false 1 0 (by norm_num) (by norm_num) le_rfl 4 true r r' h1 h2
  rw [this, k2] at k1
  cases k1

/-- The example of C62: both programs return the same for every number of iterations and every damping rate. -/
example (flag : Bool) (alpha : ℚ) (ha : 0 < alpha ∧ alpha ≤ 1) (post : Bool) (K : ℕ) :
    ∃ r, pyKcCall flatData (K + 1) flag alpha post (fin 0) (inputFile [1, 2] [1] 3 2 (fun _ => 0) (fun p t => c62Cost t p)) = some r ∧
      kcCall flatData (K + 1) flag alpha post 1 (fin 0) (inputFile [1, 2] [1] 3 2 (fun _ => 0) (fun p t => c62Cost t p)) = some r := by
  have hL : [(1, 1, 1), (2, 2, 1), (2, 2, 1)] = teams [(1, 1), (1, 2), (2, 2)] [1] (fun k => if k.1 = k.2.1 then k.1 else 0) := by decide
  exact C87_same_partial (L := [(1, 1, 1), (2, 2, 1), (2, 2, 1)]) c62_ok hL (by norm_num) (by decide) (by decide) (fun _ => ha)
    (cheap_of_bound (B := 5) (by norm_num) (by intro t _; norm_num) (by decide +kernel) (by norm_num)) le_rfl K post

set_option synthInstance.maxSize 1000 in
/-- Evaluated for nine iterations: the optimum. -/
example : (pyKcCall flatData 9 false 0 true (fin 0) (inputFile [1, 2] [1] 3 2 (fun _ => 0) (fun p t => c62Cost t p))).map
    (fun r => (r.kept, r.entries.map (fun e => (e.1, e.2.1)), r.entries.map (fun e => e.2.2))) =
    some ([0, 1], [((1, 1), 1), ((2, 2), 1)], [([1], [2]), ([2], [1])]) := by decide +kernel

/-- The formula of the example of C53: its first decisions violate a clause. -/
example : ((do
    let t ← generate 4 3 2 id [true, false, true, false] (fun c => c) (fun _ _ => 1) (fun c _ => c == 0)
    let res ← pyKsatCall 4 2 3 true (1 / 2) 0 t [fin 1, fin 1, fin 1, fin 1]
    some (res.2.1, res.2.2.active, res.2.2.unsat)) : Option (List Bool × List ℕ × List ℕ)) =
    some ([false, false, false, true], [], [0]) := by decide +kernel

end Verif.Properties
