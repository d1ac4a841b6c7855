import Verif.Proofs.BigPairCall
import Verif.Properties.KcOptimal

/-! # C86: infinite costs forbid pairs of project and team in the assignment solver -/

namespace Verif.Properties
open Verif Num Spec Model

/-- The input file with infinite costs for the pairs (project, team) that `F` forbids. -/
def forbiddenFile (caps types : List ℕ) (T P : ℕ) (w : ℕ → ℚ) (F : ℕ → ℕ → Bool) (R : ℕ → ℕ → ℚ) : KcLoad :=
  ⟨caps, types, listOf T (fun t => fin (w t)), table T P (fun t p => forbid F R p t)⟩

section
variable {D T P : ℕ} {wf : ℕ → ℕ → ℕ} {cap : ℕ → ℕ} {w : ℕ → ℚ} {R : ℕ → ℕ → ℚ} {F : ℕ → ℕ → Bool} {flag : Bool} {alpha M : ℚ}

/-- C86, message passing.  Let the costs of all other pairs and of the teams be finite.  If the forbidden pairs cost infinity, then the
team beliefs are exactly those with any cost `M ≥ 10^6` instead of infinity that outweighs the costs of the teams, and so are the beliefs
of the other pairs; after at least one iteration forbidden pairs have belief infinity (with cost `M`, a belief that is not negative).  No
NaN occurs. -/
theorem C86_iterate (h : KcProblemOk D T P wf cap) (ha : flag = true → 0 ≤ alpha ∧ alpha ≤ 1) (hM : 1000000 ≤ M) (hw : ∀ t < T, 0 ≤ M + w t)
    (K : ℕ) :
    ∃ (b : ℕ → ℚ) (c : ℕ → ℕ → ℚ) (m m' : Mat Num), m.Is P T c ∧
      kcIteratePy (K + 1) flag alpha (pythonTables D T P wf cap (fun t => fin (w t)) (fun p t => fin (if F p t then M else R p t))) =
        some (listOf T (fun t => fin (b t)), m) ∧
      kcIteratePy (K + 1) flag alpha (pythonTables D T P wf cap (fun t => fin (w t)) (forbid F R)) = some (listOf T (fun t => fin (b t)), m') ∧
      m'.rows = P ∧ m'.cols = T ∧
      ∀ p < P, ∀ t < T, m'.data p t = forbid F c p t ∧ (F p t = true → 0 ≤ c p t) := by
  obtain ⟨a, raw, o, y, e, c, ht⟩ := C23_trace (w := w) (R := fun p t => if F p t then M else R p t) h flag alpha
  obtain ⟨m, hm, hm'⟩ := C23_call h flag alpha ht K
  obtain ⟨b, m0, m', k1, k2, -, k4, -, -, k7⟩ := Proofs.big_call (N := F) (R := R) h ha hM hw (K + 1)
  rw [hm] at k1
  obtain ⟨rfl, rfl⟩ := Prod.mk.inj (Option.some.inj k1)
  refine ⟨_, _, m, m', hm', hm, k2, k4.1, k4.2, fun p hp t htT => ?_⟩
  obtain ⟨q, q1, q2, q3⟩ := k7 (by omega) p hp t htT
  rw [hm'.2.2 p hp t htT] at q1
  have q1 : o K p t + y K p t + (if F p t then M else R p t) = q := Num.fin.inj q1
  refine ⟨?_, fun hF => (q2 hF).1.trans_eq q1.symm⟩
  by_cases hF : F p t = true
  · simp [(q2 hF).2, forbid, hF]
  · have hF : F p t = false := by simpa using hF
    rw [q3 hF, ← q1]
    simp [forbid, hF]

end

section
variable {d : TeamData} {caps types : List ℕ} {combos : List (ℕ × ℕ)} {count : ℕ × ℕ × ℕ → ℕ} {P : ℕ} {w : ℕ → ℚ} {R : ℕ → ℕ → ℚ}
  {F : ℕ → ℕ → Bool} {flag : Bool} {alpha M q gap B : ℚ} {m : ℕ → Option ℕ}

theorem forbidden_start (h : KcCallOk d caps types combos count) (hP : 0 < P) {L : List (ℕ × ℕ × ℕ)} (hL : L = teams combos types count) :
    KcProblemOk caps.length L.length P (weightOf L) (fun d => caps.getD d 0) ∧ ∃ T : KcTeamsPy,
      (∀ R : ℕ → ℕ → ℚ, kcInitialize d (inputFile caps types L.length P w R) =
        some (pythonTables caps.length L.length P (weightOf L) (fun d => caps.getD d 0) (fun t => fin (w t)) (fun p t => fin (R p t)), T)) ∧
      kcInitialize d (forbiddenFile caps types L.length P w F R) =
        some (pythonTables caps.length L.length P (weightOf L) (fun d => caps.getD d 0) (fun t => fin (w t)) (forbid F R), T) := by
  obtain ⟨l, hl, -, hpairs, hself, -⟩ := C41_pruned h.known
  obtain rfl : l = combos := by rw [h.pruned] at hl; exact (Option.some.inj hl).symm
  have hprob := Proofs.teams_problem h.units hP hself h.known_types h.some_type h.roomy h.counts
  obtain ⟨T, count', t1, t2, t3, t4, t5⟩ := C33_weights_partial (d := d) hpairs h.known_types h.roomy
  rw [← Proofs.teams_congr h.counts t2, ← hL] at t3 t5
  rw [← hL] at hprob
  obtain ⟨t, ht, -⟩ := hprob.used 0 h.units
  exact ⟨hprob, analysisData caps l T, fun R => Proofs.initialize_spec h.units h.pruned t1 t3 (by omega) t4 t5,
    Proofs.initialize_spec h.units h.pruned t1 t3 (by omega) t4 t5⟩

/-- C86, the whole run of main_kc_mwm: for every number of iterations and all settings, with a threshold of at most zero, the result with
infinite costs is exactly the result with the cost `M`. -/
theorem C86_call (h : KcCallOk d caps types combos count) (hP : 0 < P) {L : List (ℕ × ℕ × ℕ)} (hL : L = teams combos types count)
    (ha : flag = true → 0 ≤ alpha ∧ alpha ≤ 1) (hM : 1000000 ≤ M) (hw : ∀ t < L.length, 0 ≤ M + w t) (hq : q ≤ 0) (K : ℕ) (post : Bool) (option : ℕ) :
    kcCall d K flag alpha post option (fin q) (forbiddenFile caps types L.length P w F R) =
      kcCall d K flag alpha post option (fin q) (inputFile caps types L.length P w (fun p t => if F p t then M else R p t)) := by
  obtain ⟨hprob, T, hi, hi'⟩ := forbidden_start (w := w) (F := F) (R := R) h hP hL
  obtain ⟨b, m, m', k1, k2, ⟨k3, k4⟩, ⟨k5, k6⟩, -, k7, k8⟩ := Proofs.big_call (N := F) (R := R) hprob ha hM hw K
  have hsame : ∀ p < P, ∀ t < L.length, m'.data p t = m.data p t ∨ lt (m'.data p t) (fin q) = false ∧ lt (m.data p t) (fin q) = false := by
    intro p hp t ht
    rcases Nat.eq_zero_or_pos K with hK | hK
    · exact Or.inl (by rw [(k7 hK p hp t ht).1, (k7 hK p hp t ht).2])
    · obtain ⟨z, z1, z2, z3⟩ := k8 hK p hp t ht
      cases hF : F p t with
      | true =>
        refine Or.inr ⟨by rw [(z2 hF).2]; rfl, ?_⟩
        rw [z1]
        simpa using hq.trans (z2 hF).1
      | false => exact Or.inl (by rw [z1, z3 hF])
  have hpost := fun byTeams => Proofs.post_same hq k3 k4 k5 k6 hsame T byTeams L.length b
  have e1 : ∀ R : ℕ → ℕ → Num, (pythonTables caps.length L.length P (weightOf L) (fun d => caps.getD d 0) (fun t => fin (w t)) R).numTeams =
    L.length := fun _ => rfl
  unfold kcCall
  simp only [hi', hi, k1, k2, Option.bind_eq_bind, Option.bind_some, e1, (hpost true).1, (hpost true).2.1, fun b => (hpost b).2.2]

/-- C86: no run reports a forbidden pair, whatever the number of iterations, the damping and the post-processing; numbers in reports
start from 1. -/
theorem C86_never (h : KcCallOk d caps types combos count) (hP : 0 < P) {L : List (ℕ × ℕ × ℕ)} (hL : L = teams combos types count)
    (ha : flag = true → 0 ≤ alpha ∧ alpha ≤ 1) (hq : q ≤ 0) {K : ℕ} {post : Bool} {option : ℕ} {r : KcResult}
    (hr : kcCall d K flag alpha post option (fin q) (forbiddenFile caps types L.length P w F R) = some r) :
    ∀ e ∈ r.entries, ∀ x ∈ e.2.2.1.zip e.2.2.2, ∃ t < L.length, ∃ p < P, x = (t + 1, p + 1) ∧ F p t = false := by
  obtain ⟨hprob, T, hi, hi'⟩ := forbidden_start (w := w) (F := F) (R := R) h hP hL
  obtain ⟨M, hM, hw⟩ : ∃ M : ℚ, 1000000 ≤ M ∧ ∀ t < L.length, 0 ≤ M + w t := by
    refine ⟨1000000 + ∑ t ∈ Finset.range L.length, |w t|, ?_, fun t ht => ?_⟩
    · have : 0 ≤ ∑ t ∈ Finset.range L.length, |w t| := Finset.sum_nonneg fun _ _ => abs_nonneg _
      linarith
    · have : |w t| ≤ ∑ t ∈ Finset.range L.length, |w t| :=
        Finset.single_le_sum (f := fun t => |w t|) (fun _ _ => abs_nonneg _) (Finset.mem_range.mpr ht)
      linarith [neg_abs_le (w t)]
  obtain ⟨b, m, m', k1, k2, -, ⟨k5, k6⟩, -, k7, k8⟩ := Proofs.big_call (N := F) (R := R) hprob ha hM hw K
  intro e he x hx
  obtain ⟨⟨p, t⟩, hc, rfl⟩ := Proofs.entries_matched hi' k2 hr e he x hx
  have hc := Proofs.mem_matchedPairs.mp hc
  simp only [decisionMatrix, Proofs.decideEntry_nonpos hq, k5, k6] at hc
  refine ⟨t, hc.2.1, p, hc.1, rfl, ?_⟩
  by_contra hF
  have hF : F p t = true := by simpa using hF
  rcases Nat.eq_zero_or_pos K with hK | hK
  · have := hc.2.2
    rw [(k7 hK p hc.1 t hc.2.1).2] at this
    have h0 : (0 : ℚ) < q := by simpa [show (0 : Num) = fin 0 from rfl] using this
    linarith
  · obtain ⟨z, -, z2, -⟩ := k8 hK p hc.1 t hc.2.1
    rw [(z2 hF).2] at hc
    cases hc.2.2

/-- C86, the optimum.  If all generated teams together fit their units and one assignment is cheaper by `gap` than all others without
forbidden pairs, then the run with infinite costs reports exactly this assignment, from the same number of iterations on as in C62 (`B`
bounds the costs of the teams and of the pairs of the optimum). -/
theorem C86_optimal (h : KcCallOk d caps types combos count) (hP : 0 < P) {L : List (ℕ × ℕ × ℕ)} (hL : L = teams combos types count)
    (ha : flag = true → 0 ≤ alpha ∧ alpha ≤ 1)
    (hfit : AllFit caps.length L.length (weightOf L) (fun d => caps.getD d 0)) (hg : 0 < gap)
    (hb : BestAvoiding gap L.length P F (fun t p => w t + R p t) m) (hw : ∀ t < L.length, |w t| ≤ B)
    (hR : ∀ t < L.length, ∀ p, m t = some p → |R p t| ≤ B)
    {K : ℕ} (hK : (L.length + 1) * B + gap ≤ K * gap) (hq0 : q ≤ 0) (hq : -(2 * (gap / (L.length + 1))) < q) (post byTeams : Bool) :
    ∃ r, kcCall d (K + 1) flag alpha post (if byTeams then 2 else 1) (fin q) (forbiddenFile caps types L.length P w F R) = some r ∧
      r.kept.Pairwise (· < ·) ∧ (∀ t, t ∈ r.kept ↔ t < L.length ∧ m t ≠ none) ∧
      r.entries = r.kept.map (fun t => (((L.getD t (0, 0, 0)).1, (L.getD t (0, 0, 0)).2.1), (L.getD t (0, 0, 0)).2.2,
        [t + 1], [(m t).getD 0 + 1])) := by
  obtain ⟨M, hM, hbest⟩ := Proofs.best_of_avoiding hb (max 1000000 B)
  rw [C86_call h hP hL ha ((le_max_left _ _).trans hM) (fun t ht => by
    have := abs_le.mp (hw t ht)
    linarith [(le_max_right 1000000 B).trans hM]) hq0]
  refine C62_call h hP hL hfit hg hbest hw (fun t ht p hmt => ?_) hK hq0 hq post byTeams
  simp only [hb.2.1 t ht p hmt, Bool.false_eq_true, if_false]
  exact hR t ht p hmt

end

/-! Three teams and two projects, as in C62, but team 0 must not get project 1. -/

def c86Forbidden (p t : ℕ) : Bool := p == 1 && t == 0

def c86Best (t : ℕ) : Option ℕ := [some 0, none, some 1].getD t none

theorem c86_best : BestAvoiding (1 / 2) 3 2 c86Forbidden (fun t p => (fun _ => (0 : ℚ)) t + (fun p t => c62Cost t p) p t) c86Best := by
  have hp : Prices 3 2 (fun t p => if c86Forbidden p t then 10 else c62Cost t p) c86Best (fun t => [-1 / 2, 0, -1 / 2].getD t 0)
      (fun p => [-9 / 2, -3 / 2].getD p 0) (1 / 2) := by
    refine ⟨⟨?_, ?_⟩, ?_, ?_, ?_, ?_, ?_, ?_⟩
    · intro t ht p h; interval_cases t <;> simp [c86Best] at h <;> omega
    · intro t ht t' ht' p h h'
      interval_cases t <;> simp [c86Best] at h <;> interval_cases t' <;> simp [c86Best] at h' <;> omega
    · intro t ht p h; interval_cases t <;> simp [c86Best] at h <;> subst h <;> norm_num [c62Cost, c86Forbidden]
    · intro t ht h; interval_cases t <;> simp [c86Best] at h <;> norm_num
    · intro t ht h; interval_cases t <;> simp [c86Best] at h; norm_num
    · intro t ht p h; interval_cases t <;> simp [c86Best] at h <;> subst h <;> norm_num
    · intro p hp h
      interval_cases p
      · exact absurd rfl (h 0 (by norm_num))
      · exact absurd rfl (h 2 (by norm_num))
    · intro t ht p hp h
      interval_cases t <;> interval_cases p <;> simp [c86Best] at h <;> norm_num [c62Cost, c86Forbidden]
  obtain ⟨h1, h2⟩ := Proofs.best_of_prices (by norm_num) hp
  have hav : AvoidsPairs 3 c86Forbidden c86Best := by
    intro t ht p h; interval_cases t <;> simp [c86Best] at h <;> subst h <;> rfl
  have same : ∀ m, AvoidsPairs 3 c86Forbidden m → assignmentCost 3 (fun t p => if c86Forbidden p t then 10 else c62Cost t p) m =
      assignmentCost 3 (fun t p => (fun _ => (0 : ℚ)) t + (fun p t => c62Cost t p) p t) m := by
    intro m hm
    refine Finset.sum_congr rfl fun t ht => ?_
    rcases hmt : m t with _ | p
    · rfl
    · simp [costOf, hm t (Finset.mem_range.mp ht) p hmt]
  refine ⟨h1, hav, fun other ho hoa hne => ?_⟩
  rw [← same other hoa, ← same _ hav]
  exact h2 other ho hne

/-- The hypotheses of C86_optimal hold here: after 42 iterations team 0 gets project 0 and team 2 gets project 1. -/
example (flag : Bool) (post byTeams : Bool) :
    ∃ r, kcCall flatData 42 flag (1 / 3) post (if byTeams then 2 else 1) (fin 0)
        (forbiddenFile [1, 2] [1] 3 2 (fun _ => 0) c86Forbidden (fun p t => c62Cost t p)) = some r ∧
      r.kept.Pairwise (· < ·) ∧ (∀ t, t ∈ r.kept ↔ t < 3 ∧ c86Best t ≠ none) := by
  have hL : [(1, 1, 1), (2, 2, 1), (2, 2, 1)] = teams [(1, 1), (1, 2), (2, 2)] [1] (fun k => if k.1 = k.2.1 then k.1 else 0) := by decide
  obtain ⟨r, h1, h2, h3, -⟩ := C86_optimal (w := fun _ => 0) (F := c86Forbidden) (R := fun p t => c62Cost t p) (flag := flag) (alpha := 1 / 3)
    (K := 41) (B := 5) (q := 0) c62_ok (by norm_num : 0 < 2) hL (fun _ => by norm_num) (C62_one_type c62_ok hL (Or.inl rfl)) (by norm_num)
    c86_best (fun t _ => by norm_num) (fun t ht p hp => by
      simp only [List.length_cons, List.length_nil] at ht
      interval_cases t <;> simp [c86Best] at hp <;> subst hp <;> norm_num [c62Cost, abs_le]) (by norm_num) le_rfl (by norm_num) post byTeams
  exact ⟨r, h1, h2, h3⟩

set_option synthInstance.maxSize 1000 in
/-- Evaluated: already nine iterations are enough; compare the first example of C62, where team 0 gets project 1. -/
example : (kcCall flatData 9 false 0 true 1 (fin 0) (forbiddenFile [1, 2] [1] 3 2 (fun _ => 0) c86Forbidden (fun p t => c62Cost t p))).map
    (fun r => (r.kept, r.entries.map (fun e => (e.1, e.2.1)), r.entries.map (fun e => e.2.2))) =
    some ([0, 2], [((1, 1), 1), ((2, 2), 1)], [([1], [1]), ([3], [2])]) := by decide +kernel

/-- The team beliefs of the same run are finite and as with the cost 10^6 (C86_iterate, C86_call). -/
example : (kcCall flatData 3 true (1 / 2) false 1 (fin 0) (forbiddenFile [1, 2] [1] 3 2 (fun _ => 0) c86Forbidden (fun p t => c62Cost t p))).map
      KcResult.beliefs = some [fin (-1), fin 1, fin (-1)] ∧
    (kcCall flatData 3 true (1 / 2) false 1 (fin 0)
        (inputFile [1, 2] [1] 3 2 (fun _ => 0) (fun p t => if c86Forbidden p t then 1000000 else c62Cost t p))).map
      KcResult.beliefs = some [fin (-1), fin 1, fin (-1)] := by decide +kernel

/-- C86_never is about runs that report something: already the first iteration reports pairs, none of them the forbidden one. -/
example : (kcCall flatData 1 false 0 false 1 (fin 0) (forbiddenFile [1, 2] [1] 3 2 (fun _ => 0) c86Forbidden (fun p t => c62Cost t p))).map
    (fun r => r.entries.map (fun e => e.2.2)) = some [([1], [1]), ([3], [2])] := by decide +kernel

end Verif.Properties
