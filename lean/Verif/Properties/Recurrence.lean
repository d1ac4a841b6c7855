import Verif.Proofs.Recurrence
import Verif.Properties.KcCall
import Verif.Properties.KsatForest
import Verif.Properties.TspRun

/-! # C66: once the messages repeat, more iterations change nothing -/

namespace Verif.Properties
open Verif Num Spec Model

section ksat
variable {n k : ℕ} {t : KsatTables} (hf : KFormula n k t.clauses t.used t.conns) (hk : 2 ≤ k) {w : ℕ → ℚ} {flag : Bool} {alpha : ℚ}

/-- The messages of the algorithm on a formula, as in C53. -/
def FormulaTrace (n k : ℕ) (t : KsatTables) (w : ℕ → ℚ) (flag : Bool) (alpha : ℚ) (x r : ℕ → ℕ → ℕ → ℚ) : Prop :=
  IsKsatTrace t.clauses.length k n ⟨t.clauses.length, k, fun c s => ((t.clauses.getD c []).getD s (0, 0)).1⟩
    ⟨t.clauses.length, k, fun c s => ((t.clauses.getD c []).getD s (0, 0)).2⟩ w flag alpha (fun c v => if v ∈ varsOf t.clauses c then w v else 0) x r

include hf hk in
/-- C66, k-SAT.  If every clause sends the same (damped) messages in the iterations `K` and `K'`, then all later results repeat: the calls with
`K + m` and `K' + m` iterations more than the first return the same, whatever the other settings are. -/
theorem C66_ksat {x r : ℕ → ℕ → ℕ → ℚ} (ht : FormulaTrace n k t w flag alpha x r) {K K' : ℕ}
    (heq : ∀ c < t.clauses.length, ∀ v ∈ varsOf t.clauses c, damped flag alpha (fun i => r i c v) K = damped flag alpha (fun i => r i c v) K')
    (m : ℕ) (threshold : Num) (order order' : List ℕ → List ℕ) (post : Bool) (pp : ℕ) (sol : List Bool) :
    ksatCall n k (K + m + 1) flag alpha threshold order order' post pp sol t (listOf n (fun v => fin (w v))) =
      ksatCall n k (K' + m + 1) flag alpha threshold order order' post pp sol t (listOf n (fun v => fin (w v))) := by
  obtain ⟨x', r', htr, hb⟩ := Proofs.call_trace hf hk w flag alpha
  have hvars : ∀ c < t.clauses.length, clauseVars k (Proofs.litVar t c) = varsOf t.clauses c := fun c hc => Proofs.clauseVars_eq hf hc
  have ht' : IsKsatTrace t.clauses.length k n ⟨t.clauses.length, k, Proofs.litVar t⟩ ⟨t.clauses.length, k, Proofs.litSign t⟩ w flag alpha
      (fun c v => if ∃ s < k, Proofs.litVar t c s = v then w v else 0) x r := { ht with
    init := fun c hc v hv => by
      rw [ht.init c hc v hv, ← hvars c hc]
      simp only [clauseVars, Finset.mem_image, Finset.mem_range] }
  have hrec := Proofs.ksat_recur ht' (K := K) (K' := K') (fun c hc v hv => heq c hc v (by rw [← hvars c hc]; exact hv)) m
  have huniq := fun j => Proofs.ksatTrace_unique (Proofs.clause_tables hf) htr ht' j
  have hbel : ksatBeliefs (K + m + 1) flag alpha (ksatObject n k t (listOf n (fun v => fin (w v)))) =
      ksatBeliefs (K' + m + 1) flag alpha (ksatObject n k t (listOf n (fun v => fin (w v)))) := by
    rw [hb, hb]
    congr 1
    unfold listOf
    refine List.map_congr_left fun v _ => ?_
    congr 2
    refine Finset.sum_congr rfl fun c hc => ?_
    have hm := Finset.mem_filter.mp hc
    have e : ∀ j, damped flag alpha (fun i => r' i c v) j = damped flag alpha (fun i => r i c v) j := fun j =>
      Proofs.damped_congr fun i _ => (huniq i c (Finset.mem_range.mp hm.1) v hm.2).2
    rw [e, e]
    exact hrec c (Finset.mem_range.mp hm.1) v hm.2
  unfold ksatCall
  rw [hbel]

include hf hk in
/-- C66, k-SAT, early stop: if two successive iterations have the same messages, no larger number of iterations changes the result. -/
theorem C66_ksat_settled {x r : ℕ → ℕ → ℕ → ℚ} (ht : FormulaTrace n k t w flag alpha x r) {K : ℕ}
    (heq : ∀ c < t.clauses.length, ∀ v ∈ varsOf t.clauses c, damped flag alpha (fun i => r i c v) K = damped flag alpha (fun i => r i c v) (K + 1))
    {N : ℕ} (hN : K + 1 ≤ N) (threshold : Num) (order order' : List ℕ → List ℕ) (post : Bool) (pp : ℕ) (sol : List Bool) :
    ksatCall n k N flag alpha threshold order order' post pp sol t (listOf n (fun v => fin (w v))) =
      ksatCall n k (K + 1) flag alpha threshold order order' post pp sol t (listOf n (fun v => fin (w v))) := by
  obtain ⟨m, rfl⟩ := Nat.exists_eq_add_of_le hN
  induction m with
  | zero => rfl
  | succ m ih =>
    rw [← ih (by omega)]
    have := C66_ksat hf hk ht heq m threshold order order' post pp sol
    rw [show K + 1 + (m + 1) = K + 1 + m + 1 by omega, show K + 1 + m = K + m + 1 by omega]
    rw [show K + m + 1 + 1 = K + 1 + m + 1 by omega]
    exact this.symm

end ksat

section kc
variable {d : TeamData} {caps types : List ℕ} {combos : List (ℕ × ℕ)} {count : ℕ × ℕ × ℕ → ℕ} (h : KcCallOk d caps types combos count)
  {P : ℕ} (hP : 0 < P) {L : List (ℕ × ℕ × ℕ)} (hL : L = teams combos types count) {w : ℕ → ℚ} {R : ℕ → ℕ → ℚ} {flag : Bool} {alpha : ℚ}
  {a raw o y e : ℕ → ℕ → ℕ → ℚ} {c : ℕ → ℕ → ℚ} (ht : TeamTrace caps L P w R flag alpha a raw o y e c)
include h hP hL ht

/-- C66, assignment.  If the units and the projects send the same (damped) messages in the iterations `K` and `K'`, then all later results
repeat, with and without post-processing. -/
theorem C66_kc {K K' : ℕ} (hd : ∀ i < caps.length, ∀ t < L.length, weightOf L i t ≠ 0 →
      damped flag alpha (fun j => raw j i t) K = damped flag alpha (fun j => raw j i t) K')
    (hy : ∀ p < P, ∀ t < L.length, y K p t = y K' p t) (m : ℕ) (post : Bool) (option : ℕ) {q : ℚ} (hq : q ≤ 0) :
    kcCall d (K + m + 2) flag alpha post option (fin q) (inputFile caps types L.length P w R) =
      kcCall d (K' + m + 2) flag alpha post option (fin q) (inputFile caps types L.length P w R) := by
  obtain ⟨hprob, T, -, -, -, hinit⟩ := call_start (w := w) (R := R) h hP hL
  obtain ⟨h1, h2, h3⟩ := Proofs.kc_recur ht hd hy (m + 1)
  obtain ⟨-, hc, -⟩ := Proofs.kc_forced ht h1 h2
  obtain ⟨M, e1, e2⟩ := C23_call hprob flag alpha ht (K + m + 1)
  obtain ⟨M', e1', e2'⟩ := C23_call hprob flag alpha ht (K' + m + 1)
  have hb : listOf L.length (fun t => fin (c (K' + m + 1) t + ∑ i ∈ depts caps.length (weightOf L) t, damped flag alpha (fun j => raw j i t) (K' + m + 1) + w t)) =
      listOf L.length (fun t => fin (c (K + m + 1) t + ∑ i ∈ depts caps.length (weightOf L) t, damped flag alpha (fun j => raw j i t) (K + m + 1) + w t)) := by
    unfold listOf
    refine List.map_congr_left fun t ht' => ?_
    have ht' := List.mem_range.mp ht'
    rw [show c (K + m + 1) t = c (K' + m + 1) t from hc t ht']
    congr 3
    refine Finset.sum_congr rfl fun i hi => ?_
    have := Finset.mem_filter.mp hi
    exact (h1 i (Finset.mem_range.mp this.1) t ht' this.2).symm
  rw [hb] at e1'
  refine Proofs.kcCall_congr hinit e1 e1' hq e2 (e2'.congr fun p hp t ht' => ?_) le_rfl
  rw [show o (K' + m + 1) p t = o (K + m + 1) p t from (h3 (by omega) p hp t ht').symm, show y (K' + m + 1) p t = y (K + m + 1) p t from (h2 p hp t ht').symm]

/-- C66, assignment, early stop. -/
theorem C66_kc_settled {K : ℕ} (hd : ∀ i < caps.length, ∀ t < L.length, weightOf L i t ≠ 0 →
      damped flag alpha (fun j => raw j i t) K = damped flag alpha (fun j => raw j i t) (K + 1))
    (hy : ∀ p < P, ∀ t < L.length, y K p t = y (K + 1) p t) {N : ℕ} (hN : K + 2 ≤ N) (post : Bool) (option : ℕ) {q : ℚ} (hq : q ≤ 0) :
    kcCall d N flag alpha post option (fin q) (inputFile caps types L.length P w R) =
      kcCall d (K + 2) flag alpha post option (fin q) (inputFile caps types L.length P w R) := by
  obtain ⟨m, rfl⟩ := Nat.exists_eq_add_of_le hN
  induction m with
  | zero => rfl
  | succ m ih =>
    rw [← ih (by omega)]
    have := C66_kc h hP hL ht hd hy m post option hq
    rw [show K + 2 + (m + 1) = K + 1 + m + 2 by omega, show K + 2 + m = K + m + 2 by omega]
    exact this.symm

end kc

section tsp
variable {inp : TspInputs} {w : ℕ → ℚ} {c : ℕ → ℕ → ℚ} (h : TspOk inp w c) {x r y q : ℕ → ℕ → ℕ → ℚ}

include h in
/-- C66, relaxed TSP round: if the degree constraints send the same (damped) messages in the iterations `K` and `K'`, then all later outputs
repeat. -/
theorem C66_tsp_relaxed {e2d : Mat Num} {x0 s0 : ℕ → ℕ → ℚ} (he : e2d.Is inp.numEdges inp.numNodes x0)
    (ht : IsTspTrace inp.numNodes inp.edges [] w c inp.flag inp.alpha x0 s0 x r y q) {K K' : ℕ}
    (heq : ∀ e < inp.numEdges, ∀ v, v = src inp.edges e ∨ v = dst inp.edges e →
      damped inp.flag inp.alpha (fun i => r i e v) K = damped inp.flag inp.alpha (fun i => r i e v) K') (m : ℕ) :
    ∃ m1 ext intr m2 ext' intr',
      tspRelaxed inp (K + m + 1) (tspInit inp e2d) (Arr.fill inp.numEdges 0, Arr.fill inp.numEdges 0) = some (m1, ext, intr) ∧
      tspRelaxed inp (K' + m + 1) (tspInit inp e2d) (Arr.fill inp.numEdges 0, Arr.fill inp.numEdges 0) = some (m2, ext', intr') ∧
      ∃ f g : ℕ → ℚ, ext.Is inp.numEdges f ∧ ext'.Is inp.numEdges f ∧ intr.Is inp.numEdges g ∧ intr'.Is inp.numEdges g := by
  obtain ⟨m1, ext, intr, h1, -, -, h2, h3, -⟩ := (C12_relaxed_run h he s0).2 x r y q ht (K + m + 1)
  obtain ⟨m2, ext', intr', h1', -, -, h2', h3', -⟩ := (C12_relaxed_run h he s0).2 x r y q ht (K' + m + 1)
  obtain ⟨g1, -⟩ := Proofs.tsp_recur h.edges (by simp) ht (K := K) (K' := K') (by rw [h.len]; exact heq) (by simp) m
  have hout : ∀ e < inp.numEdges, tspOutput inp.flag inp.alpha inp.edges [] (fun _ _ => 0) s0 r q (K' + m + 1) e =
      tspOutput inp.flag inp.alpha inp.edges [] (fun _ _ => 0) s0 r q (K + m + 1) e := by
    intro e he'
    have hl : e < inp.edges.length := by rw [h.len]; exact he'
    simp only [tspOutput, prev, cuts]
    rw [g1 e hl _ (Or.inl rfl), g1 e hl _ (Or.inr rfl)]
    simp
  exact ⟨m1, ext, intr, m2, ext', intr', h1, h1', _, _, h2, h2'.congr hout, h3, h3'.congr fun e he' => by rw [hout e he']⟩

include h in
/-- C66, augmented TSP round: the same with the messages of the cuts. -/
theorem C66_tsp_augmented {deltas : List (List ℕ)} (hd : CutsOk inp.numEdges deltas) {C : ℕ → ℕ → ℚ} (hC : inp.costMatrix.Is inp.numNodes inp.numNodes C)
    (reset : Bool) {msgs : TspMsgs} (hm : TspMsgsOk inp deltas msgs)
    (ht : IsTspTrace inp.numNodes inp.edges deltas w c inp.flag inp.alpha (augStart inp.edges reset C msgs.e2d.val) msgs.s2e.val x r y q) {K K' : ℕ}
    (heq : ∀ e < inp.numEdges, ∀ v, v = src inp.edges e ∨ v = dst inp.edges e →
      damped inp.flag inp.alpha (fun i => r i e v) K = damped inp.flag inp.alpha (fun i => r i e v) K')
    (heq' : ∀ k < deltas.length, ∀ e ∈ deltas.getD k [], damped inp.flag inp.alpha (fun i => q i k e) K = damped inp.flag inp.alpha (fun i => q i k e) K')
    (m : ℕ) {s : Arr Num × Arr Num} (hs : s.1.size = inp.numEdges) (hs' : s.2.size = inp.numEdges) :
    ∃ m1 ext intr m2 ext' intr', tspAugmented inp reset deltas (K + m + 1) msgs s = some (m1, ext, intr) ∧
      tspAugmented inp reset deltas (K' + m + 1) msgs s = some (m2, ext', intr') ∧
      ∃ f g : ℕ → ℚ, ext.Is inp.numEdges f ∧ ext'.Is inp.numEdges f ∧ intr.Is inp.numEdges g ∧ intr'.Is inp.numEdges g := by
  obtain ⟨m1, ext, intr, h1, -, -, h2, h3, -⟩ := (C38_augmented_run h hd hC reset hm).2 x r y q ht (K + m + 1) s hs hs'
  obtain ⟨m2, ext', intr', h1', -, -, h2', h3', -⟩ := (C38_augmented_run h hd hC reset hm).2 x r y q ht (K' + m + 1) s hs hs'
  obtain ⟨g1, g2⟩ := Proofs.tsp_recur h.edges (fun l hl e he => by rw [h.len]; exact (hd l hl).2.2 e he) ht (K := K) (K' := K') (by rw [h.len]; exact heq) heq' m
  have hout : ∀ e < inp.numEdges, tspOutput inp.flag inp.alpha inp.edges deltas msgs.deg.val msgs.s2e.val r q (K' + m + 1) e =
      tspOutput inp.flag inp.alpha inp.edges deltas msgs.deg.val msgs.s2e.val r q (K + m + 1) e := by
    intro e he'
    have hl : e < inp.edges.length := by rw [h.len]; exact he'
    simp only [tspOutput, prev]
    rw [g1 e hl _ (Or.inl rfl), g1 e hl _ (Or.inr rfl)]
    congr 1
    refine Finset.sum_congr rfl fun k hk => ?_
    have := Finset.mem_filter.mp hk
    exact (g2 k (Finset.mem_range.mp this.1) e this.2).symm
  exact ⟨m1, ext, intr, m2, ext', intr', h1, h1', _, _, h2, h2'.congr hout, h3, h3'.congr fun e he' => by rw [hout e he']⟩

end tsp

/-! ## Examples -/

/-- Without damping the messages of the path formula settle in the third iteration. -/
theorem path_settles (w : ℕ → ℚ) : ∃ x r, FormulaTrace 4 2 pathFormula w false 0 x r ∧
    ∀ c < pathFormula.clauses.length, ∀ v ∈ varsOf pathFormula.clauses c, damped false 0 (fun i => r i c v) 2 = damped false 0 (fun i => r i c v) 3 := by
  obtain ⟨x, r, htr, -⟩ := Proofs.call_trace pathFormula_ok (by norm_num) w false 0
  have hvars : ∀ c < 3, clauseVars 2 (Proofs.litVar pathFormula c) = varsOf pathFormula.clauses c := fun c hc => Proofs.clauseVars_eq pathFormula_ok hc
  have ht : FormulaTrace 4 2 pathFormula w false 0 x r := { htr with
    init := fun c hc v hv => by
      rw [htr.init c hc v hv, ← hvars c hc]
      simp only [clauseVars, Finset.mem_image, Finset.mem_range] }
  have hd : ∀ (s : ℕ → ℚ) j, damped false 0 s j = s j := Proofs.undamped (Or.inl rfl)
  have step : ∀ (j c v : ℕ) (s : Finset ℕ), c < 3 → v ∈ clauseVars 2 (fun i => ((pathFormula.clauses.getD c []).getD i (0, 0)).1) →
      (occurrences pathFormula.clauses.length 2 ⟨pathFormula.clauses.length, 2, fun c s => ((pathFormula.clauses.getD c []).getD s (0, 0)).1⟩ v).erase c = s →
      x (j + 1) c v = w v + ∑ c' ∈ s, r j c' v := by
    intro j c v s hc hv hs
    rw [ht.var j c hc v hv, hs]
    simp only [hd]
  have h0 : ∀ j, x j 0 0 = w 0 := by
    rintro (_ | j)
    · rw [ht.init 0 (by decide) 0 (by decide)]; rfl
    · rw [step j 0 0 ∅ (by decide) (by decide) (by decide)]; simp
  have h3 : ∀ j, x j 2 3 = w 3 := by
    rintro (_ | j)
    · rw [ht.init 2 (by decide) 3 (by decide)]; rfl
    · rw [step j 2 3 ∅ (by decide) (by decide) (by decide)]; simp
  have msg : ∀ (i j c u v : ℕ), c < 3 → clauseVars 2 (fun i => ((pathFormula.clauses.getD c []).getD i (0, 0)).1) = {u, v} → x i c u = x j c u → r i c v = r j c v := by
    intro i j c u v hc huv hx
    refine Proofs.message_own (ht.clause i c hc v (by rw [huv]; simp)) (ht.clause j c hc v (by rw [huv]; simp)) fun z hz hne => ?_
    rw [huv] at hz
    simp only [Finset.mem_insert, Finset.mem_singleton] at hz
    obtain rfl := hz.resolve_right hne
    exact hx
  have r01 : ∀ i j, r i 0 1 = r j 0 1 := fun i j => msg i j 0 0 1 (by decide) (by decide) (by rw [h0, h0])
  have r22 : ∀ i j, r i 2 2 = r j 2 2 := fun i j => msg i j 2 3 2 (by decide) (by decide) (by rw [h3, h3])
  have x11 : x 1 1 1 = x 2 1 1 ∧ x 2 1 1 = x 3 1 1 := by
    rw [step 0 1 1 {0} (by decide) (by decide) (by decide), step 1 1 1 {0} (by decide) (by decide) (by decide), step 2 1 1 {0} (by decide) (by decide) (by decide)]
    simp [r01 0 1, r01 1 2]
  have x12 : x 1 1 2 = x 2 1 2 ∧ x 2 1 2 = x 3 1 2 := by
    rw [step 0 1 2 {2} (by decide) (by decide) (by decide), step 1 1 2 {2} (by decide) (by decide) (by decide), step 2 1 2 {2} (by decide) (by decide) (by decide)]
    simp [r22 0 1, r22 1 2]
  have r12 : r 1 1 2 = r 2 1 2 ∧ r 2 1 2 = r 3 1 2 :=
    ⟨msg 1 2 1 1 2 (by decide) (by decide) x11.1, msg 2 3 1 1 2 (by decide) (by decide) x11.2⟩
  have r11 : r 1 1 1 = r 2 1 1 ∧ r 2 1 1 = r 3 1 1 :=
    ⟨msg 1 2 1 2 1 (by decide) (by decide) x12.1, msg 2 3 1 2 1 (by decide) (by decide) x12.2⟩
  have x01 : x 2 0 1 = x 3 0 1 := by
    rw [step 1 0 1 {1} (by decide) (by decide) (by decide), step 2 0 1 {1} (by decide) (by decide) (by decide)]; simp [r11]
  have x22 : x 2 2 2 = x 3 2 2 := by
    rw [step 1 2 2 {1} (by decide) (by decide) (by decide), step 2 2 2 {1} (by decide) (by decide) (by decide)]; simp [r12]
  have r00 : r 2 0 0 = r 3 0 0 := msg 2 3 0 1 0 (by decide) (by decide) x01
  have r23 : r 2 2 3 = r 3 2 3 := msg 2 3 2 2 3 (by decide) (by decide) x22
  refine ⟨x, r, ht, fun c hc v hv => ?_⟩
  rw [hd, hd]
  have hcase : (c = 0 ∧ (v = 0 ∨ v = 1)) ∨ (c = 1 ∧ (v = 1 ∨ v = 2)) ∨ (c = 2 ∧ (v = 2 ∨ v = 3)) := by
    have hc' : c < 3 := hc
    interval_cases c
    · rw [show varsOf pathFormula.clauses 0 = {0, 1} by decide] at hv
      simpa using hv
    · rw [show varsOf pathFormula.clauses 1 = {1, 2} by decide] at hv
      simpa using hv
    · rw [show varsOf pathFormula.clauses 2 = {2, 3} by decide] at hv
      simpa using hv
  rcases hcase with ⟨rfl, rfl | rfl⟩ | ⟨rfl, rfl | rfl⟩ | ⟨rfl, rfl | rfl⟩
  exacts [r00, r01 2 3, r11.2, r12.2, r22 2 3, r23]

/-- Every call with more than three iterations returns the same as the call with three. -/
example (N : ℕ) (hN : 3 ≤ N) (w : ℕ → ℚ) (threshold : Num) (post : Bool) :
    ksatCall 4 2 N false 0 threshold id id post 2 [] pathFormula (listOf 4 (fun v => fin (w v))) =
      ksatCall 4 2 3 false 0 threshold id id post 2 [] pathFormula (listOf 4 (fun v => fin (w v))) := by
  obtain ⟨x, r, ht, hset⟩ := path_settles w
  exact C66_ksat_settled pathFormula_ok (by norm_num) ht (K := 2) hset hN threshold id id post 2 []

/-- Three is not too large: after two iterations the beliefs of the path formula are still others. -/
example : ksatBeliefs 2 false 0 (ksatObject 4 2 pathFormula (listOf 4 (fun v => fin (pathCost v)))) ≠
      ksatBeliefs 3 false 0 (ksatObject 4 2 pathFormula (listOf 4 (fun v => fin (pathCost v)))) := by decide +kernel

/-- One unit with capacity 2 and one team. -/
theorem c66_ok : KcCallOk flatData [2] [2] [(1, 1)] (fun _ => 1) := by
  have hneed : ∀ x, need (1, 1, 2) x = (if x = 1 then 1 else 0) + (if x = 1 then 1 else 0) := fun x => rfl
  refine ⟨by decide, by decide, by decide +kernel, by unfold TypesOk; decide, by decide, fun c hc t ht _ x => ?_, fun c hc t ht => ?_⟩ <;>
    obtain rfl := List.mem_singleton.mp ht <;> obtain rfl := List.mem_singleton.mp hc
  · rw [hneed]
    split_ifs with h
    · subst h; decide
    · omega
  · refine ⟨fun _ => ⟨fun x => ?_, fun m hm => ?_⟩, fun h => absurd (Or.inl (by show (1 : ℕ) ≠ 0; decide)) h⟩
    · rw [hneed]
      split_ifs with h
      · subst h; decide
      · omega
    · have h1 := hm 1
      rw [hneed] at h1
      simp [unitCap] at h1
      omega

/-- With one team nothing changes after the second iteration. -/
example (N : ℕ) (hN : 2 ≤ N) (P : ℕ) (hP : 0 < P) (w : ℕ → ℚ) (R : ℕ → ℕ → ℚ) (post : Bool) :
    kcCall flatData N false 0 post 1 (fin 0) (inputFile [2] [2] 1 P w R) = kcCall flatData 2 false 0 post 1 (fin 0) (inputFile [2] [2] 1 P w R) := by
  obtain ⟨a, raw, o, y, e, c, ht⟩ := (C54_call (flag := false) (alpha := 0) (w := w) (R := R) c66_ok hP (L := [(1, 1, 2)]) (by decide)).1
  have hlt : ∀ {t}, t < [((1 : ℕ), 1, 2)].length → t = 0 := fun h => by simpa using h
  refine C66_kc_settled c66_ok hP (by decide) ht (K := 0) (fun i hi t ht' hw => ?_) (fun p hp t ht' => ?_) hN post 1 le_rfl
  · rw [Proofs.undamped (Or.inl rfl), Proofs.undamped (Or.inl rfl)]
    refine Proofs.message_own (ht.dept 0 i hi t ht' hw) (ht.dept 1 i hi t ht' hw) fun z hz hne => absurd ?_ hne
    have : z < 1 := by
      simp only [users, Finset.mem_filter] at hz
      simpa using hz.1
    rw [hlt ht']; omega
  · refine Proofs.message_own (ht.project 0 p hp t ht') (ht.project 1 p hp t ht') fun z hz hne => absurd ?_ hne
    rw [hlt ht', hlt (Finset.mem_range.mp hz)]

/-- Three nodes, all costs 1. -/
def c66Inputs : TspInputs := { c12Inputs with cost := Arr.fill 6 (fin 1), degCost := ⟨6, 3, fun _ _ => fin 1⟩, flag := false, alpha := 0 }

theorem c66Inputs_ok : TspOk c66Inputs (fun _ => 1) (fun _ _ => 1) :=
  ⟨by unfold EdgesOk; decide, rfl, by unfold TwoWays; decide, ⟨rfl, fun _ _ => rfl⟩, ⟨rfl, rfl, fun _ _ _ _ => rfl⟩⟩

/-- With equal costs the relaxed round never settles: the messages alternate, so the outputs for odd numbers of iterations are all the same, and
so are those for even numbers. -/
example (m : ℕ) : ∃ m1 ext intr m2 ext' intr',
      tspRelaxed c66Inputs (m + 1) (tspInit c66Inputs c66Inputs.degCost) (Arr.fill 6 0, Arr.fill 6 0) = some (m1, ext, intr) ∧
      tspRelaxed c66Inputs (m + 3) (tspInit c66Inputs c66Inputs.degCost) (Arr.fill 6 0, Arr.fill 6 0) = some (m2, ext', intr') ∧
      ∃ f g : ℕ → ℚ, ext.Is 6 f ∧ ext'.Is 6 f ∧ intr.Is 6 g ∧ intr'.Is 6 g := by
  have he : c66Inputs.degCost.Is c66Inputs.numEdges c66Inputs.numNodes (fun _ _ => 1) := ⟨rfl, rfl, fun _ _ _ _ => rfl⟩
  obtain ⟨⟨x, r, y, q, ht⟩, hrun⟩ := C12_relaxed_run c66Inputs_ok he (fun _ _ => 0)
  have h1 := hrun x r y q ht 1
  have h3 := hrun x r y q ht 3
  obtain ⟨m1, _, _, e1, -, -, -, -, d1⟩ := h1
  obtain ⟨m3, _, _, e3, -, -, -, -, d3⟩ := h3
  have hcomp : (tspRelaxed c66Inputs 1 (tspInit c66Inputs c66Inputs.degCost) (Arr.fill 6 0, Arr.fill 6 0)).map
        (fun s => (List.range 6).map (fun e => (s.1.deg.val e (src k3 e), s.1.deg.val e (dst k3 e)))) =
      (tspRelaxed c66Inputs 3 (tspInit c66Inputs c66Inputs.degCost) (Arr.fill 6 0, Arr.fill 6 0)).map
        (fun s => (List.range 6).map (fun e => (s.1.deg.val e (src k3 e), s.1.deg.val e (dst k3 e)))) := by decide +kernel
  have e1' : tspRelaxed c66Inputs 1 (tspInit c66Inputs c66Inputs.degCost) (Arr.fill 6 0, Arr.fill 6 0) = _ := e1
  have e3' : tspRelaxed c66Inputs 3 (tspInit c66Inputs c66Inputs.degCost) (Arr.fill 6 0, Arr.fill 6 0) = _ := e3
  rw [e1', e3', Option.map_some, Option.map_some, Option.some.injEq, List.map_inj_left] at hcomp
  have := C66_tsp_relaxed c66Inputs_ok he ht (K := 0) (K' := 2) (fun e hlt v hv => ?_) m
  · rw [Nat.zero_add, show 2 + m + 1 = m + 3 by omega] at this; exact this
  · have a1 := d1 e hlt v hv
    have a3 := d3 e hlt v hv
    have hp := Prod.mk.inj (hcomp e (List.mem_range.mpr hlt))
    simp only [prev] at a1 a3
    rw [← a1, ← a3]
    rcases hv with rfl | rfl
    exacts [hp.1, hp.2]

/-- The outputs for one and two iterations differ. -/
example : (tspRelaxed c66Inputs 1 (tspInit c66Inputs c66Inputs.degCost) (Arr.fill 6 0, Arr.fill 6 0)).map (fun s => s.2.2.data 0) ≠
    (tspRelaxed c66Inputs 2 (tspInit c66Inputs c66Inputs.degCost) (Arr.fill 6 0, Arr.fill 6 0)).map (fun s => s.2.2.data 0) := by decide +kernel

end Verif.Properties
