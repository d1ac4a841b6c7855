import Verif.Proofs.KcBounds
import Verif.Properties.KcSym
import Verif.Properties.PyAgree
import Verif.Properties.Recurrence
import Verif.Properties.SettledKc
import Verif.Properties.TeamTables

/-! # C70: the messages of the assignment solver stay bounded -/

namespace Verif.Properties
open Verif Num Spec Model

section
variable {D T P : ℕ} {wf : ℕ → ℕ → ℕ} {cap : ℕ → ℕ} {w : ℕ → ℚ} {R : ℕ → ℕ → ℚ} {flag : Bool} {alpha B : ℚ}

/-- C70.  If no cost exceeds `B` in magnitude, then after any number of iterations, with damping `0 ≤ alpha ≤ 1`, all beliefs of `T` teams and of
their pairs with projects lie between `-2 B` and `4 B T`. -/
theorem C70_beliefs (h : KcProblemOk D T P wf cap) (ha : flag = true → 0 ≤ alpha ∧ alpha ≤ 1) (hw : ∀ t < T, |w t| ≤ B)
    (hR : ∀ p < P, ∀ t < T, |R p t| ≤ B) (K : ℕ) :
    ∃ (b : ℕ → ℚ) (q : ℕ → ℕ → ℚ) (m : Mat Num),
      kcIteratePy (K + 1) flag alpha (pythonTables D T P wf cap (fun t => fin (w t)) (fun p t => fin (R p t))) = some (listOf T (fun t => fin (b t)), m) ∧
      m.Is P T q ∧ (∀ t < T, -2 * B ≤ b t ∧ b t ≤ 4 * B * T) ∧ ∀ p < P, ∀ t < T, -2 * B ≤ q p t ∧ q p t ≤ 4 * B * T := by
  obtain ⟨a, raw, o, y, e, c, ht⟩ := C23_trace (w := w) (R := R) h flag alpha
  obtain ⟨m, h1, h2⟩ := C23_call h flag alpha ht K
  have hl : ∀ l, some (1000000 : ℚ) = some l → 0 ≤ l := fun l e => by rw [← Option.some.inj e]; norm_num
  have h0 : ∀ d < D, ∀ t < T, wf d t ≠ 0 → -(2 * B) ≤ (if wf d t ≠ 0 then w t else 0) := fun d _ t htT hwt => by
    rw [if_pos hwt]
    have h1 := abs_le.mp (hw t htT)
    linarith [h1.1, h1.2]
  refine ⟨_, _, m, h1, h2, fun t htT => ?_, fun p hp t htT => ?_⟩
  · have k1 := Proofs.kc_team_B ht ha hw hR h.projects hl K htT
    have k2 := Proofs.kc_rooms_B ht ha hw hR h.projects hl h0 h.two K htT
    have k3 := abs_le.mp (hw t htT)
    constructor <;> nlinarith
  · have k1 := Proofs.kc_pair_B ht ha hw hR h.projects hl h0 h.two K hp htT
    have k2 := Proofs.kc_project_B ht ha hw hR K hp htT
    have k3 := abs_le.mp (hR p hp t htT)
    constructor <;> nlinarith

/-- The cost of taking over some project never reaches the limit 1000000 of the code: for every team there is a project for which neither
its own cost nor the difference to any other team that takes it does. -/
def CheapTakeover (T P : ℕ) (w : ℕ → ℚ) (R : ℕ → ℕ → ℚ) : Prop :=
  ∀ t < T, ∃ p < P, R p t < 1000000 ∧ ∀ s < T, s ≠ t → R p t - (w s + R p s) < 1000000

/-- This holds if all costs are below 333333 in magnitude. -/
theorem cheap_of_bound (hP : 0 < P) (hw : ∀ t < T, |w t| ≤ B) (hR : ∀ p < P, ∀ t < T, |R p t| ≤ B) (hB : 3 * B < 1000000) :
    CheapTakeover T P w R := by
  intro t ht
  have h0 : 0 ≤ B := (abs_nonneg _).trans (hw t ht)
  refine ⟨0, hP, by linarith [(abs_le.mp (hR 0 hP t ht)).2], fun s hs _ => ?_⟩
  have := abs_le.mp (hR 0 hP t ht)
  have := abs_le.mp (hR 0 hP s hs)
  have := abs_le.mp (hw s hs)
  linarith

/-- C70, the limit: then no message to a team ever reaches it, from any start. -/
theorem C70_below_limit {limit : Option ℚ} {a0 : ℕ → ℕ → ℚ} {a raw o y e : ℕ → ℕ → ℕ → ℚ} {c : ℕ → ℕ → ℚ}
    (ht : IsKcTrace D T P wf cap w R flag alpha limit a0 a raw o y e c) (ha : flag = true → 0 ≤ alpha ∧ alpha ≤ 1)
    (hc : CheapTakeover T P w R) (j : ℕ) {t : ℕ} (htT : t < T) : c j t < 1000000 := by
  obtain ⟨p, hp, h1, h2⟩ := hc t htT
  exact Proofs.kc_team_lt ht ha (by omega) j htT hp h1 h2

/-- C70, units: C69 with conditions on the costs only. -/
theorem C70_units {s : ℚ} (hs : 0 < s) (h : KcProblemOk D T P wf cap) (ha : flag = true → 0 ≤ alpha ∧ alpha ≤ 1)
    (hc : CheapTakeover T P w R) (hc' : CheapTakeover T P (fun t => s * w t) (fun p t => s * R p t)) (K : ℕ) :
    ∃ (b : ℕ → ℚ) (q q' : ℕ → ℕ → ℚ) (m m' : Mat Num),
      kcIteratePy (K + 1) flag alpha (pythonTables D T P wf cap (fun t => fin (w t)) (fun p t => fin (R p t))) = some (listOf T (fun t => fin (b t)), m) ∧
      kcIteratePy (K + 1) flag alpha (pythonTables D T P wf cap (fun t => fin (s * w t)) (fun p t => fin (s * R p t))) =
        some (listOf T (fun t => fin (s * b t)), m') ∧
      m.Is P T q ∧ m'.Is P T q' ∧ ∀ p < P, ∀ t < T, q' p t = s * q p t := by
  obtain ⟨a, raw, o, y, e, c, ht⟩ := C23_trace (w := w) (R := R) h flag alpha
  have hlim := fun j t htT => C70_below_limit ht ha hc j (t := t) htT
  refine C69_units hs h ht (fun j t htT => ⟨hlim j t htT, ?_⟩) K
  have hsame : SameProblem D T P (Equiv.refl ℕ) (Equiv.refl ℕ) (Equiv.refl ℕ) s wf wf cap cap w (fun t => s * w t) R (fun p t => s * R p t) :=
    ⟨fun _ => Iff.rfl, fun _ => Iff.rfl, fun _ => Iff.rfl, fun _ _ _ _ => rfl, fun _ _ => rfl, fun _ _ => rfl, fun _ _ _ _ => rfl⟩
  have ht' := Proofs.kcTrace_rename hs hsame (a0' := fun d t => s * (if wf d t ≠ 0 then w t else 0)) (fun _ _ _ _ => rfl)
    (C11_below_limit_is_textbook ht fun j t htT => hlim j t htT)
  exact C70_below_limit ht' ha hc' j htT

end

section
variable {inp : KcInputs} {wf : ℕ → ℕ → ℕ} {cap : ℕ → ℕ} {w : ℕ → ℚ} {R : ℕ → ℕ → ℚ}

/-- C70 and C11: with costs as above and damping `0 ≤ alpha ≤ 1` the native solver is the textbook algorithm. -/
theorem C70_textbook (h : KcOk inp wf cap w R) (ha : inp.flag = true → 0 ≤ inp.alpha ∧ inp.alpha ≤ 1)
    (hc : CheapTakeover inp.numTeams inp.numProjects w R) {A : Mat Num} {a0 : ℕ → ℕ → ℚ} (hA : A.Is inp.numDepartments inp.numTeams a0) :
    ∃ a raw o y e c, IsKcTrace inp.numDepartments inp.numTeams inp.numProjects wf cap w R inp.flag inp.alpha none a0 a raw o y e c ∧
      ∀ K, KcOutputs inp A wf R raw o y c K := by
  obtain ⟨⟨a, raw, o, y, e, c, ht⟩, hrun⟩ := C11_run h hA
  exact ⟨a, raw, o, y, e, c, C11_below_limit_is_textbook ht fun j t htT => C70_below_limit ht ha hc j htT, hrun a raw o y e c ht⟩

/-- C70 and C36: then the Python and the C++ program return the same after any number of iterations (at least one), if there are at least two
projects, at least two teams, different numbers of them, and a nonzero damping rate if damping is on. -/
theorem C70_programs_agree (h : KcOk inp wf cap w R) (ha : inp.flag = true → 0 < inp.alpha ∧ inp.alpha ≤ 1)
    (hc : CheapTakeover inp.numTeams inp.numProjects w R) (hP : 2 ≤ inp.numProjects) (hT : 2 ≤ inp.numTeams) (hne : inp.numProjects ≠ inp.numTeams)
    {A : Mat Num} {a0 : ℕ → ℕ → ℚ} (hA : A.Is inp.numDepartments inp.numTeams a0) (K : ℕ) :
    ∃ pext pintr ext intr, pyKcSolve inp A (K + 1) = some (pext, pintr) ∧ kcSolve inp A (K + 1) = some (ext, intr) ∧
      SameArr inp.numTeams pext ext ∧ pintr.rows = inp.numProjects ∧ pintr.cols = inp.numTeams ∧
      intr.size = inp.numProjects * inp.numTeams ∧
      ∀ p < inp.numProjects, ∀ t < inp.numTeams, pintr.data p t = intr.data (p * inp.numTeams + t) := by
  have ha' : inp.flag = true → 0 ≤ inp.alpha ∧ inp.alpha ≤ 1 := fun hf => ⟨(ha hf).1.le, (ha hf).2⟩
  obtain ⟨a, raw, o, y, e, c, ht, -⟩ := C70_textbook h ha' hc hA
  exact C36_kc_run_partial h (fun hf => (ha hf).1.ne') hP hT hne hA ht fun j _ t htT => (C70_below_limit ht ha' hc j htT).le

end

section
variable {d : TeamData} {caps types : List ℕ} {combos : List (ℕ × ℕ)} {count : ℕ × ℕ × ℕ → ℕ} (h : KcCallOk d caps types combos count)
  {P : ℕ} (hP : 0 < P) {L : List (ℕ × ℕ × ℕ)} (hL : L = teams combos types count) {w : ℕ → ℚ} {R : ℕ → ℕ → ℚ} {flag : Bool} {alpha : ℚ}
include h hP hL

/-- C70, cycles.  Without damping the results of whole runs are eventually periodic in the number of iterations, on every input: from some number on,
`p` more iterations never change the beliefs, the kept teams or the report. -/
theorem C70_periodic (hoff : flag = false ∨ alpha = 0) : ∃ N p, 0 < p ∧ ∀ n ≥ N, ∀ (post : Bool) (option : ℕ) (q : ℚ), q ≤ 0 →
    kcCall d (n + p) flag alpha post option (fin q) (inputFile caps types L.length P w R) =
      kcCall d n flag alpha post option (fin q) (inputFile caps types L.length P w R) := by
  obtain ⟨⟨a, raw, o, y, e, c, ht⟩, -⟩ := C54_call (w := w) (R := R) (flag := flag) (alpha := alpha) h hP hL
  obtain ⟨K, K', hlt, h1, h2⟩ := Proofs.kc_trace_repeats ht hoff hP (fun l e => by rw [← Option.some.inj e]; norm_num)
  refine ⟨K + 2, K' - K, by omega, fun n hn post option q hq => ?_⟩
  have := C66_kc h hP hL ht (K := K) (K' := K') (fun i hi t htT hwt => by
    rw [Proofs.damped_off hoff, Proofs.damped_off hoff]; exact h1 i hi t htT hwt) h2 (n - (K + 2)) post option hq
  rw [show K + (n - (K + 2)) + 2 = n by omega, show K' + (n - (K + 2)) + 2 = n + (K' - K) by omega] at this
  exact this.symm

/-- C70 and C67: settled messages without ties give feasible plans that no treelike change improves, with a condition on the costs instead of
one on messages. -/
theorem C70_settled {a raw o y e : ℕ → ℕ → ℕ → ℚ} {c : ℕ → ℕ → ℚ} (ht : TeamTrace caps L P w R flag alpha a raw o y e c)
    (ha : flag = true → 0 ≤ alpha ∧ alpha < 1) (hc : CheapTakeover L.length P w R) {K : ℕ}
    (hd : ∀ i < caps.length, ∀ t < L.length, weightOf L i t ≠ 0 →
      damped flag alpha (fun j => raw j i t) K = damped flag alpha (fun j => raw j i t) (K + 1))
    (hy : ∀ p < P, ∀ t < L.length, y K p t = y (K + 1) p t)
    (hteam : ∀ t < L.length, teamBelief caps L w flag alpha raw c (K + 1) t ≠ 0) {q : ℚ} (hq : q ≤ 0)
    (hpair : ∀ p < P, ∀ t < L.length, pairBelief R o y (K + 1) p t < q ∨ 0 < pairBelief R o y (K + 1) p t) {N : ℕ} (hN : K + 2 ≤ N) :
    ∃ m, Plan caps.length L.length P (weightOf L) (fun i => caps.getD i 0) m ∧
      (∀ post byTeams : Bool, ∃ r, kcCall d N flag alpha post (if byTeams then 2 else 1) (fin q) (inputFile caps types L.length P w R) = some r ∧
        r.kept.Pairwise (· < ·) ∧ (∀ t, t ∈ r.kept ↔ t < L.length ∧ m t ≠ none) ∧
        r.entries = r.kept.map (fun t => (((L.getD t (0, 0, 0)).1, (L.getD t (0, 0, 0)).2.1), (L.getD t (0, 0, 0)).2.2,
          [t + 1], [(m t).getD 0 + 1]))) ∧
      (∀ m', Plan caps.length L.length P (weightOf L) (fun i => caps.getD i 0) m' → (∃ t < L.length, m' t ≠ m t) →
        TreelikeChange (planConstraints caps.length L.length P) (planScope L.length P (weightOf L)) (planVars L.length P m) (planVars L.length P m') →
        assignmentCost L.length (fun t p => w t + R p t) m < assignmentCost L.length (fun t p => w t + R p t) m') ∧
      ∀ m', Plan caps.length L.length P (weightOf L) (fun i => caps.getD i 0) m' →
        OneCycleChange (planConstraints caps.length L.length P) (planScope L.length P (weightOf L)) (planVars L.length P m) (planVars L.length P m') →
        assignmentCost L.length (fun t p => w t + R p t) m ≤ assignmentCost L.length (fun t p => w t + R p t) m' :=
  C67_kc h hP hL ht (fun hf => (ha hf).2.ne) hd hy (fun _ htT => C70_below_limit ht (fun hf => ⟨(ha hf).1, (ha hf).2.le⟩) hc (K + 1) htT) hteam hq hpair hN

end

/-! ## Examples -/

/-- The problem of the example of C67: three teams, costs up to 6, so beliefs between -12 and 72. -/
example (K : ℕ) : ∃ (b : ℕ → ℚ) (m : Mat Num),
    kcIteratePy (K + 1) true (1 / 2) (pythonTables 1 3 2 (weightOf c67Teams) (fun d => [2].getD d 0) (fun t => fin (c67w t)) (fun p t => fin (c67R p t))) =
      some (listOf 3 (fun t => fin (b t)), m) ∧ ∀ t < 3, -12 ≤ b t ∧ b t ≤ 72 := by
  obtain ⟨b, q, m, h1, -, h2, -⟩ := C70_beliefs (w := c67w) (R := c67R) (flag := true) (alpha := 1 / 2) (B := 6)
    (call_start (w := c67w) (R := c67R) c67_ok (P := 2) (by norm_num) (L := c67Teams) (by decide)).1
    (by norm_num) (by decide +kernel) (by decide +kernel) K
  exact ⟨b, m, h1, fun t ht => by have := h2 t ht; norm_num [c67Teams] at this; exact this⟩

/-- The instance of C11: both programs return the same for every number of iterations. -/
example (K : ℕ) : ∃ pext pintr ext intr, pyKcSolve c11Inputs (Mat.fill 2 3 0) (K + 1) = some (pext, pintr) ∧
    kcSolve c11Inputs (Mat.fill 2 3 0) (K + 1) = some (ext, intr) ∧ SameArr 3 pext ext := by
  obtain ⟨pext, pintr, ext, intr, h1, h2, h3, -⟩ := C70_programs_agree c11Inputs_ok (by decide +kernel)
    (cheap_of_bound (B := 7) (by decide) (by decide +kernel) (by decide +kernel) (by norm_num)) (by decide) (by decide) (by decide)
    (a0 := fun _ _ => 0) (A := Mat.fill 2 3 0) ⟨rfl, rfl, fun _ _ _ _ => rfl⟩ K
  exact ⟨pext, pintr, ext, intr, h1, h2, h3⟩

/-- Costs of another problem with the same teams. -/
def c70w (t : ℕ) : ℚ := [-3, -6, -9].getD t 0
def c70R (p t : ℕ) : ℚ := ([[3, 0, -3], [-6, -9, 6]].getD p []).getD t 0

/-- Here the results are periodic but never settle within the iterations shown: the beliefs and the kept teams alternate. -/
example : (∃ N p, 0 < p ∧ ∀ n ≥ N, kcCall flatData (n + p) false 0 false 1 (fin 0) (inputFile [2] [1, 2] 3 2 c70w c70R) =
      kcCall flatData n false 0 false 1 (fin 0) (inputFile [2] [1, 2] 3 2 c70w c70R)) ∧
    [12, 13, 14, 15].map (fun n => (kcCall flatData n false 0 false 1 (fin 0) (inputFile [2] [1, 2] 3 2 c70w c70R)).map (fun r => (r.beliefs, r.kept))) =
      [some ([fin (-3), fin 3, fin (-3)], [0, 2]), some ([fin 3, fin (-3), fin 3], [1]), some ([fin (-3), fin 3, fin (-3)], [0, 2]),
       some ([fin 3, fin (-3), fin 3], [1])] := by
  refine ⟨?_, by decide +kernel⟩
  obtain ⟨N, p, hp, h⟩ := C70_periodic (w := c70w) (R := c70R) c67_ok (P := 2) (by norm_num) (L := c67Teams) (by decide) (flag := false) (alpha := 0) (Or.inl rfl)
  exact ⟨N, p, hp, fun n hn => h n hn false 1 0 le_rfl⟩

/-- The condition on costs matters: the two instances of `C69_limit_matters` and `C11_claim_false` violate it. -/
example : CheapTakeover 3 2 c67w c67R ∧ ¬ CheapTakeover 1 1 (fun _ => 0) (fun _ _ => 1000000) := by
  refine ⟨cheap_of_bound (B := 6) (by decide) (by decide +kernel) (by decide +kernel) (by norm_num), fun h => ?_⟩
  obtain ⟨p, -, h1, -⟩ := h 0 (by norm_num)
  norm_num at h1

end Verif.Properties
