import Verif.Proofs.UnitTests
import Verif.Properties.PyAgree
import Verif.Properties.TestOracle

/-! # C100: the unit tests pass on everything they can draw -/

namespace Verif.Properties
open Verif Num Spec Model

/-- C100, full claim, for the test of the project constraints: it passes for all numbers of projects and teams (at least two each) and all messages. -/
def C100_claim : Prop := ∀ (P T : ℕ) (A : Mat Num) (x : ℕ → ℕ → ℚ), 2 ≤ P → 2 ≤ T → A.Is P T x → utProject P T A = some true

/-- C100 is false: with as many projects as teams the test fails. -/
theorem C100_claim_false : ¬ C100_claim := by
  intro h
  have h1 := h 2 2 ⟨2, 2, fun _ _ => fin 5⟩ (fun _ _ => 5) le_rfl le_rfl ⟨rfl, rfl, fun _ _ _ _ => rfl⟩
  have h2 : utProject 2 2 ⟨2, 2, fun _ _ => fin 5⟩ = some false := by decide +kernel
  rw [h2] at h1
  simp at h1

/-- C100, what the comparisons notice: one entry that differs by more than `1e-08` makes a test of two finite vectors fail. -/
theorem C100_detects_vector {n : ℕ} {a b : Arr Num} {x y : ℕ → ℚ} (ha : a.Is n x) (hb : b.Is n y) {i : ℕ} (hi : i < n)
    (h : 1 / 10 ^ 8 < |x i - y i|) : compareArr (some a) (some b) = some false := by
  simp only [compareArr, Option.bind_eq_bind, Option.bind_some]
  rw [(Proofs.toList_is ha hb).1, (Proofs.toList_is ha hb).2]
  exact Proofs.checkAgreement_detects (p := (x i, y i)) (List.mem_map.mpr ⟨i, List.mem_range.mpr hi, rfl⟩) h

/-- C100, what the comparisons notice: the same for two finite tables. -/
theorem C100_detects_table {m n : ℕ} {a b : Mat Num} {x y : ℕ → ℕ → ℚ} (ha : a.Is m n x) (hb : b.Is m n y) {i j : ℕ} (hi : i < m) (hj : j < n)
    (h : 1 / 10 ^ 8 < |x i j - y i j|) : compareMat (some a) (some b) = some false := by
  simp only [compareMat, Option.bind_eq_bind, Option.bind_some]
  rw [(Proofs.flatten_pairs ha hb).1, (Proofs.flatten_pairs ha hb).2]
  exact Proofs.checkAgreement_detects (p := (x i j, y i j))
    (List.mem_flatMap.mpr ⟨i, List.mem_range.mpr hi, List.mem_map.mpr ⟨j, List.mem_range.mpr hj, rfl⟩⟩) h

/-- C100, what the comparisons notice: the same for a table and a vector. -/
theorem C100_detects_flat {m n : ℕ} {a : Mat Num} {b : Arr Num} {x : ℕ → ℕ → ℚ} {y : ℕ → ℚ} (ha : a.Is m n x) (hb : b.Is (m * n) y) {i j : ℕ}
    (hi : i < m) (hj : j < n) (h : 1 / 10 ^ 8 < |x i j - y (i * n + j)|) : compareFlat (some a) (some b) = some false := by
  have hb' : (⟨m, n, fun i j => b.data (i * n + j)⟩ : Mat Num).Is m n (fun i j => y (i * n + j)) :=
    ⟨rfl, rfl, fun i hi j hj => hb.2 _ (by nlinarith [Nat.mul_le_mul_right n (Nat.succ_le_of_lt hi), Nat.succ_mul i n])⟩
  have := C100_detects_table ha hb' hi hj h
  simp only [compareMat, compareFlat, Option.bind_eq_bind, Option.bind_some] at this ⊢
  rw [← Proofs.flatten_vec (a := (⟨m, n, fun i j => b.data (i * n + j)⟩ : Mat Num)) rfl rfl hb.1 (fun _ _ _ _ => rfl)]
  exact this

section kc
variable {P T : ℕ}

/-- C100, `ProjectInequalityConstraintUpdate`: passes whenever the numbers of projects and teams differ.  Missing for the full claim: equal
numbers, for which it fails (`C100_claim_false`). -/
theorem C100_project_partial {A : Mat Num} {x : ℕ → ℕ → ℚ} (hA : A.Is P T x) (hP : 0 < P) (hT : 2 ≤ T) (hne : P ≠ T) : utProject P T A = some true :=
  Proofs.compareMat_pass hP (by omega) (C36_project_partial hA hT hne rfl rfl)

/-- C100, `Oric2TeamUpdate`: passes if no message is above 1000000 (the test draws from -300 to 300). -/
theorem C100_team {E : Mat Num} {e : ℕ → ℕ → ℚ} (hE : E.Is P T e) (hP : 0 < P) (hT : 0 < T) (hl : ∀ p < P, ∀ t < T, e p t ≤ 1000000) :
    utOricToTeam T E = some true :=
  Proofs.compareArr_pass hT (C36_team_partial hE (fun t ht => ⟨0, hP, hl 0 hP t ht⟩) hP rfl)

/-- C100, `Oric2ProjectEcUpdate`: both comparisons pass. -/
theorem C100_coupling {E R : Mat Num} {M : Arr Num} {e r : ℕ → ℕ → ℚ} {m : ℕ → ℚ} (hE : E.Is P T e) (hM : M.Is T m) (hR : R.Is P T r) (hP : 2 ≤ P)
    (hT : 0 < T) : utOricToProject P T E M R = some (true, true) := by
  obtain ⟨o, q, o', q', h1, h2, h3, h4⟩ := C36_coupling_agrees hE hM hR hP (O := Mat.fill P T 0) (Q := Mat.fill P T 0) rfl rfl rfl rfl
  have a1 := Proofs.compareMat_pass (by omega) hT (⟨o, o', rfl, rfl, h3⟩ : AgreeMat P T (some o) (some o'))
  have a2 := Proofs.compareMat_pass (by omega) hT (⟨q, q', rfl, rfl, h4⟩ : AgreeMat P T (some q) (some q'))
  simp only [utOricToProject, h1, h2, Option.map_some, a1, a2, Option.bind_eq_bind, Option.bind_some]

/-- C100, `ExtrinsicOutputTeamUpdate`. -/
theorem C100_extrinsic_team {D : ℕ} {ext : Mat Num} {x : ℕ → ℕ → ℚ} {o : Arr Num} {y : ℕ → ℚ} (hx : ext.Is D T x) (ho : o.Is T y) (hT : 0 < T) :
    utKcExtrinsic T ext o = some true := by
  obtain ⟨a, a1, a2⟩ := Proofs.npAdd1_is (Proofs.npSumAxis0_is hx) ho
  obtain ⟨b, b1, b2⟩ := Proofs.kcExtrinsic_is (out := Arr.fill T 0) hx ho rfl
  exact Proofs.compareArr_pass hT (Proofs.agreeArr_is a1 b1 a2 (b2.congr fun i _ => add_comm _ _))

/-- C100, `IntrinsicOutMwmUpdate`. -/
theorem C100_intrinsic {o y r : Mat Num} {of yf rf : ℕ → ℕ → ℚ} (ho : o.Is P T of) (hy : y.Is P T yf) (hr : r.Is P T rf) (hP : 0 < P) (hT : 0 < T) :
    utKcIntrinsic P T o y r = some true := by
  obtain ⟨s, s1, s2⟩ := Proofs.npAdd2_is ho hy
  obtain ⟨a, a1, a2⟩ := Proofs.npAdd2_is s2 hr
  obtain ⟨b, b1, b2, b3⟩ := Proofs.kcIntrinsic_is ho hy hr (out := Arr.fill (P * T) 0) rfl
  refine Proofs.compareFlat_pass hP hT ⟨a, b, by rw [s1, Option.bind_some, a1], b1, a2.1, a2.2.1, b2, fun i hi j hj => ?_⟩
  rw [a2.2.2 i hi j hj, b3 i hi j hj]

/-- C100, `TeamEc2OricUpdate`. -/
theorem C100_team_to_coupling {D : ℕ} {ext : Mat Num} {x : ℕ → ℕ → ℚ} {r : Arr Num} {w : ℕ → ℚ} (hx : ext.Is D T x) (hr : r.Is T w) (hT : 0 < T) :
    utTeamToOric T ext r = some true := by
  obtain ⟨a, a1, a2⟩ := Proofs.npAdd1_is (Proofs.npSumAxis0_is hx) hr
  obtain ⟨b, b1, b2⟩ := Proofs.teamToOric_is (out := Arr.fill T 0) hx rfl hr
  exact Proofs.compareArr_pass hT (Proofs.agreeArr_is a1 b1 a2 (b2.congr fun i _ => add_comm _ _))

/-- C100, `ProjectEqConst2OricUpdate`. -/
theorem C100_project_to_coupling {A R : Mat Num} {x r : ℕ → ℕ → ℚ} (hA : A.Is P T x) (hR : R.Is P T r) (hP : 0 < P) (hT : 0 < T) :
    utProjectToOric P T A R = some true := by
  obtain ⟨a, a1, a2⟩ := Proofs.npAdd2_is hA hR
  obtain ⟨b, b1, b2⟩ := Proofs.projectToOric_is hA (e2o := Mat.fill P T 0) rfl rfl hR
  exact Proofs.compareMat_pass hP hT (Proofs.agreeMat_is a1 b1 a2 (b2.congr fun i _ j _ => add_comm _ _))

/-- A department of a knapsack test is well formed: the lists describe the weights, every team fits alone, and the messages are finite. -/
def UtDeptOk (T : ℕ) (d : UtDept) : Prop := ∃ wf mf, DeptOk T d.cap d.nz d.sz d.w wf ∧ d.m.Is T mf

theorem tables_pass {T : ℕ} {files : UtDept → Option (List Num × List Num)}
    (h : ∀ d, UtDeptOk T d → ∃ y, files d = some (y, y) ∧ (∀ v ∈ y, v = pinf ∨ ∃ q, v = fin q) ∧ fin 0 ∈ y) {ds : List UtDept} (hne : ds ≠ [])
    (hd : ∀ d ∈ ds, UtDeptOk T d) : (ds.mapM files).bind (checkTables testRtol testAtol) = some true := by
  have hl : ∃ l : List (List Num × List Num), ds.mapM files = some l ∧ l.length = ds.length ∧
      ∀ f ∈ l, f.1 = f.2 ∧ (∀ v ∈ f.1, v = pinf ∨ ∃ q, v = fin q) ∧ fin 0 ∈ f.1 := by
    clear hne
    induction ds with
    | nil => exact ⟨[], rfl, rfl, by simp⟩
    | cons d ds ih =>
      obtain ⟨y, y1, y2, y3⟩ := h d (hd d (by simp))
      obtain ⟨l, l1, l2, l3⟩ := ih fun d' hd' => hd d' (by simp [hd'])
      refine ⟨(y, y) :: l, by simp [List.mapM_cons, y1, l1], by simp [l2], fun f hf => ?_⟩
      rcases List.mem_cons.mp hf with rfl | hf
      · exact ⟨rfl, y2, y3⟩
      · exact l3 f hf
  obtain ⟨l, l1, l2, l3⟩ := hl
  rw [l1, Option.bind_some, C82_tables_partial (by norm_num [testAtol]) (by norm_num [testRtol]) (by norm_num [testAtol]) (by norm_num [testRtol])]
  · simp only [Option.some.injEq, decide_eq_true_eq]
    exact fun f hf => (l3 f hf).1
  · intro e
    rw [e] at l2
    exact hne (List.length_eq_zero_iff.mp l2.symm)
  · intro f hf
    rw [← (l3 f hf).1]
    refine List.forall₂_same.mpr fun v hv => ?_
    rcases (l3 f hf).2.1 v hv with e | ⟨q, e⟩
    · exact Or.inl ⟨e, e⟩
    · exact Or.inr ⟨q, q, e, e⟩
  · intro f hf
    obtain ⟨M, h1, h2⟩ := Proofs.exists_greatest (l3 f hf).2.1 (l3 f hf).2.2
    exact ⟨M, h1, by positivity⟩

/-- C100, `KnapsackForward`: passes on all well-formed departments (at least one). -/
theorem C100_forward {ds : List UtDept} (hne : ds ≠ []) (hd : ∀ d ∈ ds, UtDeptOk T d) : utForward T ds = some true :=
  tables_pass (fun _ ⟨_, _, h1, h2⟩ => Proofs.forward_files h1 h2) hne hd

/-- C100, `KnapsackBackward`: passes on all well-formed departments; the first row, which no message is computed from, agrees as well. -/
theorem C100_backward {ds : List UtDept} (hne : ds ≠ []) (hd : ∀ d ∈ ds, UtDeptOk T d) : utBackward T ds = some true :=
  tables_pass (fun _ ⟨_, _, h1, h2⟩ => Proofs.backward_files h1 h2) hne hd

/-- C100, `ExtrinsicOutputDepartment`: passes on all tables of the right shape, whatever their entries are. -/
theorem C100_output {ds : List (UtDept × Mat Num × Mat Num)} (hne : ds ≠ []) (hT : 0 < T) (hd : ∀ d ∈ ds, UtDeptOk T d.1 ∧
    d.2.1.rows = T + 1 ∧ d.2.1.cols = d.1.cap + 1 ∧ d.2.2.rows = T + 1 ∧ d.2.2.cols = d.1.cap + 1) : utOutput T ds = some true := by
  have hl : ∃ l : List (Arr Num × Arr Num), ds.mapM (utOutputRows T) = some l ∧ l.length = ds.length ∧ ∀ f ∈ l, SameArr T f.1 f.2 := by
    clear hne
    induction ds with
    | nil => exact ⟨[], rfl, rfl, by simp⟩
    | cons d ds ih =>
      obtain ⟨⟨wf, mf, h1, h2⟩, h3, h4, h5, h6⟩ := hd d (by simp)
      obtain ⟨a, b, y1, y2⟩ := Proofs.output_rows h1 h2 h3 h4 h5 h6
      obtain ⟨l, l1, l2, l3⟩ := ih fun d' hd' => hd d' (by simp [hd'])
      have y1 : utOutputRows T d = some (a, b) := y1
      refine ⟨(a, b) :: l, by simp [List.mapM_cons, y1, l1], by simp [l2], fun f hf => ?_⟩
      rcases List.mem_cons.mp hf with rfl | hf
      · exact y2
      · exact l3 f hf
  obtain ⟨l, l1, l2, l3⟩ := hl
  simp only [utOutput, l1, Option.bind_eq_bind, Option.bind_some, ← Proofs.flattenArrs_same l3]
  refine Proofs.checkAgreement_self (by norm_num [testRtol]) (by norm_num [testAtol]) ?_
  rcases l with _ | ⟨f, l⟩
  · exact absurd (List.length_eq_zero_iff.mp l2.symm) hne
  · intro e
    have := congrArg List.length e
    simp [flattenArrs, Arr.toList, (l3 f (by simp)).1] at this
    omega

/-- C100, `ProcessExtrinsicOutputDepartment`: passes for every number of iterations, with a non-zero rate if damping is on. -/
theorem C100_filter {D : ℕ} {flag : Bool} {alpha : ℚ} (hfa : flag = true → alpha ≠ 0) {dummy : Mat Num} {r : ℕ → ℕ → ℚ} (hd : dummy.Is D T r)
    (hD : 0 < D) (hT : 0 < T) (K : ℕ) : utFilter D T flag alpha dummy (K + 1) = some true := by
  obtain ⟨u, o, h1, h2, -⟩ := Proofs.pyFilterRun_is hfa hd K
  obtain ⟨s, g1, g2, g3, g4⟩ := Proofs.filterRun_spec (rows := D) (n := T) (flag := flag) (alpha := alpha) (raw := fun _ => dummy) (r := fun _ => r)
    (s := (Mat.fill D T 0, Mat.fill D T 0)) (fun _ => hd) le_rfl le_rfl rfl rfl K
  have h3 : s.1.Is D T (fun i j => damped flag alpha (fun _ => r i j) K) := ⟨g2, g3, g4⟩
  exact Proofs.compareMat_pass hD hT (Proofs.agreeMat_is (by rw [h1]; rfl) (by rw [g1]; rfl) h2 h3)

variable {inp : KcInputs} {wf : ℕ → ℕ → ℕ} {cap : ℕ → ℕ} {w : ℕ → ℚ} {R : ℕ → ℕ → ℚ}

/-- C100, `Team2KnapsackUpdate`. -/
theorem C100_department (h : KcOk inp wf cap w R) {ext : Mat Num} {x : ℕ → ℕ → ℚ} (hx : ext.Is inp.numDepartments inp.numTeams x) {o2t : Arr Num}
    {c : ℕ → ℚ} (hc : o2t.Is inp.numTeams c) (hD : 0 < inp.numDepartments) (hT : 0 < inp.numTeams) : utTeamToKnapsack inp ext o2t = some true := by
  obtain ⟨a, a1, a2⟩ := Proofs.pyTeamToDepartment_is h hx hc
  obtain ⟨b, b1, b2, b3, b4⟩ := Proofs.teamToKnapsack_is (nzs := inp.nzs) (m := Mat.fill inp.numDepartments inp.numTeams 0) h.reward hc hx h.nzs_length
    (fun d hd => (h.dept d hd).sorted.imp (fun h => Nat.ne_of_lt h)) (fun d hd l hl => (((h.dept d hd).mem l).mp hl).1)
    (fun d hd l hl t ht t' ht' => by
      have hl' := ((h.dept d hd).mem l).mp hl
      rw [Proofs.otherDepts_eq h hl'.1] at ht ht'
      have hcard : ((depts inp.numDepartments wf l).erase d).card ≤ 1 := by
        rw [Finset.card_erase_of_mem (Proofs.mem_depts.mpr ⟨hd, hl'.2⟩)]
        have := h.two l hl'.1; omega
      exact Finset.card_le_one.mp hcard t ht t' ht') rfl rfl
  refine Proofs.compareMat_pass hD hT ⟨a, b, a1, b1, a2.1, b2, a2.2.1, b3, fun d hd t ht => ?_⟩
  rw [a2.2.2 d hd t ht, b4 d t]
  by_cases hw : wf d t = 0
  · rw [if_neg (fun h' => (((h.dept d hd).mem t).mp h'.2).2 hw)]
    simp [hw, Mat.fill]
    rfl
  · simp only [ne_eq, hw, not_false_eq_true, if_true]
    rw [if_pos ⟨hd, ((h.dept d hd).mem t).mpr ⟨ht, hw⟩⟩, Proofs.otherDepts_eq h ht]

/-- C100, `Iterate` and `IterateSampleGraph` of the assignment program: both comparisons pass under the conditions of `C36_kc_run_partial`. -/
theorem C100_kc_iterate_partial (h : KcOk inp wf cap w R) (hfa : inp.flag = true → inp.alpha ≠ 0) (hP : 2 ≤ inp.numProjects)
    (hT : 2 ≤ inp.numTeams) (hne : inp.numProjects ≠ inp.numTeams) {A : Mat Num} {a0 : ℕ → ℕ → ℚ}
    (hA : A.Is inp.numDepartments inp.numTeams a0) {a raw o y e : ℕ → ℕ → ℕ → ℚ} {c : ℕ → ℕ → ℚ}
    (ht : IsKcTrace inp.numDepartments inp.numTeams inp.numProjects wf cap w R inp.flag inp.alpha none a0 a raw o y e c) {K : ℕ}
    (hK : ∀ j ≤ K, ∀ t < inp.numTeams, c j t ≤ 1000000) : utKcIterate inp A (K + 1) = some (true, true) := by
  obtain ⟨pext, pintr, ext, intr, h1, h2, h3, h4, h5, h6, h7⟩ := C36_kc_run_partial h hfa hP hT hne hA ht hK
  have a1 := Proofs.compareArr_pass (by omega) (⟨pext, ext, rfl, rfl, h3⟩ : AgreeArr _ (some pext) (some ext))
  have a2 := Proofs.compareFlat_pass (show 0 < inp.numProjects by omega) (show 0 < inp.numTeams by omega)
    (p := some pintr) (q := some intr) ⟨pintr, intr, rfl, rfl, h4, h5, h6, h7⟩
  simp only [utKcIterate, h1, h2, Option.map_some, a1, a2, Option.bind_eq_bind, Option.bind_some]

end kc

section ksat
variable {inp : KsatInputs} {w : ℕ → ℚ}

/-- C100, `ExtrinsicOutputVariableEcUpdate`. -/
theorem C100_ksat_extrinsic {C n : ℕ} {K : Mat Num} {x : ℕ → ℕ → ℚ} (hK : K.Is C n x) (hn : 0 < n) : utKsatExtrinsic n C K = some true := by
  obtain ⟨b, b1, b2⟩ := Proofs.ksatExtrinsic_is hK (Arr.fill_is n 0)
  exact Proofs.compareArr_pass hn (Proofs.agreeArr_is rfl b1 (Proofs.npSumAxis0_is hK) (b2.congr fun i _ => zero_add _))

/-- C100, `VariableEc2KsatConstraintUpdate`: passes for messages that are zero off the clauses, as the test draws them. -/
theorem C100_variable (hco : ConnectionsOk inp.numConstraints inp.k inp.numVars inp.conx inp.used inp.conns) (hw : inp.cost.Is inp.numVars w)
    {K : Mat Num} {x : ℕ → ℕ → ℚ} (hK : K.Is inp.numConstraints inp.numVars x)
    (hz : ∀ c < inp.numConstraints, ∀ v < inp.numVars, v ∉ clauseVars inp.k (inp.conx.data c) → x c v = 0) (hC : 0 < inp.numConstraints)
    (hn : 0 < inp.numVars) : utVariableToKsat inp K = some true := by
  obtain ⟨g, p, q, h1, h2, h3, h4⟩ := Proofs.pyVariableUpdate_agree hK hco hw hz (V := Mat.fill inp.numConstraints inp.numVars 0) rfl rfl
  exact Proofs.compareMat_pass hC hn (Proofs.agreeMat_is h1 h2 h3 h4)

/-- C100, `KsatConstraint2VariableEcUpdate`. -/
theorem C100_clause (ht : ClauseTables inp.numConstraints inp.k inp.numVars inp.conx inp.conxType) {V : Mat Num} {x : ℕ → ℕ → ℚ}
    (hV : V.Is inp.numConstraints inp.numVars x) (hC : 0 < inp.numConstraints) (hn : 0 < inp.numVars) : utKsatToVariable inp V = some true :=
  Proofs.compareMat_pass hC hn (C36_clause_agrees hV ht rfl rfl)

/-- C100, `Iterate` of the k-SAT program: passes for every number of iterations. -/
theorem C100_ksat_iterate (ht : ClauseTables inp.numConstraints inp.k inp.numVars inp.conx inp.conxType)
    (hco : ConnectionsOk inp.numConstraints inp.k inp.numVars inp.conx inp.used inp.conns) (hw : inp.cost.Is inp.numVars w)
    (hk : 2 ≤ inp.k) (hfa : inp.flag = true → inp.alpha ≠ 0) {V : Mat Num} {x0 : ℕ → ℕ → ℚ}
    (hV : V.Is inp.numConstraints inp.numVars x0) (hn : 0 < inp.numVars) (K : ℕ) : utKsatIterate inp V K = some true :=
  Proofs.compareArr_pass hn (C36_ksat_run ht hco hw hk hfa hV K)

end ksat

section tsp
variable {n E : ℕ} {edges : List (ℕ × ℕ)}

/-- C100, `ExtrinsicOutputEdgeEcRelaxedGraphUpdate`. -/
theorem C100_tsp_extrinsic_relaxed {D : Mat Num} {x : ℕ → ℕ → ℚ} (hD : D.Is E n x) (hE : 0 < E) : utTspExtrinsicRelaxed E D = some true := by
  obtain ⟨a, a1, a2, a3⟩ := Proofs.genM_eq (n := D.rows) (f := npRowSum D) (g := fun e => fin (∑ v ∈ Finset.range n, x e v))
    (fun e he => Proofs.npRowSum_is hD (by rw [← hD.1]; exact he))
  obtain ⟨b, b1, b2⟩ := Proofs.tspExtrinsicRelaxed_is hD (ext := Arr.fill E 0) rfl
  rw [hD.1] at a2 a3
  exact Proofs.compareArr_pass hE (Proofs.agreeArr_is a1 b1 ⟨a2, a3⟩ b2)

/-- C100, `ExtrinsicOutputEdgeEcAugmentedGraphUpdate`. -/
theorem C100_tsp_extrinsic_augmented {C : ℕ} {D S : Mat Num} {x s : ℕ → ℕ → ℚ} (hD : D.Is E n x) (hS : S.Is C E s) (hE : 0 < E) :
    utTspExtrinsicAugmented E D S = some true := by
  obtain ⟨a, a1, a2, a3⟩ := Proofs.genM_eq (n := D.rows) (f := npRowSum D) (g := fun e => fin (∑ v ∈ Finset.range n, x e v))
    (fun e he => Proofs.npRowSum_is hD (by rw [← hD.1]; exact he))
  rw [hD.1] at a2 a3
  have ha : a.Is E (fun e => ∑ v ∈ Finset.range n, x e v) := ⟨a2, a3⟩
  obtain ⟨a', a4, a5⟩ := Proofs.npAdd1_is ha (Proofs.npSumAxis0_is hS)
  obtain ⟨b, b1, b2⟩ := Proofs.tspExtrinsicRelaxed_is hD (ext := Arr.fill E 0) rfl
  obtain ⟨b', b3, b4⟩ := Proofs.addRowsL_is hS b2
  exact Proofs.compareArr_pass hE (Proofs.agreeArr_is (by rw [a1, Option.bind_some, a4])
    (by simp only [tspExtrinsicAugmented, b1, Option.bind_eq_bind, Option.bind_some, b3]) a5 b4)

/-- C100, `DegreeConstraint2EdgeEcUpdate`: passes if at least two edges leave and enter every node. -/
theorem C100_degree (hok : EdgesOk n edges) (hlen : edges.length = E) (h2 : TwoWays n edges) {M : Mat Num} {x : ℕ → ℕ → ℚ} (hM : M.Is E n x)
    (hE : 0 < E) (hn : 0 < n) : utDegree n E edges M = some true :=
  Proofs.compareMat_pass hE hn (C36_degree_agrees hok hlen h2 hM)

/-- C100, `SubtourConstraints2EdgeEcUpdate`: the test draws at least one cut and at least two edges for every cut. -/
theorem C100_cut {deltas : List (List ℕ)} (hd : CutsOk E deltas) (hne : deltas ≠ []) {y : ℕ → ℕ → ℚ} {Y : Mat Num} (hY : Y.Is deltas.length E y)
    (hE : 0 < E) : utSubtour E deltas Y = some true :=
  Proofs.compareMat_pass (List.length_pos_iff.mpr hne) hE (C36_cut_agrees rfl hd hY)

/-- C100, `EdgeEc2DegreeConstraintRelaxedGraphUpdate`. -/
theorem C100_edge_relaxed (hok : EdgesOk n edges) (hlen : edges.length = E) {D cost : Mat Num} {x c : ℕ → ℕ → ℚ} (hD : D.Is E n x)
    (hc : cost.Is E n c) (hE : 0 < E) (hn : 0 < n) : utEdgeToDegreeRelaxed n E edges cost D = some true := by
  obtain ⟨p, q, g, h1, h2, h3, h4⟩ := Proofs.pyEdgeToDegreeRelaxed_agree hok hlen hD hc (out := Mat.fill E n 0) rfl rfl
  exact Proofs.compareMat_pass hE hn (Proofs.agreeMat_is h1 h2 h3 h4)

/-- C100, `EdgeEc2SubtourConstraintsUpdate`: passes for messages that are zero off the edges' nodes, as the test draws them. -/
theorem C100_edge_cut (hok : EdgesOk n edges) (hlen : edges.length = E) {deltas : List (List ℕ)} (hd : ∀ l ∈ deltas, ∀ e ∈ l, e < E)
    (hne : deltas ≠ []) {cost : Arr Num} {D S : Mat Num} {c : ℕ → ℚ} {x s : ℕ → ℕ → ℚ} (hcost : cost.Is E c) (hD : D.Is E n x)
    (hS : S.Is deltas.length E s) (hz : ∀ e < E, ∀ v < n, v ≠ src edges e → v ≠ dst edges e → x e v = 0) (hE : 0 < E) :
    utEdgeToSubtour E edges deltas cost D S = some true := by
  obtain ⟨p, q, g, h1, h2, h3, h4⟩ := Proofs.pyEdgeToSubtour_agree hok hlen rfl hd hcost hD hS hz
  exact Proofs.compareMat_pass (List.length_pos_iff.mpr hne) hE (Proofs.agreeMat_is h1 h2 h3 h4)

/-- C100, `EdgeEc2DegreeConstraintAugmentedGraphUpdate`: passes for messages and costs that are zero off the edges' nodes, as the test has them. -/
theorem C100_edge_augmented (hok : EdgesOk n edges) (hlen : edges.length = E) {C : ℕ} (hC : C ≠ 0) {D S cost : Mat Num} {x s c : ℕ → ℕ → ℚ}
    (hD : D.Is E n x) (hS : S.Is C E s) (hc : cost.Is E n c)
    (hz : ∀ e < E, ∀ v < n, v ≠ src edges e → v ≠ dst edges e → x e v = 0 ∧ c e v = 0) (hE : 0 < E) (hn : 0 < n) :
    utEdgeToDegreeAugmented n E edges cost D S = some true := by
  obtain ⟨p, g, p1, p2, p3⟩ := Proofs.pyEdgeToDegreeAugmented_full hok hlen hC hD hS hc
  obtain ⟨q, q1, q2, q3, q4⟩ := Proofs.edgeToDegreeAugmented_is hok hlen hD hS hc (out := Mat.fill E n 0) (o := fun _ _ => 0)
    ⟨rfl, rfl, fun _ _ _ _ => rfl⟩
  refine Proofs.compareMat_pass hE hn ⟨p, q, p1, q1, p2.1, q2, p2.2.1, q3, fun e he v hv => ?_⟩
  have he' : e < edges.length := by omega
  obtain ⟨g1, g2, g3⟩ := p3 e he'
  rw [p2.2.2 e he v hv, q4 e he' v hv]
  by_cases h1 : v = edges[e].1
  · rw [if_pos h1, h1, g1]
  · rw [if_neg h1]
    by_cases h2 : v = edges[e].2
    · rw [if_pos h2, h2, g2]
    · obtain ⟨z1, z2⟩ := hz e he v hv (by rw [Proofs.src_eq he']; exact h1) (by rw [Proofs.dst_eq he']; exact h2)
      rw [if_neg h2, g3 v hv h1 h2, z1, z2, add_zero]

/-- C100, `IterateRelaxedGraph`: passes for every number of iterations (at least one). -/
theorem C100_tsp_iterate {inp : TspInputs} {w : ℕ → ℚ} {c : ℕ → ℕ → ℚ} (h : TspOk inp w c) (hfa : inp.flag = true → inp.alpha ≠ 0) {e2d : Mat Num}
    {x0 : ℕ → ℕ → ℚ} (he : e2d.Is inp.numEdges inp.numNodes x0) (hE : 0 < inp.numEdges) (K : ℕ) : utTspRelaxed inp e2d (K + 1) = some true := by
  obtain ⟨m', p', ext, intr, pintr, h1, h2, h3, -⟩ := C36_tsp_relaxed_run h hfa he K
  refine Proofs.compareArr_pass hE ⟨pintr, intr, ?_, ?_, h3⟩
  · exact congrArg (Option.map Prod.snd) h2
  · rw [h1]; rfl

end tsp

/-! ## Examples -/

/-- Two departments of three teams. -/
def c100Depts : List UtDept := [⟨3, [0, 1], 2, Arr.ofList [2, 2, 0], Arr.ofList [fin (-5), fin 3, fin 1]⟩,
  ⟨2, [1, 2], 2, Arr.ofList [0, 1, 2], Arr.ofList [fin 0, fin (-3), fin (-1 / 2)]⟩]

example : c100Depts ≠ [] ∧ ∀ d ∈ c100Depts, UtDeptOk 3 d := by
  refine ⟨by decide, fun d hd => ?_⟩
  simp only [c100Depts, List.mem_cons, List.not_mem_nil, or_false] at hd
  rcases hd with rfl | rfl
  · refine ⟨fun t => [2, 2, 0].getD t 0, fun t => [-5, 3, 1].getD t 0, ⟨by decide, fun t => ?_, by decide, rfl, rfl, by decide, by decide⟩, rfl, by decide +kernel⟩
    match t with
    | 0 | 1 | 2 => decide
    | t + 3 => simp
  · refine ⟨fun t => [0, 1, 2].getD t 0, fun t => [0, -3, -1 / 2].getD t 0, ⟨by decide, fun t => ?_, by decide, rfl, rfl, by decide, by decide⟩, rfl, by decide +kernel⟩
    match t with
    | 0 | 1 | 2 => decide
    | t + 3 => simp

example : utForward 3 c100Depts = some true ∧ utBackward 3 c100Depts = some true ∧
    utOutput 3 (c100Depts.map (fun d => (d, Mat.fill 4 (d.cap + 1) (fin 7), ⟨4, d.cap + 1, fun i j => fin (i - j)⟩))) = some true := by
  decide +kernel

/-- The files of the first department are not trivial. -/
example : (c100Depts.head?.bind (utForwardFiles 3)).map Prod.fst = some ([fin 0, pinf, pinf, pinf, fin 0, pinf, fin (-5), pinf,
    fin 0, pinf, fin (-5), pinf, fin 0, pinf, fin (-5), pinf]) := by decide +kernel

example : utProject 2 3 ⟨2, 3, fun p t => fin (3 * p - 2 * t)⟩ = some true ∧
    utOricToTeam 3 ⟨2, 3, fun p t => fin (3 * p - 2 * t)⟩ = some true ∧
    utOricToProject 2 3 ⟨2, 3, fun p t => fin (3 * p - 2 * t)⟩ (Arr.ofList [fin 1, fin (-4), fin 2]) ⟨2, 3, fun p t => fin (p + t)⟩ = some (true, true) ∧
    utKcIterate c11Inputs (Mat.fill 2 3 0) 3 = some (true, true) ∧
    utFilter 2 3 true (1 / 3) ⟨2, 3, fun p t => fin (3 * p - 2 * t)⟩ 4 = some true ∧
    utTeamToKnapsack c11Inputs ⟨2, 3, fun p t => fin (3 * p - 2 * t)⟩ (Arr.ofList [fin 1, fin (-4), fin 2]) = some true := by decide +kernel

example : utKsatIterate c13Inputs c13Start 3 = some true ∧ utKsatToVariable c13Inputs c13Start = some true ∧
    utVariableToKsat c13Inputs ⟨2, 3, fun c v => if c ≤ v ∧ v ≤ c + 1 then fin (v + 2) else 0⟩ = some true ∧
    utKsatExtrinsic 3 2 c13Start = some true := by decide +kernel

example : utTspRelaxed c12Inputs c12Inputs.degCost 3 = some true ∧ utDegree 3 6 k3 c12Inputs.degCost = some true ∧
    utSubtour 6 [[0, 1], [2, 4, 5]] ⟨2, 6, fun c e => fin (c - e)⟩ = some true ∧
    utEdgeToDegreeRelaxed 3 6 k3 c12Inputs.degCost c12Inputs.degCost = some true ∧
    utTspExtrinsicAugmented 6 c12Inputs.degCost ⟨2, 6, fun c e => fin (c - e)⟩ = some true := by decide +kernel

/-- The conditions of the tests with cuts: messages that are not zero off an edge's nodes make the two programs differ. -/
example : utEdgeToSubtour 6 k3 [[0, 1]] c12Inputs.cost c12Inputs.degCost ⟨1, 6, fun _ e => fin e⟩ = some false ∧
    utEdgeToDegreeAugmented 3 6 k3 c12Inputs.degCost c12Inputs.degCost ⟨1, 6, fun _ e => fin e⟩ = some false := by decide +kernel

/-- With one team above 1000000 for every project the test of the team messages fails. -/
example : utOricToTeam 2 ⟨1, 2, fun _ t => fin (if t = 0 then 2000000 else 3)⟩ = some false := by decide +kernel

/-- A comparison with a wrong entry fails. -/
example : compareArr (some (Arr.ofList [fin 1, fin 5])) (some (Arr.ofList [fin 1, fin 2])) = some false := by decide +kernel

end Verif.Properties
