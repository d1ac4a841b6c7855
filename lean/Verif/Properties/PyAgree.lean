import Verif.Proofs.PyKsat
import Verif.Proofs.PyTspRun
import Verif.Proofs.PyKcRun
import Verif.Properties.KcRun
import Verif.Properties.KsatRun
import Verif.Properties.TspRun

/-! # C36: the pure Python solvers and the C++ solvers compute the same messages -/

namespace Verif.Properties
open Verif Num Spec Model

/-- Where both computations return a table, the tables are equal. -/
def BothMat (m n : ℕ) (p q : Option (Mat Num)) : Prop := ∀ a b, p = some a → q = some b → SameMat m n a b

/-- Where both computations return a vector, the vectors are equal. -/
def BothArr (n : ℕ) (p q : Option (Arr Num)) : Prop := ∀ a b, p = some a → q = some b → SameArr n a b

/-- C36 as claimed, for the three updates of the assignment solver between projects and teams and the knapsack update: on
all finite tables that both accept, both return the same numbers.  The Python program passes `P ≠ T` as its unbalanced
flag. -/
def C36_claim : Prop :=
  (∀ (P T : ℕ) (A : Mat Num) (x : ℕ → ℕ → ℚ), A.Is P T x →
    BothMat P T (pyProjectUpdate (decide (P ≠ T)) A) (projectInequalityUpdate T A (Mat.fill P T 0))) ∧
  (∀ (P T : ℕ) (E : Mat Num) (e : ℕ → ℕ → ℚ), E.Is P T e →
    BothArr T (pyOricToTeam E) (oricToTeamUpdate E (Arr.fill T 0))) ∧
  (∀ (P T : ℕ) (E R : Mat Num) (M : Arr Num) (e r : ℕ → ℕ → ℚ) (m : ℕ → ℚ), E.Is P T e → M.Is T m → R.Is P T r →
    BothMat P T ((pyOricToProject P T E M R).map Prod.fst)
      ((oricToProjectUpdate P T E M (Mat.fill P T 0) (Mat.fill P T 0) R).map Prod.fst)) ∧
  (∀ (T cap : ℕ) (nz : List ℕ) (sz : ℕ) (w : Arr ℕ) (wf : ℕ → ℕ) (m : Arr Num) (mf : ℕ → ℚ), DeptOk T cap nz sz w wf → m.Is T mf →
    BothArr T (pyKnapMessages T cap w m) (knapMessages T cap nz sz w m (Arr.fill T 0)))

/-- C36 is false as claimed: with two projects and two teams the Python program does not clip the project messages. -/
theorem C36_claim_false : ¬ C36_claim := by
  rintro ⟨h, -⟩
  have h1 := h 2 2 ⟨2, 2, fun _ _ => fin 5⟩ (fun _ _ => 5) ⟨rfl, rfl, fun _ _ _ _ => rfl⟩
  have p1 : (pyProjectUpdate (decide (2 ≠ 2)) ⟨2, 2, fun _ _ => fin 5⟩).map (fun a => a.data 0 0) = some (fin (-5)) := by
    decide +kernel
  have q1 : (projectInequalityUpdate 2 ⟨2, 2, fun _ _ => fin 5⟩ (Mat.fill 2 2 0)).map (fun a => a.data 0 0) = some (fin 0) := by
    decide +kernel
  obtain ⟨a, ha, ea⟩ := Option.map_eq_some_iff.mp p1
  obtain ⟨b, hb, eb⟩ := Option.map_eq_some_iff.mp q1
  have := (h1 a b ha hb).2.2.2.2 0 (by decide) 0 (by decide)
  rw [ea, eb] at this
  exact absurd (Num.fin.inj this) (by norm_num)

/-- C36, the second disagreement: messages to teams above 1000000 are cut off by the C++ program only. -/
theorem C36_team_limit_differs :
    (pyOricToTeam ⟨1, 1, fun _ _ => fin 2000000⟩).map (fun a => a.data 0) = some (fin 2000000) ∧
      (oricToTeamUpdate ⟨1, 1, fun _ _ => fin 2000000⟩ (Arr.fill 1 0)).map (fun a => a.data 0) = some (fin 1000000) := by
  constructor <;> decide +kernel

/-- C36, the third difference: damping with rate zero raises in the Python program, whatever the tables; the C++ program
passes the messages through. -/
theorem C36_zero_rate_differs (iter : ℕ) (dummy : Mat Num) (old : Option (Mat Num)) (d out prev : Arr Num)
    (hs : d.size = out.size) :
    pyFilter true 0 iter dummy old = none ∧
      ∃ r, filterRow true 0 iter d out prev = some (r, prev) ∧ r.size = d.size ∧ ∀ i < d.size, r.data i = d.data i := by
  refine ⟨by simp [pyFilter], ⟨out.size, fun i => if i < d.size then d.data i else out.data i⟩, ?_, hs.symm, fun i hi => if_pos hi⟩
  simp [filterRow, Arr.copyTo, hs]

/-- C36, project constraints: with at least two teams and different numbers of projects and teams the two updates agree.
Missing for the full claim: balanced instances, for which it is false (`C36_claim_false`). -/
theorem C36_project_partial {P T : ℕ} {A : Mat Num} {x : ℕ → ℕ → ℚ} (hA : A.Is P T x) (hT : 2 ≤ T) (hne : P ≠ T) {old : Mat Num}
    (hr : old.rows = P) (hc : old.cols = T) :
    AgreeMat P T (pyProjectUpdate (decide (P ≠ T)) A) (projectInequalityUpdate T A old) := by
  obtain ⟨a, a1, a2, a3, a4⟩ := Proofs.pyProjectUpdate_eq hA hT (decide (P ≠ T))
  obtain ⟨b, b1, b2, b3, b4⟩ := Proofs.projectInequalityUpdate_eq hA hr hc
  refine ⟨a, b, a1, b1, a2, b2, a3, b3, fun p hp t ht => ?_⟩
  obtain ⟨v, v1, v2⟩ := a4 p hp t ht
  obtain ⟨q, q1, q2⟩ := b4 p hp t ht
  rw [v2, q2]
  simp only [hne, ne_eq, not_false_eq_true, decide_true, if_true]
  congr 2
  refine IsLeast.unique ⟨?_, ?_⟩ q1
  · rcases min_choice v 0 with e | e <;> rw [e]
    · exact Or.inr v1.1
    · exact Or.inl rfl
  · rintro r (rfl | hs)
    · exact min_le_right _ _
    · exact (min_le_left _ _).trans (v1.2 hs)

/-- C36, balanced project constraints: the Python program sends the message of an "exactly one" constraint there; the C++
program always sends that of an "at most one" constraint. -/
theorem C36_project_balanced {P T : ℕ} {A : Mat Num} {x : ℕ → ℕ → ℚ} (hA : A.Is P T x) (hT : 2 ≤ T) :
    ∃ out, pyProjectUpdate false A = some out ∧ out.rows = P ∧ out.cols = T ∧
      ∀ p < P, ∀ t < T, IsMessage (Finset.range T) ExactlyOne (x p) t (out.data p t) := by
  obtain ⟨a, a1, a2, a3, a4⟩ := Proofs.pyProjectUpdate_eq hA hT false
  refine ⟨a, a1, a2, a3, fun p hp t ht => ?_⟩
  obtain ⟨v, v1, v2⟩ := a4 p hp t ht
  rw [v2]
  exact Proofs.exactlyOne_message (v := fin v) (Finset.mem_range.mpr ht) (isMin_fin (by
    simpa [Proofs.others, Finset.mem_range] using v1))

/-- C36, messages to teams: the two updates agree if every team has a message of at most 1000000.  Missing for the full
claim: larger messages, for which it is false (`C36_team_limit_differs`). -/
theorem C36_team_partial {P T : ℕ} {E : Mat Num} {e : ℕ → ℕ → ℚ} (hE : E.Is P T e)
    (hl : ∀ t < T, ∃ p < P, e p t ≤ 1000000) (hP : 0 < P) {old : Arr Num} (ho : old.size = T) :
    AgreeArr T (pyOricToTeam E) (oricToTeamUpdate E old) := by
  obtain ⟨a, a1, a2, a3⟩ := Proofs.pyOricToTeam_eq hE hP
  obtain ⟨b, b1, b2, b3⟩ := Proofs.oricToTeamUpdate_eq hE ho
  refine ⟨a, b, a1, b1, a2, b2, fun t ht => ?_⟩
  obtain ⟨v, v1, v2⟩ := a3 t ht
  obtain ⟨q, q1, q2⟩ := b3 t ht
  rw [v2, q2]
  congr 1
  refine IsLeast.unique ⟨Or.inr v1.1, ?_⟩ q1
  rintro r (rfl | hs)
  · obtain ⟨p, hp, h⟩ := hl t ht; exact (v1.2 ⟨p, hp, rfl⟩).trans h
  · exact v1.2 hs

/-- C36, coupling constraints: with at least two projects the two updates agree, for the messages and for their sums with
the matching costs. -/
theorem C36_coupling_agrees {P T : ℕ} {e r : ℕ → ℕ → ℚ} {m : ℕ → ℚ} {E R O Q : Mat Num} {M : Arr Num} (hE : E.Is P T e) (hM : M.Is T m)
    (hR : R.Is P T r) (hP : 2 ≤ P) (hor : O.rows = P) (hoc : O.cols = T) (hqr : Q.rows = P) (hqc : Q.cols = T) :
    ∃ o q o' q', pyOricToProject P T E M R = some (o, q) ∧ oricToProjectUpdate P T E M O Q R = some (o', q') ∧
      SameMat P T o o' ∧ SameMat P T q q' := by
  obtain ⟨o, q, a1, a2, a3, a4, a5, a6⟩ := Proofs.pyOricToProject_eq hE hM hR hP
  obtain ⟨o', q', b1, b2, b3, b4, b5, b6⟩ := Proofs.oricToProjectUpdate_eq hE hM hR hor hoc hqr hqc
  have key : ∀ p < P, ∀ t < T, o.data p t = o'.data p t ∧ q.data p t = q'.data p t := by
    intro p hp t ht
    obtain ⟨v, v1, v2, v3⟩ := a6 p hp t ht
    obtain ⟨v', w1, w2, w3⟩ := b6 p hp t ht
    rw [v2, v3, w2, w3, IsLeast.unique v1 w1]
    exact ⟨rfl, rfl⟩
  exact ⟨o, q, o', q', a1, b1, ⟨a2, b2, a3, b3, fun p hp t ht => (key p hp t ht).1⟩,
    a4, b4, a5, b5, fun p hp t ht => (key p hp t ht).2⟩

/-- C36, knapsack constraints: the forward-backward recursions of the two programs give the same messages for every
department that some team uses and whose teams fit alone. -/
theorem C36_knapsack_agrees {T cap : ℕ} {nz : List ℕ} {sz : ℕ} {w : Arr ℕ} {wf : ℕ → ℕ} {m old : Arr Num} {mf : ℕ → ℚ}
    (ok : DeptOk T cap nz sz w wf) (hm : m.Is T mf) (ho : old.size = T) :
    AgreeArr T (pyKnapMessages T cap w m) (knapMessages T cap nz sz w m old) := by
  obtain ⟨a, a1, a2, a3⟩ := Proofs.pyKnapMessages_spec ok hm
  obtain ⟨b, b1, b2, b3⟩ := Proofs.knapMessages_spec ok hm ho
  refine ⟨a, b, a1, b1, a2, b2, fun t ht => ?_⟩
  by_cases hw : wf t = 0
  · rw [(a3 t ht).2 hw, (b3 t ht).2 hw]
  · exact ((a3 t ht).1 hw).unique ((b3 t ht).1 hw)

section
variable {inp : KcInputs} {wf : ℕ → ℕ → ℕ} {cap : ℕ → ℕ} {w : ℕ → ℚ} {R : ℕ → ℕ → ℚ}

/-- C36, messages from teams to departments: the two updates agree where a team uses the department (elsewhere Python
stores zero and C++ leaves the old entry; neither is read). -/
theorem C36_department_agrees (h : KcOk inp wf cap w R) {ext old : Mat Num} {x : ℕ → ℕ → ℚ}
    (hx : ext.Is inp.numDepartments inp.numTeams x) {o2t : Arr Num} {c : ℕ → ℚ} (hc : o2t.Is inp.numTeams c)
    (hr : old.rows = inp.numDepartments) (hcol : old.cols = inp.numTeams) :
    ∃ a b, pyTeamToDepartment inp.numDepartments inp.numTeams inp.weights inp.reward ext o2t = some a ∧
      teamToKnapsack inp.numDepartments inp.numTeams inp.nzs old inp.reward ext o2t = some b ∧
      ∀ d < inp.numDepartments, ∀ t < inp.numTeams, wf d t ≠ 0 → a.data d t = b.data d t := by
  obtain ⟨a, a1, a2⟩ := Proofs.pyTeamToDepartment_is h hx hc
  obtain ⟨b, b1, -, -, b2⟩ := Proofs.teamToKnapsack_is (nzs := inp.nzs) h.reward hc hx h.nzs_length
    (fun d hd => (h.dept d hd).sorted.imp (fun h => Nat.ne_of_lt h)) (fun d hd l hl => (((h.dept d hd).mem l).mp hl).1)
    (fun d hd l hl t ht t' ht' => by
      have hl' := ((h.dept d hd).mem l).mp hl
      rw [Proofs.otherDepts_eq h hl'.1] at ht ht'
      have hcard : ((depts inp.numDepartments wf l).erase d).card ≤ 1 := by
        rw [Finset.card_erase_of_mem (Proofs.mem_depts.mpr ⟨hd, hl'.2⟩)]
        have := h.two l hl'.1; omega
      exact Finset.card_le_one.mp hcard t ht t' ht') hr hcol
  refine ⟨a, b, a1, b1, fun d hd t ht hw => ?_⟩
  rw [a2.2.2 d hd t ht, b2 d t]
  simp only [if_pos hw]
  rw [if_pos ⟨hd, ((h.dept d hd).mem t).mpr ⟨ht, hw⟩⟩, Proofs.otherDepts_eq h ht]

/-- C36, whole runs of the assignment solver: for every number of iterations (at least one), on every well-formed instance
with at least two projects, at least two teams, different numbers of them and a non-zero damping rate if damping is on, the
two programs return the same outputs, as long as no message to a team of the textbook algorithm exceeds 1000000 up to then.
Missing for the full claim: the other instances, where the programs differ (`C36_claim_false`, `C36_team_limit_differs`,
`C36_zero_rate_differs`). -/
theorem C36_kc_run_partial (h : KcOk inp wf cap w R) (hfa : inp.flag = true → inp.alpha ≠ 0) (hP : 2 ≤ inp.numProjects)
    (hT : 2 ≤ inp.numTeams) (hne : inp.numProjects ≠ inp.numTeams) {A : Mat Num} {a0 : ℕ → ℕ → ℚ}
    (hA : A.Is inp.numDepartments inp.numTeams a0) {a raw o y e : ℕ → ℕ → ℕ → ℚ} {c : ℕ → ℕ → ℚ}
    (ht : IsKcTrace inp.numDepartments inp.numTeams inp.numProjects wf cap w R inp.flag inp.alpha none a0 a raw o y e c) {K : ℕ}
    (hK : ∀ j ≤ K, ∀ t < inp.numTeams, c j t ≤ 1000000) :
    ∃ pext pintr ext intr, pyKcSolve inp A (K + 1) = some (pext, pintr) ∧ kcSolve inp A (K + 1) = some (ext, intr) ∧
      SameArr inp.numTeams pext ext ∧ pintr.rows = inp.numProjects ∧ pintr.cols = inp.numTeams ∧
      intr.size = inp.numProjects * inp.numTeams ∧
      ∀ p < inp.numProjects, ∀ t < inp.numTeams, pintr.data p t = intr.data (p * inp.numTeams + t) := by
  obtain ⟨a1, raw1, o1, y1, e1, c1, t1, r1⟩ := Proofs.pyKc_run h hfa hP hT hne hA
  obtain ⟨a2, raw2, o2, y2, e2, c2, t2, -, r2⟩ := Proofs.kc_run h hA
  obtain ⟨pext, pintr, p1, p2, p3⟩ := r1 K
  obtain ⟨ext, intr, q1, q2, q3, q4⟩ := r2 K
  have hu := Proofs.kcTrace_unique t1 ht
  have hK' : ∀ j ≤ K, ∀ t < inp.numTeams, c1 j t ≤ 1000000 := fun j hj t htt => by
    rw [(hu j).2.2 t htt]; exact hK j hj t htt
  have hl := Proofs.kcTrace_limit t1 t2 hK'
  refine ⟨pext, pintr, ext, intr, p1, q1, ⟨p2.1, q2.1, fun t htt => ?_⟩, p3.1, p3.2.1, q3, fun p hp t htt => ?_⟩
  · rw [p2.2 t htt, q2.2 t htt]
    simp only [(hl K le_rfl).2.2 t htt]
    congr 2
    refine Finset.sum_congr rfl fun d hd => Proofs.damped_congr fun i hi => ?_
    have := Proofs.mem_depts.mp hd
    exact ((hl i hi).1 d this.1 t htt this.2).2
  · rw [p3.2.2 p hp t htt, q4 p hp t htt]
    simp only [((hl K le_rfl).2.1 p hp t htt).2.1, ((hl K le_rfl).2.1 p hp t htt).2.2]

end

/-- C36, clause constraints of the k-SAT solver: the two updates agree on every formula. -/
theorem C36_clause_agrees {C k n : ℕ} {conx : Mat ℕ} {ty : Mat ℤ} {V old : Mat Num} {x : ℕ → ℕ → ℚ} (hV : V.Is C n x)
    (ht : ClauseTables C k n conx ty) (hr : old.rows = C) (hc : old.cols = n) :
    AgreeMat C n (pyKsatUpdate C n V conx ty) (ksatToVariableUpdate C k V old conx ty) :=
  Proofs.pyKsatUpdate_agree hV ht hr hc

/-- C36, whole runs of the k-SAT solver: for every number of iterations, on every well-formed formula with at least two
literals per clause, the two programs return the same outputs. -/
theorem C36_ksat_run {inp : KsatInputs} {w : ℕ → ℚ} (ht : ClauseTables inp.numConstraints inp.k inp.numVars inp.conx inp.conxType)
    (hco : ConnectionsOk inp.numConstraints inp.k inp.numVars inp.conx inp.used inp.conns) (hw : inp.cost.Is inp.numVars w)
    (hk : 2 ≤ inp.k) (hfa : inp.flag = true → inp.alpha ≠ 0) {V : Mat Num} {x0 : ℕ → ℕ → ℚ}
    (hV : V.Is inp.numConstraints inp.numVars x0) (K : ℕ) :
    AgreeArr inp.numVars (pyKsatSolve inp V K) (ksatSolve inp V K) := Proofs.pyKsatSolve_agree ht hco hw hk hfa hV K

/-- C36, degree constraints of the TSP solver: the two updates agree whenever at least two edges leave and at least two
edges enter every node. -/
theorem C36_degree_agrees {n E : ℕ} {edges : List (ℕ × ℕ)} {M : Mat Num} {x : ℕ → ℕ → ℚ} (hok : EdgesOk n edges) (hE : edges.length = E)
    (h2 : TwoWays n edges) (hM : M.Is E n x) : AgreeMat E n (pyDegreeUpdate n E M edges) (degreeUpdate n E M edges (Mat.fill E n 0)) :=
  Proofs.pyDegreeUpdate_agree hok hE h2 hM rfl rfl (fun _ _ _ _ _ _ => rfl)

/-- C36, cut constraints of the TSP solver: the two updates agree whenever every cut has at least two edges. -/
theorem C36_cut_agrees {C E : ℕ} {deltas : List (List ℕ)} (hC : deltas.length = C) (hd : CutsOk E deltas) {y : ℕ → ℕ → ℚ} {Y : Mat Num}
    (hY : Y.Is C E y) : AgreeMat C E (pySubtourUpdate E Y deltas) (subtourUpdate E Y deltas (Mat.fill C E 0)) :=
  Proofs.pySubtourUpdate_agree hC hd hY rfl rfl (fun _ _ _ _ _ => rfl)

section
variable {inp : TspInputs} {w : ℕ → ℚ} {c : ℕ → ℕ → ℚ}

/-- The Python program's state before the relaxed run. -/
def pyTspStart (inp : TspInputs) (e2d : Mat Num) : PyTspState := ⟨e2d, none, none, ⟨0, inp.numEdges, fun _ _ => 0⟩, none⟩

/-- C36, relaxed run of the TSP solver: for every number of iterations (at least one) both programs return the same
intrinsic outputs, and end with the same messages. -/
theorem C36_tsp_relaxed_run (h : TspOk inp w c) (hfa : inp.flag = true → inp.alpha ≠ 0) {e2d : Mat Num} {x0 : ℕ → ℕ → ℚ}
    (he : e2d.Is inp.numEdges inp.numNodes x0) (K : ℕ) :
    ∃ m' p' ext intr pintr, tspRelaxed inp (K + 1) (tspInit inp e2d) (Arr.fill inp.numEdges 0, Arr.fill inp.numEdges 0) = some (m', ext, intr) ∧
      pyTspRelaxed inp (K + 1) (pyTspStart inp e2d) = some (p', pintr) ∧
      SameArr inp.numEdges pintr intr ∧ TspMsgsOk inp [] m' ∧ TspAlike inp [] m' p' :=
  Proofs.pyTspRelaxed_agree h hfa (Proofs.tspInit_ok he) ⟨⟨_, he⟩, fun _ _ _ _ => rfl, rfl, rfl, rfl, rfl,
    fun k hk => absurd hk (Nat.not_lt_zero k)⟩ K rfl rfl

/-- C36, augmented run of the TSP solver: started from the same messages with at least one cut, both programs return the
same intrinsic outputs after every number of iterations (at least one), and end with the same messages. -/
theorem C36_tsp_augmented_run (h : TspOk inp w c) (hfa : inp.flag = true → inp.alpha ≠ 0) {deltas : List (List ℕ)}
    (hd : CutsOk inp.numEdges deltas) (hne : deltas ≠ []) {C : ℕ → ℕ → ℚ} (hC : inp.costMatrix.Is inp.numNodes inp.numNodes C)
    (reset : Bool) {m : TspMsgs} {p : PyTspState} (hm : TspMsgsOk inp deltas m) (ha : TspAlike inp deltas m p) (K : ℕ)
    {o : Arr Num × Arr Num} (ho1 : o.1.size = inp.numEdges) (ho2 : o.2.size = inp.numEdges) :
    ∃ m' p' ext intr pintr, tspAugmented inp reset deltas (K + 1) m o = some (m', ext, intr) ∧
      pyTspAugmented inp reset deltas (K + 1) p = some (p', pintr) ∧
      SameArr inp.numEdges pintr intr ∧ TspMsgsOk inp deltas m' ∧ TspAlike inp deltas m' p' :=
  Proofs.pyTspAugmented_agree h hfa hd hne hC reset hm ha K ho1 ho2

/-- C36, between runs: adding cuts keeps the messages of the two TSP programs the same. -/
theorem C36_tsp_new_cuts {deltas : List (List ℕ)} {m : TspMsgs} {p : PyTspState} (ha : TspAlike inp deltas m p) (more : List (List ℕ)) :
    TspAlike inp (deltas ++ more) (tspAddCuts more.length m) (pyTspAddCuts more.length p) := Proofs.pyTspAddCuts_alike ha more

end

/-- Two iterations of the Python assignment solver on the instance of C11, with the same outputs as the C++ program. -/
example : (pyKcSolve c11Inputs (Mat.fill 2 3 0) 2).map (fun r => ((List.range 3).map r.1.data, (List.range 2).map (fun p => (List.range 3).map (r.2.data p)))) =
    some ([fin 4, fin (11 / 2), fin 6], [[0, 0, fin 2], [fin 1, fin 1, fin 2]]) := by decide +kernel

example : c11Inputs.numProjects = 2 ∧ c11Inputs.numTeams = 3 ∧ c11Inputs.flag = true ∧ c11Inputs.alpha ≠ 0 := by decide +kernel

/-- One department of that instance. -/
example : (pyKnapMessages 3 3 (Arr.ofList [2, 2, 0]) (Arr.ofList [fin (-5), fin (-7), fin 0])).map (fun r => (List.range 3).map r.data) =
    some [fin 7, fin 5, fin 0] := by decide +kernel

/-- Two iterations of the Python k-SAT solver on the formula of C13. -/
example : (pyKsatSolve c13Inputs c13Start 2).map (fun o => (List.range 3).map o.data) = some [fin (-5), fin 2, fin 0] := by
  decide +kernel

/-- Two iterations of the Python TSP solver on the instance of C12. -/
example : (pyTspRelaxed c12Inputs 2 (pyTspStart c12Inputs c12Inputs.degCost)).map (fun r => (List.range 6).map r.2.data) =
    some [fin (-3 / 2), fin (3 / 2), fin (3 / 2), fin (-3 / 2), fin (-3 / 2), fin (3 / 2)] := by decide +kernel

/-- One augmented iteration with the cut of edges leaving node 0. -/
example : (pyTspAugmented c12Inputs true [[0, 1]] 1 (pyTspAddCuts 1 (pyTspStart c12Inputs c12Inputs.degCost))).map
    (fun r => (List.range 6).map r.2.data) = some [fin (-3 / 2), fin 1, fin 1, fin (-1), fin (-1), fin 1] := by decide +kernel

end Verif.Properties
