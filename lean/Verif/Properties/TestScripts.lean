import Verif.Proofs.TestFiles

namespace Verif.Properties
open Verif Model Spec Proofs

/-! C105: what the unit-test scripts compare (test/src/unit_test_kc_mwm.sh, unit_test_tsp.sh, unit_test_ksat.sh). -/

/-- The native program of every test finds what it needs: the variables it looks up are exported by the script, and once the Python program has run to its
end each file it opens holds what the Python program wrote in the same sub-test, whatever was in the folders before. -/
theorem C105_reads {α : Type} {sc : Script} (hsc : Shipped sc) {ut : String} (hut : ut ∈ sc.tests) {s : SubTest α} (hs : s.pyStops = none) (f : Folders α) :
    (∀ v ∈ (sc.native ut).env, v ∈ sc.exported) ∧
      (sc.native ut).reads.mapM (runPython (sc.saves ut) s f).inputs.get = some ((sc.native ut).reads.map (s.pyWrites false)) := by
  have hf := facts_shipped hsc hut
  refine ⟨hf.env, ?_⟩
  rw [runPython_eq, hs]
  apply mapM_get
  intro n hn
  rw [get_putAll, if_pos]
  exact hf.reads n hn

/-- A world in which both programs write the name of the file and whether it is an input. -/
def plainTest (pyStops natStops : Option ℕ) (k : ℕ) : SubTest (String × ℕ) := ⟨pyStops, fun _ n => (n, k), natStops, fun _ n => (n, k)⟩

example : (ksatScript.native "KsatConstraint2VariableEcUpdate").reads.mapM
    (runPython (ksatScript.saves "KsatConstraint2VariableEcUpdate") (plainTest none none 1) ⟨[], []⟩).inputs.get =
      some ((ksatScript.native "KsatConstraint2VariableEcUpdate").reads.map (fun n => (n, 1))) ∧
    (ksatScript.native "KsatConstraint2VariableEcUpdate").reads ≠ [] := by
  decide +kernel

/-- A driver that dies before it has saved its inputs leaves the native program without them. -/
example : (ksatScript.native "KsatConstraint2VariableEcUpdate").reads.mapM
    (runPython (ksatScript.saves "KsatConstraint2VariableEcUpdate") (plainTest (some 1) none 1) ⟨[], []⟩).inputs.get = none := by
  decide +kernel

/-- The claim: a report compares files of its own sub-test. -/
def C105_fresh_claim : Prop :=
  ∀ (α : Type) (sc : Script), Shipped sc → ∀ (agree : List (α × α) → Option Bool) (total : ℕ) (world : String → ℕ → SubTest α),
    ∀ t ∈ (runScript sc agree total world ⟨[], []⟩).1, Fresh (sc.native t.1).reads (world t.1 t.2.1) t.2.2

/-- In the second sub-test both programs die at once. -/
def dyingWorld (_ : String) (i : ℕ) : SubTest (String × ℕ) := if i = 2 then plainTest (some 0) (some 0) 2 else plainTest none none i

def sameNumber (l : List ((String × ℕ) × (String × ℕ))) : Option Bool := some (l.all (fun p => p.1.2 == p.2.2))

/-- The results are only removed after the last sub-test: if both programs die in the second one, the files of the first are compared again, and `PASSED` is
printed for the second. -/
theorem C105_fresh_claim_false : ¬ C105_fresh_claim := by
  intro h
  have h1 : ∃ t ∈ (runScript ksatScript sameNumber 2 dyingWorld ⟨[], []⟩).1, t.2.1 = 2 ∧ t.2.2.passed = true ∧
      ∃ q ∈ t.2.2.files, q.1.2.2 = 1 := by
    decide +kernel
  obtain ⟨⟨ut, i, x⟩, ht, h2, _, q, hq, h3⟩ := h1
  have := (h _ ksatScript (.inr (.inr rfl)) sameNumber 2 dyingWorld _ ht q hq).1
  simp only at h2
  subst h2
  rw [this] at h3
  simp [dyingWorld, plainTest] at h3

/-- With one sub-test for each test (`total_sub_tests=1`, line 9 of each script as shipped) or for a sub-test in which neither program
dies, a report compares files of its own sub-test. -/
theorem C105_fresh_partial {α : Type} {sc : Script} (hsc : Shipped sc) {agree : List (α × α) → Option Bool} {total : ℕ} {world : String → ℕ → SubTest α}
    {ut : String} {i : ℕ} {x : Report α} (h : (ut, i, x) ∈ (runScript sc agree total world ⟨[], []⟩).1) (hs : total = 1 ∨ Finishes (world ut i)) :
    Fresh (sc.native ut).reads (world ut i) x := by
  obtain ⟨hu, hx⟩ := runTests_mem h
  have hf := facts_shipped hsc hu
  obtain ⟨f', hk, hx', he⟩ := subTests_mem (known_empty _ _) hx
  rcases hs with rfl | hs
  · have hi : i = 1 := by
      rw [show (List.range 1).map (· + 1) = [1] from rfl] at hx
      unfold runSubTests at hx
      simp only [runSubTests, List.append_nil, List.mem_map, Prod.mk.injEq] at hx
      obtain ⟨_, _, hi, _⟩ := hx
      exact hi.symm
    subst hi
    rw [he rfl] at hx'
    exact fresh_empty hf hx'
  · exact fresh_finished hf hs hk hx'

example : ∃ t ∈ (runScript ksatScript sameNumber 2 dyingWorld ⟨[], []⟩).1, t.1 = "Iterate" ∧ t.2.1 = 1 ∧ t.2.2.passed = true ∧ t.2.2.files.length = 1 := by
  decide +kernel

example : Finishes (dyingWorld "Iterate" 1) := by
  simp [Finishes, dyingWorld, plainTest]

/-- Nothing is left out: if neither program dies in a sub-test and the comparison raises nothing, each result that the Python program saves is in a report of
that sub-test, compared with the file of the native program that has `wrapper` for `pure` in its name. -/
theorem C105_complete {α : Type} {sc : Script} (hsc : Shipped sc) {agree : List (α × α) → Option Bool} (ha : ∀ l, l ≠ [] → (agree l).isSome) {total : ℕ}
    {world : String → ℕ → SubTest α} {ut : String} (hut : ut ∈ sc.tests) {i : ℕ} (hi : 1 ≤ i) (hi' : i ≤ total) (hs : Finishes (world ut i)) {p : String}
    (hp : PySave.result p ∈ sc.saves ut) :
    ∃ x, (ut, i, x) ∈ (runScript sc agree total world ⟨[], []⟩).1 ∧ ∃ q ∈ x.files, q.1 = (p, (world ut i).pyWrites true p) ∧
      q.2.1.toList = replacePure p.toList ∧ q.2.2 = (world ut i).natWrites ((sc.native ut).reads.map ((world ut i).pyWrites false)) q.2.1 := by
  have hf := facts_shipped hsc hut
  have hm : i ∈ (List.range total).map (· + 1) := by
    rw [List.mem_map]
    exact ⟨i - 1, List.mem_range.mpr (by omega), by omega⟩
  obtain ⟨f', hk, hall⟩ := subTests_has (agree := agree) (world := world ut) (known_empty (sc.saves ut) (sc.native ut)) hm
  have hp' : p ∈ outNames (sc.saves ut) := by
    unfold outNames
    rw [List.mem_filterMap]
    exact ⟨_, hp, rfl⟩
  obtain ⟨x, hx, q, hq, h1, h2⟩ := complete_step (agree := agree) ha hf hs hk hp'
  have hfr := fresh_finished hf hs hk hx q hq
  refine ⟨x, runTests_has hut (hall x hx), q, hq, ?_, h2, hfr.2⟩
  rw [← h1]
  exact Prod.ext rfl hfr.1

/-- Three departments: three files of the forward messages in one report. -/
example : ∃ t ∈ (runScript (kcScript 3) sameNumber 1 dyingWorld ⟨[], []⟩).1, t.1 = "KnapsackForward" ∧ t.2.2.files.length = 3 ∧
    ∃ q ∈ t.2.2.files, q.1 = ("forward_pure2", "forward_pure2", 1) ∧ q.2 = ("forward_wrapper2", "forward_wrapper2", 1) := by
  decide +kernel

example : PySave.result "forward_pure2" ∈ (kcScript 3).saves "KnapsackForward" := by
  decide +kernel

/-- A report says what the comparison says of its files, and there is no report about no files. -/
theorem C105_verdict {α : Type} {sc : Script} {agree : List (α × α) → Option Bool} {total : ℕ} {world : String → ℕ → SubTest α} {ut : String} {i : ℕ}
    {x : Report α} (h : (ut, i, x) ∈ (runScript sc agree total world ⟨[], []⟩).1) :
    x.files ≠ [] ∧ agree (x.files.map (fun q => (q.1.2, q.2.2))) = some x.passed := by
  obtain ⟨_, hx⟩ := runTests_mem h
  obtain ⟨f', _, hx', _⟩ := subTests_mem (known_empty _ _) hx
  unfold runSubTest runCompare at hx'
  simp only at hx'
  split at hx'
  · simp at hx'
  · obtain ⟨h1, h2, _⟩ := report_files hx'
    exact ⟨h2, h1⟩

/-- The claim: the exit status tells whether the tests passed. -/
def C105_status_claim : Prop :=
  ∀ (α : Type) (sc : Script), Shipped sc → ∀ (agree : List (α × α) → Option Bool) (world : String → ℕ → SubTest α),
    (runScript sc agree 1 world ⟨[], []⟩).2 = true → ∀ t ∈ (runScript sc agree 1 world ⟨[], []⟩).1, t.2.2.passed = true

/-- The Python programs run to their ends, the comparisons all fail, and the script ends with status 0. -/
theorem C105_status_claim_false : ¬ C105_status_claim := by
  intro h
  have h1 : (runScript ksatScript (fun _ => some false) 1 dyingWorld ⟨[], []⟩).2 = true ∧
      ∃ t ∈ (runScript ksatScript (fun _ => some false) 1 dyingWorld ⟨[], []⟩).1, t.2.2.passed = false := by
    decide +kernel
  obtain ⟨h2, t, ht, h3⟩ := h1
  rw [h _ ksatScript (.inr (.inr rfl)) _ _ h2 t ht] at h3
  simp at h3

theorem last_saves {sc : Script} (hsc : Shipped sc) : ∃ uts ut p, sc.tests = uts ++ [ut] ∧ p ∈ outNames (sc.saves ut) := by
  rcases hsc with ⟨D, rfl⟩ | rfl | rfl
  · refine ⟨["Oric2TeamUpdate", "Oric2ProjectEcUpdate", "ExtrinsicOutputTeamUpdate", "IntrinsicOutMwmUpdate", "TeamEc2OricUpdate", "ProjectEqConst2OricUpdate",
      "ProjectInequalityConstraintUpdate", "KnapsackForward", "KnapsackBackward", "ExtrinsicOutputDepartment", "Team2KnapsackUpdate",
      "ProcessExtrinsicOutputDepartment", "Iterate"], "IterateSampleGraph", "extrinsic_output_team_pure", rfl, ?_⟩
    rw [show (kcScript D).saves "IterateSampleGraph" = pyUtSampleKc from by simp [kcScript, pyKcSaves]]
    decide +kernel
  · exact ⟨tspScript.tests.dropLast, "IterateAugmentedGraph", "intrinsic_out_edge_ec_pure", by decide +kernel, by decide +kernel⟩
  · exact ⟨ksatScript.tests.dropLast, "Iterate", "extrinsic_out_variable_ec_pure", by decide +kernel, by decide +kernel⟩

/-- What the exit status does tell: it is 0 as soon as the Python program of the last test has run to its end in some sub-test, whatever the native programs did
and the comparisons said. -/
theorem C105_status {α : Type} {sc : Script} (hsc : Shipped sc) {agree : List (α × α) → Option Bool} {total : ℕ} {world : String → ℕ → SubTest α} {i : ℕ}
    (hi : 1 ≤ i) (hi' : i ≤ total) {ut : String} (hut : sc.tests.getLast? = some ut) (hs : (world ut i).pyStops = none) :
    (runScript sc agree total world ⟨[], []⟩).2 = true := by
  obtain ⟨uts, ut', p, he, hp⟩ := last_saves hsc
  have hue : ut' = ut := by
    rw [he] at hut
    simpa using hut
  subst hue
  unfold runScript
  rw [he, runTests_status]
  have hm : i ∈ (List.range total).map (· + 1) := by
    rw [List.mem_map]
    exact ⟨i - 1, List.mem_range.mpr (by omega), by omega⟩
  have := results_left (agree := agree) (world := world ut') (f := ⟨[], []⟩) hm hs hp
  cases h : (runSubTests sc agree ut' (world ut') ((List.range total).map (· + 1)) ⟨[], []⟩).1.results with
  | nil => rw [h] at this; simp at this
  | cons a l => rfl

/-- Without any result of the last test the status is not 0. -/
example : (runScript ksatScript sameNumber 1 (fun ut _ => plainTest (if ut = "Iterate" then some 0 else none) none 1) ⟨[], []⟩).2 = false := by
  decide +kernel

end Verif.Properties
