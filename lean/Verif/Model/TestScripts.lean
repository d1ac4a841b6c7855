import Verif.Arr

/-!
Model of the three scripts that run the unit tests, /repo/test/src/unit_test_{kc_mwm,tsp,ksat}.sh, and of the files that their programs exchange: the
drivers in /repo/test/python_*/test, the native tests in /repo/test/include/ut_*.hpp with their `main` in /repo/test/src, and the comparisons in
ut_methods_utils.py.  What is in the files is a parameter (the contents are the subject of C82, C100 and C102): here it matters who writes which file
when, who reads it and what is reported.  Simplifications: folders can be created and files written; names of files that start with a dot (which
`rm ../ut_inputs/*` keeps) do not occur; files listed by `os.listdir` come in the order of the model's folder.
-/

namespace Verif.Model
open Verif

/-- A folder: names and contents of its files. -/
abbrev Folder (α : Type) := List (String × α)

/-- The content of a file, `none` if there is no such file. -/
def Folder.get {α : Type} (f : Folder α) (n : String) : Option α := (f.find? (fun p => p.1 == n)).map Prod.snd

/-- Writing a file replaces an old one. -/
def Folder.put {α : Type} (f : Folder α) (n : String) (a : α) : Folder α := (n, a) :: f.filter (fun p => p.1 != n)

/-- The folders `../ut_inputs` and `../ut_results`. -/
structure Folders (α : Type) where
  inputs : Folder α
  results : Folder α

/-- A call of `np.save`: with a path in `../ut_inputs`, or with an open file in `../ut_results`. -/
inductive PySave where
  | input (path : String)
  | result (name : String)
deriving DecidableEq

/-- `np.save` adds `.npy` to a path that does not end with it. -/
def npSaveName (n : String) : String := if ".npy".toList.isSuffixOf n.toList then n else n ++ ".npy"

/-- What a native test uses: environment variables, the files it loads and, after that, the files it writes. -/
structure NativeIo where
  env : List String
  reads : List String
  writes : List String

/-- What ut_methods_utils.py compares: pairs of files, one report each; or all files whose name starts with `pure`, in one report, with the files whose
names have `wrapper` in front of the same number. -/
inductive Compared where
  | pairs (l : List (String × String))
  | listed (pure wrapper : String)

/-! ### The assignment program -/

/-- python_kc_mwm/test/ut_update_or_inequality_constraint.py:13-59 `ut_oric`. -/
def pyUtOric (ut : String) : List PySave :=
  [.input "N_TEAMS_pure.npy", .input "reward_project_pure.npy", .input "eq_constraint_to_oric_m_pure.npy"] ++
    (if ut = "Oric2TeamUpdate" then [.result "oric_to_team_m_pure"]
      else if ut = "Oric2ProjectEcUpdate" then
        [.input "team_to_oric_m_pure.npy", .result "oric_to_eq_constraint_m_pure", .result "eq_constraint_to_project_m_pure"]
      else [])

/-- python_kc_mwm/test/ut_input_output.py:13-63 `ut_io`. -/
def pyUtIoKc (ut : String) : List PySave :=
  [.input "reward_project_pure.npy", .input "N_TEAMS_pure.npy"] ++
    (if ut = "ExtrinsicOutputTeamUpdate" then
        [.input "extrinsic_output_department_pure.npy", .input "oric_to_team_m_pure.npy", .result "extrinsic_output_team_pure"]
      else if ut = "IntrinsicOutMwmUpdate" then
        [.input "oric_to_eq_constraint_m_pure.npy", .input "project_to_eq_constraint_m_pure.npy", .result "intrinsic_out_mwm_pure"]
      else [])

/-- python_kc_mwm/test/ut_update_equality_constraint.py:13-55 `ut_eq_consraint`. -/
def pyUtEqKc (ut : String) : List PySave :=
  [.input "N_TEAMS_pure.npy", .input "reward_project_pure.npy", .input "reward_team_pure.npy"] ++
    (if ut = "TeamEc2OricUpdate" then [.input "extrinsic_output_department_pure", .result "team_to_oric_m_pure"]
      else if ut = "ProjectEqConst2OricUpdate" then [.input "project_to_eq_constraint_m_pure.npy", .result "eq_constraint_to_oric_m_pure"]
      else [])

/-- python_kc_mwm/test/ut_project_inequality_constraint.py:13-33 `ut_project_ineq_constraint`. -/
def pyUtProject (ut : String) : List PySave :=
  [.input "N_TEAMS_pure.npy", .input "eq_constraint_to_project_m_pure.npy"] ++
    (if ut = "ProjectInequalityConstraintUpdate" then [.result "project_to_eq_constraint_m_pure"] else [])

/-- python_kc_mwm/test/ut_knapsack.py:13-95 `ut_forward_backward` with `D` departments. -/
def pyUtForwardBackward (ut : String) (D : ℕ) : List PySave :=
  [.input "alpha.npy", .input "N_TEAMS_pure.npy", .input "non_zero_weight_indices_sizes_pure.npy", .input "teams_weights_per_department_pure",
    .input "non_zero_weight_indices_arr_pure.npy", .input "team_to_knapsack_m_pure.npy"] ++
    (List.range D).flatMap (fun d => (if ut = "KnapsackForward" then [.result ("forward_pure" ++ toString d)] else []) ++
      (if ut = "KnapsackBackward" then [.result ("backward_pure" ++ toString d)] else []))

/-- python_kc_mwm/test/ut_knapsack.py:97-156 `ut_extrinsic_output_department`. -/
def pyUtOutput (D : ℕ) : List PySave :=
  [.input "alpha.npy", .input "N_TEAMS_pure.npy", .input "teams_weights_per_department_pure", .input "team_to_knapsack_m_pure.npy"] ++
    (List.range D).flatMap (fun d => [.input ("stage_forward_messages" ++ toString d ++ ".npy"), .input ("stage_backward_messages" ++ toString d ++ ".npy")]) ++
    [.result "extrinsic_output_department_pure"]

/-- python_kc_mwm/test/ut_knapsack.py:158-225 `ut_team_to_knapsack_update`. -/
def pyUtTeamToKnapsack : List PySave :=
  [.input "alpha.npy", .input "N_TEAMS_pure.npy", .input "non_zero_weight_indices_sizes_pure.npy", .input "non_zero_weight_indices_arr_pure.npy",
    .input "team_to_knapsack_m_pure.npy", .input "reward_team_pure.npy", .input "extrinsic_output_department_pure.npy", .input "oric_to_team_m_pure.npy",
    .result "team_to_knapsack_m_pure"]

/-- python_kc_mwm/test/ut_knapsack.py:227-262 `ut_process_extrinsic_output_department`. -/
def pyUtProcess : List PySave :=
  [.input "alpha.npy", .input "N_TEAMS_pure.npy", .input "extrinsic_output_department_dummy_pure.npy", .result "extrinsic_output_department_pure"]

/-- python_kc_mwm/test/ut_graphical_model.py:43-118 `ut_iterate`. -/
def pyUtIterateKc : List PySave :=
  [.input "alpha.npy", .input "N_TEAMS_pure.npy", .input "non_zero_weight_indices_sizes_pure.npy", .input "teams_weights_per_department_pure",
    .input "non_zero_weight_indices_arr_pure.npy", .input "team_to_knapsack_m_pure.npy", .input "reward_team_pure.npy", .input "reward_project_pure.npy",
    .input "max_state_py.npy", .result "extrinsic_output_team_pure", .result "intrinsic_out_mwm_pure"]

/-- python_kc_mwm/test/ut_graphical_model.py:121-208 `ut_iterate_sample_graph`. -/
def pyUtSampleKc : List PySave :=
  [.input "N_PROJECTS_pure.npy", .input "N_DEPARTMENTS_pure.npy"] ++ pyUtIterateKc

/-- python_kc_mwm/test/impalib_unit_tests.py:51-160: the test of a given name.  An unknown name does nothing. -/
def pyKcSaves (ut : String) (D : ℕ) : List PySave :=
  if ut = "Oric2TeamUpdate" ∨ ut = "Oric2ProjectEcUpdate" then pyUtOric ut
  else if ut = "ExtrinsicOutputTeamUpdate" ∨ ut = "IntrinsicOutMwmUpdate" then pyUtIoKc ut
  else if ut = "TeamEc2OricUpdate" ∨ ut = "ProjectEqConst2OricUpdate" then pyUtEqKc ut
  else if ut = "ProjectInequalityConstraintUpdate" then pyUtProject ut
  else if ut = "KnapsackForward" ∨ ut = "KnapsackBackward" then pyUtForwardBackward ut D
  else if ut = "ExtrinsicOutputDepartment" then pyUtOutput D
  else if ut = "Team2KnapsackUpdate" then pyUtTeamToKnapsack
  else if ut = "ProcessExtrinsicOutputDepartment" then pyUtProcess
  else if ut = "Iterate" then pyUtIterateKc
  else if ut = "IterateSampleGraph" then pyUtSampleKc
  else []

/-- include/ut_update_or_inequality_constraint.hpp:14-88 `ut_oric`. -/
def natUtOric (ut : String) : NativeIo :=
  ⟨["N_DEPARTMENTS", "N_PROJECTS"],
    ["N_TEAMS_pure.npy", "eq_constraint_to_oric_m_pure.npy", "reward_project_pure.npy"] ++ (if ut = "Oric2ProjectEcUpdate" then ["team_to_oric_m_pure.npy"] else []),
    if ut = "Oric2TeamUpdate" then ["oric_to_team_m_wrapper"]
    else if ut = "Oric2ProjectEcUpdate" then ["oric_to_eq_constraint_m_wrapper", "eq_constraint_to_project_m_wrapper"] else []⟩

/-- include/ut_input_output.hpp:13-96 `ut_input_output_kc_mwm`. -/
def natUtIoKc (ut : String) : NativeIo :=
  ⟨["N_DEPARTMENTS", "N_PROJECTS"],
    ["N_TEAMS_pure.npy", "reward_project_pure.npy"] ++
      (if ut = "ExtrinsicOutputTeamUpdate" then ["extrinsic_output_department_pure.npy", "oric_to_team_m_pure.npy"]
        else if ut = "IntrinsicOutMwmUpdate" then ["oric_to_eq_constraint_m_pure.npy", "project_to_eq_constraint_m_pure.npy"] else []),
    if ut = "ExtrinsicOutputTeamUpdate" then ["extrinsic_output_team_wrapper"]
    else if ut = "IntrinsicOutMwmUpdate" then ["intrinsic_out_mwm_wrapper"] else []⟩

/-- include/ut_update_equality_constraint.hpp:11-90 `ut_eq_constraint_kc_mwm`. -/
def natUtEqKc (ut : String) : NativeIo :=
  ⟨["N_DEPARTMENTS", "N_PROJECTS"],
    ["N_TEAMS_pure.npy", "reward_project_pure.npy", "reward_team_pure.npy"] ++
      (if ut = "TeamEc2OricUpdate" then ["extrinsic_output_department_pure.npy"]
        else if ut = "ProjectEqConst2OricUpdate" then ["project_to_eq_constraint_m_pure.npy"] else []),
    if ut = "TeamEc2OricUpdate" then ["team_to_oric_m_wrapper"]
    else if ut = "ProjectEqConst2OricUpdate" then ["eq_constraint_to_oric_m_wrapper"] else []⟩

/-- include/ut_project_inequality_constraint.hpp:11-53 `ut_project_ineq_constraint`. -/
def natUtProject (ut : String) : NativeIo :=
  ⟨["N_DEPARTMENTS", "N_PROJECTS"], ["N_TEAMS_pure.npy"] ++ (if ut = "ProjectInequalityConstraintUpdate" then ["eq_constraint_to_project_m_pure.npy"] else []),
    if ut = "ProjectInequalityConstraintUpdate" then ["project_to_eq_constraint_m_wrapper"] else []⟩

/-- include/ut_knapsack.hpp:17-107 `ut_forward_backward`. -/
def natUtForwardBackward (ut : String) (D : ℕ) : NativeIo :=
  ⟨["FILT_FLAG", "Nu"],
    ["alpha.npy", "N_TEAMS_pure.npy", "non_zero_weight_indices_sizes_pure.npy", "teams_weights_per_department_pure.npy",
      "non_zero_weight_indices_arr_pure.npy", "team_to_knapsack_m_pure.npy"],
    (List.range D).flatMap (fun d => (if ut = "KnapsackForward" then ["forward_wrapper" ++ toString d] else []) ++
      (if ut = "KnapsackBackward" then ["backward_wrapper" ++ toString d] else []))⟩

/-- include/ut_knapsack.hpp:109-181 `ut_extrinsic_output_department`. -/
def natUtOutput (D : ℕ) : NativeIo :=
  ⟨["FILT_FLAG", "Nu"],
    ["alpha.npy", "N_TEAMS_pure.npy", "teams_weights_per_department_pure.npy", "team_to_knapsack_m_pure.npy"] ++
      (List.range D).flatMap (fun d => ["stage_forward_messages" ++ toString d ++ ".npy", "stage_backward_messages" ++ toString d ++ ".npy"]),
    ["extrinsic_output_department_wrapper"]⟩

/-- include/ut_knapsack.hpp:183-256 `ut_team_to_knapsack_update`. -/
def natUtTeamToKnapsack : NativeIo :=
  ⟨["FILT_FLAG", "Nu"],
    ["alpha.npy", "N_TEAMS_pure.npy", "non_zero_weight_indices_sizes_pure.npy", "non_zero_weight_indices_arr_pure.npy", "reward_team_pure.npy",
      "extrinsic_output_department_pure.npy", "oric_to_team_m_pure.npy"],
    ["team_to_knapsack_m_wrapper"]⟩

/-- include/ut_knapsack.hpp:258-313 `ut_process_extrinsic_output_department`. -/
def natUtProcess : NativeIo :=
  ⟨["FILT_FLAG", "N_ITER", "Nu"], ["alpha.npy", "N_TEAMS_pure.npy", "extrinsic_output_department_dummy_pure.npy"], ["extrinsic_output_department_wrapper"]⟩

/-- include/ut_graphical_model.hpp:15-92 `ut_iterate_kc_mwm`. -/
def natUtIterateKc : NativeIo :=
  ⟨["N_PROJECTS", "FILT_FLAG", "N_ITER", "Nu"],
    ["alpha.npy", "N_TEAMS_pure.npy", "non_zero_weight_indices_sizes_pure.npy", "reward_team_pure.npy", "team_to_knapsack_m_pure.npy",
      "teams_weights_per_department_pure.npy", "non_zero_weight_indices_arr_pure.npy", "reward_project_pure.npy", "max_state_py.npy"],
    ["extrinsic_output_team_wrapper", "intrinsic_out_mwm_wrapper"]⟩

/-- include/ut_graphical_model.hpp:94-167 `ut_iterate_sample_graph_kc_mwm`. -/
def natUtSampleKc : NativeIo :=
  ⟨["FILT_FLAG", "N_ITER"],
    ["N_PROJECTS_pure.npy", "N_DEPARTMENTS_pure.npy", "alpha.npy", "N_TEAMS_pure.npy", "non_zero_weight_indices_sizes_pure.npy", "reward_team_pure.npy",
      "team_to_knapsack_m_pure.npy", "teams_weights_per_department_pure.npy", "non_zero_weight_indices_arr_pure.npy", "reward_project_pure.npy",
      "max_state_py.npy"],
    ["extrinsic_output_team_wrapper", "intrinsic_out_mwm_wrapper"]⟩

/-- src/impalib_unit_tests_kc_mwm.cpp:12-58 `main`, apart from `test_name` itself.  Every name occurs in one condition only. -/
def natKc (ut : String) (D : ℕ) : NativeIo :=
  if ut = "Oric2TeamUpdate" ∨ ut = "Oric2ProjectEcUpdate" then natUtOric ut
  else if ut = "ExtrinsicOutputTeamUpdate" ∨ ut = "IntrinsicOutMwmUpdate" then natUtIoKc ut
  else if ut = "TeamEc2OricUpdate" ∨ ut = "ProjectEqConst2OricUpdate" then natUtEqKc ut
  else if ut = "ProjectInequalityConstraintUpdate" then natUtProject ut
  else if ut = "KnapsackForward" ∨ ut = "KnapsackBackward" then natUtForwardBackward ut D
  else if ut = "ExtrinsicOutputDepartment" then natUtOutput D
  else if ut = "Team2KnapsackUpdate" then natUtTeamToKnapsack
  else if ut = "ProcessExtrinsicOutputDepartment" then natUtProcess
  else if ut = "Iterate" then natUtIterateKc
  else if ut = "IterateSampleGraph" then natUtSampleKc
  else ⟨[], [], []⟩

/-- python_kc_mwm/test/ut_methods_utils.py:30-140. -/
def kcCompared (ut : String) : Compared :=
  if ut = "KnapsackForward" then .listed "forward_pure" "forward_wrapper"
  else if ut = "KnapsackBackward" then .listed "backward_pure" "backward_wrapper"
  else if ut = "ExtrinsicOutputDepartment" then .pairs [("extrinsic_output_department_pure", "extrinsic_output_department_wrapper")]
  else if ut = "Team2KnapsackUpdate" then .pairs [("team_to_knapsack_m_pure", "team_to_knapsack_m_wrapper")]
  else if ut = "ProcessExtrinsicOutputDepartment" then .pairs [("extrinsic_output_department_pure", "extrinsic_output_department_wrapper")]
  else if ut = "Oric2TeamUpdate" then .pairs [("oric_to_team_m_pure", "oric_to_team_m_wrapper")]
  else if ut = "Oric2ProjectEcUpdate" then .pairs [("eq_constraint_to_project_m_pure", "eq_constraint_to_project_m_wrapper"),
    ("oric_to_eq_constraint_m_pure", "oric_to_eq_constraint_m_wrapper")]
  else if ut = "ExtrinsicOutputTeamUpdate" then .pairs [("extrinsic_output_team_pure", "extrinsic_output_team_wrapper")]
  else if ut = "IntrinsicOutMwmUpdate" then .pairs [("intrinsic_out_mwm_pure", "intrinsic_out_mwm_wrapper")]
  else if ut = "TeamEc2OricUpdate" then .pairs [("team_to_oric_m_pure", "team_to_oric_m_wrapper")]
  else if ut = "ProjectEqConst2OricUpdate" then .pairs [("eq_constraint_to_oric_m_pure", "eq_constraint_to_oric_m_wrapper")]
  else if ut = "ProjectInequalityConstraintUpdate" then .pairs [("project_to_eq_constraint_m_pure", "project_to_eq_constraint_m_wrapper")]
  else if ut = "Iterate" ∨ ut = "IterateSampleGraph" then .pairs [("extrinsic_output_team_pure", "extrinsic_output_team_wrapper"),
    ("intrinsic_out_mwm_pure", "intrinsic_out_mwm_wrapper")]
  else .pairs []

/-! ### The TSP program -/

/-- python_tsp/test/ut_input_output.py:16-57 `ut_io`. -/
def pyUtIoTsp (ut : String) : List PySave :=
  [.input "degree_constraint_to_eq_constraint_m_pure.npy"] ++
    (if ut = "ExtrinsicOutputEdgeEcRelaxedGraphUpdate" then [.result "extrinsic_output_edge_ec_relaxed_graph_pure"]
      else if ut = "ExtrinsicOutputEdgeEcAugmentedGraphUpdate" then
        [.input "subtour_constraints_to_edge_ec_m_pure.npy", .result "extrinsic_output_edge_ec_augmented_graph_pure"]
      else [])

/-- python_tsp/test/ut_update_degree_constraint.py:13-39 `ut_degree_constraint`. -/
def pyUtDegree (ut : String) : List PySave :=
  [.input "edge_ec_to_degree_constraint_m_pure.npy", .input "edge_connections_pure.npy", .input "alpha.npy"] ++
    (if ut = "DegreeConstraint2EdgeEcUpdate" then [.result "degree_constraint_to_eq_constraint_m_pure"] else [])

/-- python_tsp/test/ut_subtour_elimination_constraint.py:13-48 `ut_subtour_constraint`. -/
def pyUtSubtour (ut : String) : List PySave :=
  [.input "edge_ec_to_subtour_constraints_m_pure.npy", .input "delta_S_indices_list_pure.npy", .input "delta_S_indices_list_sizes_pure.npy",
    .input "alpha.npy"] ++ (if ut = "SubtourConstraints2EdgeEcUpdate" then [.result "subtour_constraints_to_edge_ec_m_pure"] else [])

/-- python_tsp/test/ut_update_equality_constraint.py:13-115 `ut_equality_constraint`. -/
def pyUtEqTsp (ut : String) : List PySave :=
  [.input "degree_constraint_to_eq_constraint_m_pure.npy", .input "alpha.npy", .input "edge_degree_constraint_cost_pure.npy",
    .input "edge_connections_pure.npy"] ++
    (if ut = "EdgeEc2DegreeConstraintRelaxedGraphUpdate" then [.result "edge_ec_to_degree_constraint_m_pure"]
      else if ut = "EdgeEc2SubtourConstraintsUpdate" then
        [.input "delta_S_indices_list_pure.npy", .input "delta_S_indices_list_sizes_pure.npy", .input "subtour_constraints_to_edge_ec_m_pure.npy",
          .input "cost_edge_variable_pure.npy", .result "edge_ec_to_subtour_constraints_m_pure"]
      else if ut = "EdgeEc2DegreeConstraintAugmentedGraphUpdate" then
        [.input "subtour_constraints_to_edge_ec_m_pure.npy", .result "edge_ec_to_degree_constraint_m_pure"]
      else [])

/-- python_tsp/test/ut_graphical_model.py:17-136 `ut_model_graph`. -/
def pyUtModelTsp (ut : String) : List PySave :=
  [.input "alpha.npy", .input "threshold.npy"] ++
    (if ut = "IterateRelaxedGraph" ∨ ut = "IterateAugmentedGraph" then
        [.input "edge_connections_pure.npy", .input "cost_edge_variable_pure.npy", .input "cost_matrix_pure.npy",
          .input "edge_ec_to_degree_constraint_m_pure.npy", .input "edge_degree_constraint_cost_pure.npy", .result "intrinsic_out_edge_ec_pure"]
      else [])

/-- python_tsp/test/impalib_unit_tests.py:65-113. -/
def pyTspSaves (ut : String) : List PySave :=
  if ut = "ExtrinsicOutputEdgeEcRelaxedGraphUpdate" ∨ ut = "ExtrinsicOutputEdgeEcAugmentedGraphUpdate" then pyUtIoTsp ut
  else if ut = "DegreeConstraint2EdgeEcUpdate" then pyUtDegree ut
  else if ut = "SubtourConstraints2EdgeEcUpdate" then pyUtSubtour ut
  else if ut = "EdgeEc2DegreeConstraintRelaxedGraphUpdate" ∨ ut = "EdgeEc2SubtourConstraintsUpdate" ∨ ut = "EdgeEc2DegreeConstraintAugmentedGraphUpdate" then
    pyUtEqTsp ut
  else if ut = "IterateRelaxedGraph" ∨ ut = "IterateAugmentedGraph" then pyUtModelTsp ut
  else []

/-- include/ut_input_output.hpp:100-158 `ut_input_output_tsp`. -/
def natUtIoTsp (ut : String) : NativeIo :=
  ⟨["N_NODES", "N_SUBTOURS"],
    ["degree_constraint_to_eq_constraint_m_pure.npy"] ++
      (if ut = "ExtrinsicOutputEdgeEcAugmentedGraphUpdate" then ["subtour_constraints_to_edge_ec_m_pure.npy"] else []),
    if ut = "ExtrinsicOutputEdgeEcRelaxedGraphUpdate" then ["extrinsic_output_edge_ec_relaxed_graph_wrapper"]
    else if ut = "ExtrinsicOutputEdgeEcAugmentedGraphUpdate" then ["extrinsic_output_edge_ec_augmented_graph_wrapper"] else []⟩

/-- include/ut_update_degree_constraint.hpp:13-69 `ut_degree_constraint`. -/
def natUtDegree (ut : String) : NativeIo :=
  ⟨["N_NODES", "FILT_FLAG"], ["alpha.npy", "edge_ec_to_degree_constraint_m_pure.npy", "edge_connections_pure.npy"],
    if ut = "DegreeConstraint2EdgeEcUpdate" then ["degree_constraint_to_eq_constraint_m_wrapper"] else []⟩

/-- include/ut_subtour_elimination_constraint.hpp:13-79 `ut_subtour_constraint`. -/
def natUtSubtour (ut : String) : NativeIo :=
  ⟨["N_NODES", "N_SUBTOURS", "FILT_FLAG"],
    ["alpha.npy", "edge_ec_to_subtour_constraints_m_pure.npy", "delta_S_indices_list_sizes_pure.npy", "delta_S_indices_list_pure.npy"],
    if ut = "SubtourConstraints2EdgeEcUpdate" then ["subtour_constraints_to_edge_ec_m_wrapper"] else []⟩

/-- include/ut_update_equality_constraint.hpp:94-233 `ut_equality_constraint_tsp`. -/
def natUtEqTsp (ut : String) : NativeIo :=
  ⟨["N_NODES", "N_SUBTOURS", "FILT_FLAG"],
    ["alpha.npy", "edge_connections_pure.npy", "edge_degree_constraint_cost_pure.npy", "degree_constraint_to_eq_constraint_m_pure.npy"] ++
      (if ut = "EdgeEc2SubtourConstraintsUpdate" then
          ["delta_S_indices_list_sizes_pure.npy", "delta_S_indices_list_pure.npy", "cost_edge_variable_pure.npy", "subtour_constraints_to_edge_ec_m_pure.npy"]
        else if ut = "EdgeEc2DegreeConstraintAugmentedGraphUpdate" then ["subtour_constraints_to_edge_ec_m_pure.npy"] else []),
    if ut = "EdgeEc2DegreeConstraintRelaxedGraphUpdate" then ["edge_ec_to_degree_constraint_m_wrapper"]
    else if ut = "EdgeEc2SubtourConstraintsUpdate" then ["edge_ec_to_subtour_constraints_m_wrapper"]
    else if ut = "EdgeEc2DegreeConstraintAugmentedGraphUpdate" then ["edge_ec_to_degree_constraint_m_wrapper"] else []⟩

/-- include/ut_graphical_model.hpp:171-272 `ut_model_graph_tsp`. -/
def natUtModelTsp (ut : String) : NativeIo :=
  ⟨["N_NODES", "N_ITER", "FILT_FLAG"],
    ["alpha.npy", "threshold.npy", "edge_connections_pure.npy", "cost_edge_variable_pure.npy", "cost_matrix_pure.npy",
      "edge_ec_to_degree_constraint_m_pure.npy", "edge_degree_constraint_cost_pure.npy"],
    if ut = "IterateRelaxedGraph" ∨ ut = "IterateAugmentedGraph" then ["intrinsic_out_edge_ec_wrapper"] else []⟩

/-- src/impalib_unit_tests_tsp.cpp:9-36 `main`. -/
def natTsp (ut : String) : NativeIo :=
  if ut = "ExtrinsicOutputEdgeEcRelaxedGraphUpdate" ∨ ut = "ExtrinsicOutputEdgeEcAugmentedGraphUpdate" then natUtIoTsp ut
  else if ut = "DegreeConstraint2EdgeEcUpdate" then natUtDegree ut
  else if ut = "SubtourConstraints2EdgeEcUpdate" then natUtSubtour ut
  else if ut = "EdgeEc2DegreeConstraintRelaxedGraphUpdate" ∨ ut = "EdgeEc2SubtourConstraintsUpdate" ∨ ut = "EdgeEc2DegreeConstraintAugmentedGraphUpdate" then
    natUtEqTsp ut
  else if ut = "IterateRelaxedGraph" ∨ ut = "IterateAugmentedGraph" then natUtModelTsp ut
  else ⟨[], [], []⟩

/-- python_tsp/test/ut_methods_utils.py:25-67. -/
def tspCompared (ut : String) : Compared :=
  if ut = "ExtrinsicOutputEdgeEcRelaxedGraphUpdate" then
    .pairs [("extrinsic_output_edge_ec_relaxed_graph_pure", "extrinsic_output_edge_ec_relaxed_graph_wrapper")]
  else if ut = "ExtrinsicOutputEdgeEcAugmentedGraphUpdate" then
    .pairs [("extrinsic_output_edge_ec_augmented_graph_pure", "extrinsic_output_edge_ec_augmented_graph_wrapper")]
  else if ut = "DegreeConstraint2EdgeEcUpdate" then
    .pairs [("degree_constraint_to_eq_constraint_m_pure", "degree_constraint_to_eq_constraint_m_wrapper")]
  else if ut = "SubtourConstraints2EdgeEcUpdate" then .pairs [("subtour_constraints_to_edge_ec_m_pure", "subtour_constraints_to_edge_ec_m_wrapper")]
  else if ut = "EdgeEc2DegreeConstraintRelaxedGraphUpdate" then .pairs [("edge_ec_to_degree_constraint_m_pure", "edge_ec_to_degree_constraint_m_wrapper")]
  else if ut = "EdgeEc2SubtourConstraintsUpdate" then .pairs [("edge_ec_to_subtour_constraints_m_pure", "edge_ec_to_subtour_constraints_m_wrapper")]
  else if ut = "EdgeEc2DegreeConstraintAugmentedGraphUpdate" then .pairs [("edge_ec_to_degree_constraint_m_pure", "edge_ec_to_degree_constraint_m_wrapper")]
  else if ut = "IterateRelaxedGraph" ∨ ut = "IterateAugmentedGraph" then .pairs [("intrinsic_out_edge_ec_pure", "intrinsic_out_edge_ec_wrapper")]
  else .pairs []

/-! ### The k-SAT program -/

/-- python_ksat/test/ut_input_output.py:13-31 `ut_io`. -/
def pyUtIoKsat (ut : String) : List PySave :=
  [.input "ksat_constraint_to_eq_constraint_m_pure.npy"] ++
    (if ut = "ExtrinsicOutputVariableEcUpdate" then [.result "extrinsic_output_variable_ec_pure"] else [])

/-- python_ksat/test/ut_update_equality_constraint.py:13-80 `ut_equality_constraint`. -/
def pyUtEqKsat (ut : String) : List PySave :=
  [.input "used_variables_pure.npy", .input "size_used_variables_pure.npy", .input "alpha.npy", .input "num_constraints.npy",
    .input "variables_connections_pure.npy", .input "sizes_of_variables_connections_pure.npy", .input "constraints_connections_pure.npy",
    .input "incoming_metrics_cost_pure.npy", .input "ksat_constraint_to_eq_constraint_m_pure.npy"] ++
    (if ut = "VariableEc2KsatConstraintUpdate" then [.result "variable_ec_to_ksat_constraint_m_pure"] else [])

/-- python_ksat/test/ut_update_ksat_constraint.py:13-54 `ut_ksat_constraint`. -/
def pyUtClause (ut : String) : List PySave :=
  [.input "alpha.npy", .input "num_constraints.npy", .input "constraints_connections_pure.npy", .input "constraints_connections_type_pure.npy",
    .input "variable_ec_to_ksat_constraint_m_pure.npy"] ++
    (if ut = "KsatConstraint2VariableEcUpdate" then [.result "ksat_constraint_to_eq_constraint_m_pure"] else [])

/-- python_ksat/test/ut_graphical_model.py:13-99 `ut_model_graph`. -/
def pyUtModelKsat (ut : String) : List PySave :=
  [.input "alpha.npy", .input "threshold.npy"] ++
    (if ut = "Iterate" then
        [.input "used_variables_pure.npy", .input "size_used_variables_pure.npy", .input "num_constraints.npy", .input "variables_connections_pure.npy",
          .input "sizes_of_variables_connections_pure.npy", .input "constraints_connections_pure.npy", .input "constraints_connections_type_pure.npy",
          .input "incoming_metrics_cost_pure.npy", .input "variable_ec_to_ksat_constraint_m_pure.npy", .result "extrinsic_out_variable_ec_pure"]
      else [])

/-- python_ksat/test/impalib_unit_tests.py:111-155. -/
def pyKsatSaves (ut : String) : List PySave :=
  if ut = "ExtrinsicOutputVariableEcUpdate" then pyUtIoKsat ut
  else if ut = "VariableEc2KsatConstraintUpdate" then pyUtEqKsat ut
  else if ut = "KsatConstraint2VariableEcUpdate" then pyUtClause ut
  else if ut = "Iterate" then pyUtModelKsat ut
  else []

/-- src/impalib_unit_tests_ksat.cpp:9-32 `main` with include/ut_input_output.hpp:162-205, ut_update_equality_constraint.hpp:237-343,
ut_update_ksat_constraint.hpp:13-81 and ut_graphical_model.hpp:276-352, whose inner conditions on the name are true when they are called from here. -/
def natKsat (ut : String) : NativeIo :=
  if ut = "ExtrinsicOutputVariableEcUpdate" then
    ⟨["NUM_VARIABLES", "NUM_CONSTRAINTS", "K_VARIABLE"], ["ksat_constraint_to_eq_constraint_m_pure.npy"], ["extrinsic_output_variable_ec_wrapper"]⟩
  else if ut = "VariableEc2KsatConstraintUpdate" then
    ⟨["NUM_VARIABLES", "K_VARIABLE", "FILT_FLAG"],
      ["alpha.npy", "num_constraints.npy", "size_used_variables_pure.npy", "used_variables_pure.npy", "sizes_of_variables_connections_pure.npy",
        "variables_connections_pure.npy", "incoming_metrics_cost_pure.npy", "ksat_constraint_to_eq_constraint_m_pure.npy", "constraints_connections_pure.npy"],
      ["variable_ec_to_ksat_constraint_m_wrapper"]⟩
  else if ut = "KsatConstraint2VariableEcUpdate" then
    ⟨["NUM_VARIABLES", "K_VARIABLE", "FILT_FLAG"],
      ["alpha.npy", "num_constraints.npy", "constraints_connections_pure.npy", "constraints_connections_type_pure.npy", "variable_ec_to_ksat_constraint_m_pure.npy"],
      ["ksat_constraint_to_eq_constraint_m_wrapper"]⟩
  else if ut = "Iterate" then
    ⟨["NUM_VARIABLES", "K_VARIABLE", "FILT_FLAG", "N_ITER"],
      ["alpha.npy", "num_constraints.npy", "size_used_variables_pure.npy", "used_variables_pure.npy", "variables_connections_pure.npy",
        "sizes_of_variables_connections_pure.npy", "constraints_connections_pure.npy", "constraints_connections_type_pure.npy", "incoming_metrics_cost_pure.npy",
        "variable_ec_to_ksat_constraint_m_pure.npy"],
      ["extrinsic_out_variable_ec_wrapper"]⟩
  else ⟨[], [], []⟩

/-- python_ksat/test/ut_methods_utils.py:25-50. -/
def ksatCompared (ut : String) : Compared :=
  if ut = "ExtrinsicOutputVariableEcUpdate" then .pairs [("extrinsic_output_variable_ec_pure", "extrinsic_output_variable_ec_wrapper")]
  else if ut = "VariableEc2KsatConstraintUpdate" then .pairs [("variable_ec_to_ksat_constraint_m_pure", "variable_ec_to_ksat_constraint_m_wrapper")]
  else if ut = "KsatConstraint2VariableEcUpdate" then .pairs [("ksat_constraint_to_eq_constraint_m_pure", "ksat_constraint_to_eq_constraint_m_wrapper")]
  else if ut = "Iterate" then .pairs [("extrinsic_out_variable_ec_pure", "extrinsic_out_variable_ec_wrapper")]
  else .pairs []

/-! ### The scripts -/

/-- A script: the names of the tests, the exported variables and its three programs. -/
structure Script where
  tests : List String
  exported : List String
  saves : String → List PySave
  native : String → NativeIo
  compared : String → Compared

/-- src/unit_test_kc_mwm.sh:25, 31 with `D` numbers in `Nu`. -/
def kcScript (D : ℕ) : Script :=
  ⟨["Oric2TeamUpdate", "Oric2ProjectEcUpdate", "ExtrinsicOutputTeamUpdate", "IntrinsicOutMwmUpdate", "TeamEc2OricUpdate", "ProjectEqConst2OricUpdate",
      "ProjectInequalityConstraintUpdate", "KnapsackForward", "KnapsackBackward", "ExtrinsicOutputDepartment", "Team2KnapsackUpdate",
      "ProcessExtrinsicOutputDepartment", "Iterate", "IterateSampleGraph"],
    ["test_name", "N_DEPARTMENTS", "N_TEAMS", "N_PROJECTS", "FILT_FLAG", "Nu", "N_ITER"], fun ut => pyKcSaves ut D, fun ut => natKc ut D, kcCompared⟩

/-- src/unit_test_tsp.sh:23, 29. -/
def tspScript : Script :=
  ⟨["ExtrinsicOutputEdgeEcRelaxedGraphUpdate", "ExtrinsicOutputEdgeEcAugmentedGraphUpdate", "DegreeConstraint2EdgeEcUpdate", "SubtourConstraints2EdgeEcUpdate",
      "EdgeEc2DegreeConstraintRelaxedGraphUpdate", "EdgeEc2SubtourConstraintsUpdate", "EdgeEc2DegreeConstraintAugmentedGraphUpdate", "IterateRelaxedGraph",
      "IterateAugmentedGraph"],
    ["test_name", "N_NODES", "N_SUBTOURS", "FILT_FLAG", "SYM_FLAG", "N_ITER"], pyTspSaves, natTsp, tspCompared⟩

/-- src/unit_test_ksat.sh:25, 31. -/
def ksatScript : Script :=
  ⟨["ExtrinsicOutputVariableEcUpdate", "VariableEc2KsatConstraintUpdate", "KsatConstraint2VariableEcUpdate", "Iterate"],
    ["test_name", "NUM_VARIABLES", "K_VARIABLE", "N_ITER", "FILT_FLAG", "NUM_CONSTRAINTS"], pyKsatSaves, natKsat, ksatCompared⟩

/-- What the programs do in one sub-test: how many files they write before they die (`none` if they do not), and what they write.  The native program
computes from the environment and the files it has read; `false` is the folder of inputs, `true` that of results. -/
structure SubTest (α : Type) where
  pyStops : Option ℕ
  pyWrites : Bool → String → α
  natStops : Option ℕ
  natWrites : List α → String → α

/-- The first files, or all. -/
def firstOf {β : Type} (k : Option ℕ) (l : List β) : List β :=
  match k with
  | none => l
  | some k => l.take k

/-- One `np.save`. -/
def pySave {α : Type} (s : SubTest α) (f : Folders α) : PySave → Folders α
  | .input n => { f with inputs := f.inputs.put (npSaveName n) (s.pyWrites false (npSaveName n)) }
  | .result n => { f with results := f.results.put n (s.pyWrites true n) }

/-- impalib_unit_tests.py. -/
def runPython {α : Type} (saves : List PySave) (s : SubTest α) (f : Folders α) : Folders α := (firstOf s.pyStops saves).foldl (pySave s) f

/-- impalib_unit_tests_*: without a variable or a file that it needs it ends before it writes. -/
def runNative {α : Type} (exported : List String) (n : NativeIo) (s : SubTest α) (f : Folders α) : Folders α :=
  if n.env.all (fun v => exported.contains v) then
    match n.reads.mapM f.inputs.get with
    | none => f
    | some l => { f with results := (firstOf s.natStops n.writes).foldl (fun r w => r.put w (s.natWrites l w)) f.results }
  else f

/-- ut_utils.py:39-50 `int(x) for x in regex.findall(name)` and `[0]`: the first number in a name; written back with `str`. -/
def firstNumber (n : String) : Option String :=
  let w := (n.toList.dropWhile (fun c => !c.isDigit)).takeWhile Char.isDigit
  if w = [] then none else some (toString (Nat.ofDigitChars 10 w 0))

/-- The pairs of files of each report. -/
def Compared.groups {α : Type} (c : Compared) (r : Folder α) : Option (List (List (String × String))) :=
  match c with
  | .pairs l => some (l.map (fun p => [p]))
  | .listed pure wrapper => do
    let l ← ((r.map Prod.fst).filter (fun n => pure.toList.isPrefixOf n.toList)).mapM firstNumber
    some [l.map (fun d => (pure ++ d, wrapper ++ d))]

/-- A line `PASSED` (`true`) or `FAILED` with the files compared for it. -/
structure Report (α : Type) where
  files : List ((String × α) × (String × α))
  passed : Bool

/-- Opening the two files. -/
def openPair {α : Type} (r : Folder α) (p : String × String) : Option ((String × α) × (String × α)) := do
  let a ← r.get p.1
  let b ← r.get p.2
  some ((p.1, a), (p.2, b))

/-- The reports one after the other; a missing file and an exception in the comparison (`none` of `agree`) end the program.  The maximum of no errors is an
exception as well (ut_utils.py:77 `np.max([])`). -/
def report {α : Type} (agree : List (α × α) → Option Bool) (r : Folder α) : List (List (String × String)) → List (Report α)
  | [] => []
  | g :: gs =>
    match g.mapM (openPair r) with
    | none => []
    | some l =>
      if l = [] then []
      else
        match agree (l.map (fun p => (p.1.2, p.2.2))) with
        | none => []
        | some b => ⟨l, b⟩ :: report agree r gs

/-- ut_methods_utils.py. -/
def runCompare {α : Type} (agree : List (α × α) → Option Bool) (c : Compared) (f : Folders α) : List (Report α) :=
  match c.groups f.results with
  | none => []
  | some gs => report agree f.results gs

/-- unit_test_kc_mwm.sh:34-36: one sub-test. -/
def runSubTest {α : Type} (sc : Script) (agree : List (α × α) → Option Bool) (ut : String) (s : SubTest α) (f : Folders α) : Folders α × List (Report α) :=
  let f := runNative sc.exported (sc.native ut) s (runPython (sc.saves ut) s f)
  (f, runCompare agree (sc.compared ut) f)

/-- unit_test_kc_mwm.sh:32-37: the remaining sub-tests, with their numbers. -/
def runSubTests {α : Type} (sc : Script) (agree : List (α × α) → Option Bool) (ut : String) (world : ℕ → SubTest α) :
    List ℕ → Folders α → Folders α × List (ℕ × Report α)
  | [], f => (f, [])
  | i :: is, f =>
    let (f, rs) := runSubTest sc agree ut (world i) f
    let (f, rest) := runSubTests sc agree ut world is f
    (f, rs.map (fun r => (i, r)) ++ rest)

/-- unit_test_kc_mwm.sh:27-41: the loop over the tests: the reports with the name and the number of the sub-test, and whether the exit status, that of the
last `rm ../ut_results/*`, is 0.  `rm` fails if the folder is empty. -/
def runTests {α : Type} (sc : Script) (agree : List (α × α) → Option Bool) (total : ℕ) (world : String → ℕ → SubTest α) :
    List String → Folders α → Bool → List (String × ℕ × Report α) × Bool
  | [], _, status => ([], status)
  | ut :: uts, f, _ =>
    let (f, rs) := runSubTests sc agree ut (world ut) ((List.range total).map (· + 1)) f
    let (rest, status) := runTests sc agree total world uts ⟨[], []⟩ (!f.results.isEmpty)
    (rs.map (fun r => (ut, r.1, r.2)) ++ rest, status)

/-- unit_test_{kc_mwm,tsp,ksat}.sh with `total_sub_tests` and the folders as they are found. -/
def runScript {α : Type} (sc : Script) (agree : List (α × α) → Option Bool) (total : ℕ) (world : String → ℕ → SubTest α) (f : Folders α) :
    List (String × ℕ × Report α) × Bool :=
  runTests sc agree total world sc.tests f true

end Verif.Model
