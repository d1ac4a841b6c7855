import Mathlib.Data.List.Basic

/-!
Model of how arguments get from Python to the three native entry points: the argument lists of the calls
(/repo/src/impa/Impa.py), the declared types (/repo/src/impa/cFunctionAPI.py) and the parameter lists
(/repo/src/impa/Wrapper.cpp).  `ctypes` places the arguments as the declared types say, in the order of the call; the
native function takes its parameters from where its own parameter list says they are.  Each value fills one
register or one stack slot.
-/

namespace Verif.Model

/-- Kinds of arguments. -/
inductive Kind | int | bool | double | intPtr | boolPtr | doublePtr
  deriving DecidableEq

/-- Is the value passed in a floating point register? -/
def Kind.isFloat : Kind → Bool
  | .double => true
  | _ => false

/-- Where a value is passed. -/
inductive Loc | general (i : ℕ) | float (i : ℕ) | stack (i : ℕ)
  deriving DecidableEq

/-- Conventions with `ng` registers for integers and pointers and, separately, `nf` registers for floating point numbers;
what does not fit goes to the stack in order.  System V x86-64: 6 and 8; AAPCS64: 8 and 8.  `g`, `f`, `s` count the places
already used. -/
def place (ng nf : ℕ) : List Kind → ℕ → ℕ → ℕ → List Loc
  | [], _, _, _ => []
  | k :: l, g, f, s =>
    if k.isFloat then
      if f < nf then .float f :: place ng nf l g (f + 1) s else .stack s :: place ng nf l g f (s + 1)
    else if g < ng then .general g :: place ng nf l (g + 1) f s else .stack s :: place ng nf l g f (s + 1)

/-- Conventions that number registers by the position of the argument (Microsoft x64: four positions). -/
def placeByPosition (n : ℕ) : List Kind → ℕ → List Loc
  | [], _ => []
  | k :: l, i =>
    (if i < n then (if k.isFloat then Loc.float i else .general i) else .stack (i - n)) :: placeByPosition n l (i + 1)

/-- What the native function receives: for each parameter its name, its kind and, if something was passed there, the kind
and value passed.  `names` and `declared` are the argument list of the call with the declared types. -/
def received {V : Type} (conv : List Kind → List Loc) (names : List String) (declared : List Kind) (params : List (String × Kind))
    (val : String → V) : List (String × Kind × Option (Kind × V)) :=
  let passed := (names.zip declared).zip (conv declared)
  (params.zip (conv (params.map Prod.snd))).map (fun p =>
    (p.1.1, p.1.2, (passed.find? (fun q => q.2 = p.2)).map (fun q => (q.1.2, val q.1.1))))

/-- Impa.py:232-260: the arguments of `WrapperTsp`, by the name of what they stand for. -/
def tspArgs : List String :=
  ["num_iterations", "num_nodes", "num_edge_variables", "augmentation_flag", "reset_flag", "alpha", "filtering_flag",
   "edge_connections", "cost_edge_variable", "cost_matrix", "edge_ec_to_degree_constraint_m", "edge_degree_constraint_cost",
   "extrinsic_output_edge_ec", "threshold", "num_augmentations", "tour_impa", "cost_impa", "no_improvement_flag",
   "no_consecutive_loops_flag", "selected_edges", "selected_edges_size", "sol_oscillation_flag", "subtour_paths",
   "subtour_paths_size", "max_count", "num_added_constraints", "max_augm_count"]

/-- cFunctionAPI.py:31-59 `WrapperTsp.argtypes`. -/
def tspArgtypes : List Kind :=
  [.int, .int, .int, .bool, .bool, .double, .bool, .intPtr, .doublePtr, .doublePtr, .doublePtr, .doublePtr, .doublePtr, .double,
   .intPtr, .intPtr, .doublePtr, .boolPtr, .boolPtr, .intPtr, .intPtr, .boolPtr, .intPtr, .intPtr, .int, .intPtr, .int]

/-- Wrapper.cpp:83-88: the parameters of `WrapperTsp`, with the names of the Python side. -/
def tspParams : List (String × Kind) :=
  [("num_iterations", .int), ("num_nodes", .int), ("num_edge_variables", .int), ("augmentation_flag", .bool), ("reset_flag", .bool),
   ("filtering_flag", .bool), ("alpha", .double), ("edge_connections", .intPtr), ("cost_edge_variable", .doublePtr),
   ("cost_matrix", .doublePtr), ("edge_ec_to_degree_constraint_m", .doublePtr), ("edge_degree_constraint_cost", .doublePtr),
   ("extrinsic_output_edge_ec", .doublePtr), ("threshold", .double), ("num_augmentations", .intPtr), ("tour_impa", .intPtr),
   ("cost_impa", .doublePtr), ("no_improvement_flag", .boolPtr), ("no_consecutive_loops_flag", .boolPtr), ("selected_edges", .intPtr),
   ("selected_edges_size", .intPtr), ("sol_oscillation_flag", .boolPtr), ("subtour_paths", .intPtr), ("subtour_paths_size", .intPtr),
   ("max_count", .int), ("num_added_constraints", .intPtr), ("max_augm_count", .int)]

/-- Impa.py:1537-1554: the arguments of `WrapperKcMwm`. -/
def kcArgs : List String :=
  ["num_iterations", "num_departments", "num_teams", "num_projects", "transition_model", "max_state", "reward_team", "reward_project",
   "teams_weights", "non_zero_weight_indices", "non_zero_weight_indices_sizes", "max_size_nonzero_weights", "extrinsic_output_team",
   "intrinsic_out_mwm", "filtering_flag", "alpha"]

/-- cFunctionAPI.py:64-81 `WrapperKcMwm.argtypes`. -/
def kcArgtypes : List Kind :=
  [.int, .int, .int, .int, .doublePtr, .intPtr, .doublePtr, .doublePtr, .intPtr, .intPtr, .intPtr, .int, .doublePtr, .doublePtr, .bool, .double]

/-- Wrapper.cpp:30-33: the parameters of `WrapperKcMwm`. -/
def kcParams : List (String × Kind) :=
  [("num_iterations", .int), ("num_departments", .int), ("num_teams", .int), ("num_projects", .int), ("transition_model", .doublePtr),
   ("max_state", .intPtr), ("reward_team", .doublePtr), ("reward_project", .doublePtr), ("teams_weights", .intPtr),
   ("non_zero_weight_indices", .intPtr), ("non_zero_weight_indices_sizes", .intPtr), ("max_size_nonzero_weights", .int),
   ("extrinsic_output_team", .doublePtr), ("intrinsic_out_mwm", .doublePtr), ("filtering_flag", .bool), ("alpha", .double)]

/-- Impa.py:2460-2476: the arguments of `WrapperKsat`. -/
def ksatArgs : List String :=
  ["num_iterations", "num_variables", "num_constraints", "num_used_variables", "alpha", "filtering_flag", "used_variables",
   "variables_connections", "variables_connections_sizes", "constraints_connections", "constraints_connections_type",
   "incoming_metrics_cost", "variable_ec_to_ksat_constraint_m", "extrinsic_output_variable_ec", "k_variable"]

/-- cFunctionAPI.py:85-101 `WrapperKsat.argtypes`. -/
def ksatArgtypes : List Kind :=
  [.int, .int, .int, .int, .double, .bool, .intPtr, .intPtr, .intPtr, .intPtr, .intPtr, .doublePtr, .doublePtr, .doublePtr, .int]

/-- Wrapper.cpp:128-131: the parameters of `WrapperKsat`. -/
def ksatParams : List (String × Kind) :=
  [("num_iterations", .int), ("num_variables", .int), ("num_constraints", .int), ("num_used_variables", .int), ("alpha", .double),
   ("filtering_flag", .bool), ("used_variables", .intPtr), ("variables_connections", .intPtr), ("variables_connections_sizes", .intPtr),
   ("constraints_connections", .intPtr), ("constraints_connections_type", .intPtr), ("incoming_metrics_cost", .doublePtr),
   ("variable_ec_to_ksat_constraint_m", .doublePtr), ("extrinsic_output_variable_ec", .doublePtr), ("k_variable", .int)]

end Verif.Model
