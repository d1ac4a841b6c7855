# Formal model of IMPALIB: design

The subject is the source in `/repo`: the C++ headers under `include/impalib`, the Python package under `src/impa` and the pure Python
reference solvers under `test/python_*/src`. The source was read, not run. Models are in `lean/Verif/Model`, specifications in
`lean/Verif/Spec`, helper lemmas in `lean/Verif/Proofs`, the property theorems (one file per group, with their examples) in
`lean/Verif/Properties`. `MANIFEST.json` links each property of `properties.jsonl` to its theorems.

## Trusted base

* The Lean 4.33.0 kernel. Theorems use at most the standard axioms `propext`, `Classical.choice` and `Quot.sound` (no `sorry`, no
  `native_decide`, no own axioms). The last section lists the axioms of each theorem, as printed by `#print axioms`.
* The reading of the source. Every model definition cites the file and lines it mirrors.
* The statements: the files in `Spec` and `Properties`. The files in `Proofs` need not be trusted.
* Numbers. `double` is modelled by `Num`: an exact rational, `+inf`, `-inf` or NaN, with the IEEE rules for infinities and NaN but
  **without rounding, without overflow and without signed zeros**. Updates that only negate and compare (degree, subtour, project) do
  not round, so for them the model is exact for doubles. Sums and products (knapsack, k-SAT, damping, costs) are exact in the model and
  rounded in the code. C63, C64 and C65 cover rounding and overflow in the three solvers. If `impalib_type` is `float`, conversions between `float` and `double` are taken as exact as well.
* `std::min(a,b)` is `(b<a) ? b : a` and `std::max(a,b)` is `(a<b) ? b : a`, as in the C++ standard. `std::min_element`,
  `std::binary_search`, `std::upper_bound`, `std::find`, Python's `sorted`, `min`, `index` and numpy's `argmin`, `argsort`, `where`
  are modelled by their documented meaning.
* Memory. Arrays are bounds checked in the model: an out-of-range access is the explicit outcome `none`, so a theorem that
  concludes `= some ..` includes the absence of out-of-range accesses in the modelled code. Python exceptions and `exit` are `none` too,
  except where a theorem is about them. `int` is modelled by unbounded integers; overflow of `int` is not modelled except in
  C78, for the positions computed by the native readers.
* `unordered_map` and Python `set` iteration orders are arbitrary parameters of the model. Random draws are arbitrary parameters.
* The recursion of the loop search in C++ and of the path search in Python has a fuel parameter. C15 shows that the result
  does not depend on it once it exceeds the number of selected edges. Python's own recursion limit is not modelled.

## Numeric and array layer

`Verif/Num.lean` (numbers), `Verif/Arr.lean` (bounds checked 1-D and 2-D arrays, loops over ranges and lists with invariant lemmas).
`A.Is m n x` says that array `A` has shape `m x n` and holds the finite rationals `x i j`; it is the refinement relation between
the code's arrays and mathematical matrices.

## Specification layer

* `Spec/MinSum.lean`: `IsMessage vars valid x i mu` says that `mu` is the min-sum message of a hard constraint to its variable `i`:
  cheapest valid set containing `i`, minus cheapest valid set not containing `i`, minus `x i`. It is written with "least element" over
  all subsets and mentions no model definition. C01-C07 use this one specification with different `valid`: at most one, exactly one,
  at least one, some literal true (`Clause`), total weight within the capacity (`Knapsack`), coupling of a team and its projects (`Oric`).
* `Spec/KcRun`, `KsatRun`, `TspRun`: whole runs. A trace of exact messages indexed by the iteration, linked by `IsMessage`, sums of all
  other neighbours and the damping formula of `Spec/Damping`. The specification of a run does not mention the code's schedule of arrays.
* `Spec/Loops`, `Tsp`, `TspSolve`, `TspPost`: directed cycles, Hamiltonian cycles, cuts, tour cost, stop conditions, degrees. `TspCall`: the problem solved by a whole call.
* `Spec/Formula`, `Dimacs`: satisfaction of clauses, an independent reader of DIMACS text.
* `Spec/Teams`, `KcPost`, `KcTables`, `Tables`, `TspTables`: generated teams, loads of units, decoding of flat arrays.
* `Spec/Forest`: clauses without cycles, limits of rational sequences, differences of cheapest solutions (marginals).
* `Spec/Same`, `PyTsp`: agreement of arrays of two programs.

## Modelled code and properties

| id | code | model | how proved |
|----|------|-------|------------|
| C01 | project_inequality_constraint.hpp | ProjectInequality | loop invariants for the two-state trellis, closed form, then `IsMessage` (at most one) |
| C02, C03 | update_or_inequality_constraint.hpp | Oric | same with the coupling; C03 fails above the literal 1000000: guard and counterexample |
| C04 | update_ksat_constraint.hpp | KsatConstraint | trellis invariants to closed form, then `IsMessage` over variable assignments |
| C05, C06 | update_degree_constraint.hpp, subtour_elimination_constraint.hpp | MinScan, Degree, Subtour | invariants of the two scans, closed form, `IsMessage` (exactly one, at least one) |
| C07 | knapsack.hpp forward, backward, extrinsic output | Knapsack | a forward cell is the least cost of subsets of a prefix with that weight, a backward cell that of subsets of a suffix that fit; combined by splitting sets at the team |
| C08 | the four filtering functions | Filter | induction over iterations |
| C09 | update_equality_constraint.hpp | Equality | loop invariants, algebra |
| C10 | knapsack.hpp team_to_knapsack_update | TeamKnapsack | proved for teams in at most two departments; counterexample beyond |
| C11, C12, C13, C38 | graphical_model.hpp iterate functions, input_output.hpp output classes | KcRun, TspRun, KsatRun | refinement by induction over the iteration count |
| C14 | hard_decision_analysis | TspLoops | fold lemma |
| C15-C18 | find_closed_loop, get_closed_loops, isSubsequence, subtour analysis | TspLoops | induction on unvisited nodes; arbitrary map order; C18 is false in general (witness) and proved for exactly n selected edges |
| C19, C20, C39 | subtour analysis, perform_augmentation, iterate_augmented_graph, WrapperTsp | TspSolve | invariants over rounds, message passing abstracted as an arbitrary oracle |
| C46 | the same functions together with the message passing of TspRun | TspSolve, TspRun | one specification round per solver round, linked by the carried messages (`TspRounds`) |
| C47 | cFunctionAPI.py, calls in run_impa/iterate, signatures in Wrapper.cpp | CallArgs | names and kinds of arguments; a convention assigns a register or stack place to each kind; pointers count as integers |
| C48 | tables of initialize and run_impa, WrapperTsp, InputsTsp | TspIO | round trips by index arithmetic; bounds |
| C49 | the whole call run_impa | TspIO (runImpa) | composition of C48, C46, C22, C25 |
| C50 | iterate_relaxed_graph, the whole call | TspRun, TspSolve, TspIO | linear programming duality for the assignment problem: a strict dual solution exists (potentials of a graph without negative cycles) and bounds the damped messages, which drift apart linearly |
| C51 | iterate_relaxed_graph, the whole call, create_cost_matrix | TspRun, TspIO, TspPost | reversing all edges maps the messages onto themselves (uniqueness of the trace) |
| C52 | the whole k-SAT call | KsatRun, KsatIO, KsatPost, KsatCall | induction over an order of removal of the clauses (exists iff the graph of clauses and variables is acyclic); gluing lemma for min-marginals; one induction for the exact and the limit statement |
| C53 | run_impa, initialize, create_model_structure of the k-SAT class | KsatCall, KsatGen, KsatIO, KsatPost | composition of C13, C24, C28-C30, C35, C40 |
| C54 | initialize, iterate and the analyses of the KC-MWM class, main_kc_mwm.py | KcCall, KcIO, KcTeams, KcPost | composition of C23, C31-C33, C41, C43, C44; one team of each kind fits its units; the randomly generated costs are replaced by those of the input file, as the code does |
| C55 | the k-SAT run and report | KsatCall, KsatIO, KsatRun | pairs of runs related by Spec/SameFormula; exact arithmetic (scaling and order are not exact in floating point) |
| C56, C57 | the k-SAT run and report | KsatCall, KsatIO, KsatRun | bounds on beliefs over any number of iterations |
| C58 | TSP solver with all rounds; a TSP call without augmentation | TspSolve, TspCall | simulation between two runs; renaming is stated for the relaxed round; C79 has all rounds |
| C59 | a TSP call with all rounds | TspSolve, TspIO | the size of the allowed change is explicit for the relaxed round and existential for whole calls |
| C60 | test/python_tsp/src/graphical_model.py, all rounds | PyTspSolve, PyTsp | simulation of the two programs; `IndexError` and `AxisError` are `none`; the rounds of the Python program are unbounded, `fuel` counts them |
| C61 | graphical_model.hpp:316-385, 448-549, 619-785 | TspSolve, TspLoops | a hash map is an arbitrary order of its keys in each round; the order of the values of a key is the order of insertion |
| C62 | graphical_model.hpp iterate of the KC-MWM model, knapsack.hpp, update_or_inequality_constraint.hpp, project_inequality_constraint.hpp, update_equality_constraint.hpp, Impa.py class ImpaKcMwm | KcRun, KcCall | exact arithmetic; capacities that do not bind |
| C63 | the TSP solver with rounded operations | RoundedTsp | relational proof over a filter of rounding functions; every operation in the order of the C++ expressions; results too large for the format may be rounded to infinities or NaN; post-processing is not modelled with rounding |
| C64 | the k-SAT solver with rounded operations | RoundedKsat | same method as C63; every operation in the order of the C++ expressions; the post-processing has no arithmetic on costs |
| C65 | the assignment solver with rounded operations | RoundedKc | same method as C63; every operation in the order of the C++ expressions; the post-processing only compares beliefs |
| C66 | the iteration loops of the three solvers | KsatCall, KcCall, TspRun | nothing new is modelled |
| C67 | the iteration loops of the three solvers | KsatCall, KcCall, TspRun | nothing new is modelled |
| C68 | initializationModule.py, prune_teams, team_reward_generation | TeamTables, KcTeams, KcCall | all shipped tables are transcribed; math.exp and the product of floats are parameters with order properties |
| C69 | GraphicalModelKcMwm::iterate, ImpaKcMwm.iterate, post_analysis | KcModel, KcCall | whole call for the order of projects; solver level for all renamings and units |
| C70 | GraphicalModelKcMwm::iterate, ImpaKcMwm.iterate | KcModel, PyKc, KcCall | input-only conditions for C11, C36, C67, C69 |
| C71 | GraphicalModelKsat::iterate, GraphicalModelTsp::iterate_relaxed_graph | KsatCall, TspRun | nothing new is modelled; shows that 32-bit floats can overflow in k-SAT runs (example: 3 variables, 128 iterations) |
| C72 | GraphicalModelKsat::iterate, run_impa in float and double | RoundedKsat, Spec/Ieee | `Spec.ieee` is IEEE 754 round to nearest even with subnormals and overflow, without signed zeros; every addition, subtraction and multiplication of the solver is rounded once, as without fused multiply-add or extended precision. **False in general**: overflow after 130 iterations, `C72_claim_false` |
| C73 | GraphicalModelKcMwm::iterate, ImpaKcMwm.iterate in float and double | RoundedKc, Spec/Ieee | as for C72; the costs in the input are exact, so reading them into the format is not modelled |
| C74 | run_post_processing | KsatPost | with two violated clauses an improvement accepted early can block a repair of two variables (four clauses over three variables) |
| C75 | iterate_relaxed_graph, perform_augmentation, run_impa | RoundedTsp | with cuts, messages grow faster than linearly: five cities, eleven iterations, one augmentation round |
| C76 | iterate_augmented_graph | TspRun | one run with given cuts; whether a call of the program meets the symmetric instance of the growth theorem is not proved |
| C77 | find_closed_loop | TspSearchCalls | the same search with a counter of calls, proved to return the result of `findLoop`. **False in general**: exponentially many calls. Whether beliefs of a run lead to such selections is not proved |
| C78 | process_inputs of the three solvers, intrinsic_out_mwm_update | IndexInt | 32-bit `int` for positions only; sums of weights and states in knapsack.hpp and counters are not checked |
| C79 | TSP solver with all rounds, TSP calls | TspSolve, TspCall | simulation between two runs with renamed nodes and permuted edges; needs that selected cycles with a common node are the same |
| C80 | k-SAT solver and call | KsatRun, KsatCall | generalises the pure literals of C56; the relation to the smaller formula is a simulation between two runs |
| C81 | cost generation, random tests and tests from files of the k-SAT class | KsatMetrics, KsatGen, KsatCall | the normal draws are an arbitrary sequence; the bounds on it are hypotheses |
| C82 | comparison functions of the unit tests | TestOracle | numpy max, nanmax, division by zero and broadcasting modelled; the reading of the files is not |
| C83 | `get_loops`, `find_loops` of the Python TSP class | PyGetLoops | not called by the rest of the package; the depth of the recursion is bounded and shown to suffice |
| C84 | relaxed and augmented rounds of the TSP solver with infinite costs | Forbidden, InfCuts, InfRounds, TspRun, TspSolve | same model as C12-C21; infinities and NaN follow the rules of `Num` |
| C85 | the k-SAT solver with infinite metrics | Assume, KsatRun, KsatConstraint, Equality | same model as C13; infinities and NaN follow the rules of `Num` |
| C86 | the assignment solver and main_kc_mwm with infinite costs of pairs | ForbiddenPairs, BigPair, BigPairCall, KcRun, KcIO, KcCall | same model as C54; infinities and NaN follow the rules of `Num` |
| C87 | test/python_kc_mwm/src/graphical_model.py (initialize, iterate, pre_analysis, post_analysis), test/python_ksat/src/graphical_model.py (run_impa, hard_decision_analysis) | PyKcCall, PyKc, PyKsat, KcCall, KsatCall | methods with the same text as in Impa.py share their model; printing and times left out |
| C88, C89 | main_tsp.py, main_ksat.py, main_kc_mwm.py (options, names of files), unit_test_*.sh and `FILT_FLAG` in test/include | CommandLine | `argparse` by its documentation; conversions of texts to numbers are parameters; `--` is not modelled; reading and writing of the files is not modelled |
| C90 | knapsack.hpp, called through the wrapper and Impa.py | KnapDefined | reads outside an array and `erase` of a missing element are `none` |
| C91 | the k-SAT solver and call with clauses of one literal | UnitClauses | same model as C13 and C24; infinities and NaN follow the rules of `Num` |
| C92 | the TSP solver, all rounds, any numbers | TspSafe | same model as C20; `none` is a read or write outside an array, `some none` the end of the program |
| C93 | the k-SAT solver and call, any numbers | KsatSafe | same model as C13 and C24; `none` is a read or write outside an array |
| C94 | `results_analysis`: the printed totals | KcSummary | a printed line is a field of `KcSummary`; texts and formats are not modelled |
| C95 | `run_minisat.py`: `read_cnf_file` and the evaluation of the model; `process2cnf.py` | Minisat, Cnf | a file is a list of characters; numbers are digits with at most a minus sign; the solver is a parameter |
| C96 | `generate_inputs.py` of the k-SAT and TSP tests | Samples, KsatGen, KsatMetrics, TspPost | draws are parameters; the file is the stored list |
| C97 | `run_pre_analysis`, the cost in `solve_tsp_lkh` | TspCompare, TspIO | the tour of the reference solver is a parameter; running times left out |
| C98 | `test/src/test_EOP` | TestSum, RoundedKc | draws and sizes are parameters |
| C99 | `examples/*/demo.cpp` | Demos | settings are parameters; decimal constants are exact; what the library prints is not modelled |
| C100 | `test/python_*/test/ut_*.py`, `test/include/ut_*.hpp` | UnitTests, UnitDraws | the drawn numbers are arguments, what the drivers build from them is modelled; the `.npy` files are in C102 |
| C101 | the k-SAT run of C13 and the call of C53 | KsatLocal | same model; distances and depths are defined in Spec/Locality.lean |
| C102 | `test/external/cnpy/cnpy.{h,cpp}`, `.npy` files | Npy, NpyFiles | files are lists of bytes; little-endian machine; the format of numpy is in Spec/Npy.lean |
| C103 | `test/external/cnpy/cnpy.{h,cpp}`, archives; `example1.cpp` | Npy, Npz, Zip, NpyFiles | compressed members are not modelled (they count as errors); `crc32` is a parameter; reading by the directory is in Spec/Zip.lean |
| C104 | `take_int`, `args.Nu.split(",")` | TakeInt | the locale is "C"; `int` has 32 bits; only ASCII digits in the Python reader |
| C105 | `test/src/unit_test_*.sh`, names of the files in all unit tests | TestScripts | the folders are lists of names and contents; what the programs compute is a parameter; a program that dies has written the first files of its list |
| C106 | whole runs of the k-SAT solver | Unmixed | the condition on the signs is in Spec/Unmixed.lean; no new model code |
| C107 | whole runs of the k-SAT solver in float and double | UnmixedSingle | rounded model as in C72; no new model code |
| C108 | whole runs and calls of the k-SAT solver | Relaxation | spec: linear relaxation (Spec/Relaxation); duality proved from scratch by elimination (Proofs/Farkas, Proofs/CoverBound); no new model code |
| C109 | whole damped runs and calls of the k-SAT solver | UnmixedDamped | no new model code |
| C110 | whole runs and calls of the k-SAT solver | OneCycle | no new model code; the graph part (a graph with at most one cycle in each part has at most as many edges as vertices) also strengthens C67 and C70 |
| C111 | clause update and whole k-SAT runs on clauses that repeat variables | Repeated | no new model code; tables may repeat variables, signs are 1 or -1, clauses have at least two literals |
| C112 | whole k-SAT runs on formulas without mixed variables, by parity of the number of iterations | OddRuns | no new model code; no damping; threshold zero |
| C113 | whole k-SAT runs with damping on formulas in which all variables look alike | Regular | no new model code; equal costs, equal numbers of occurrences, no mixed variables |
| C114 | whole k-SAT runs with even numbers of iterations on formulas without mixed variables | EvenRuns | no new model code; threshold zero; beliefs that are zero are left out |
| C115 | costs of the assignments that k-SAT runs without negated literals report | OddCost | no new model code; costs that are not negative; threshold zero |
| C116 | costs of the assignments after even and odd numbers of iterations on formulas without mixed variables | CostBracket | no new model code; threshold zero; beliefs that are zero are left out for the lower bound |
| C117 | C114 to C116 for the rounded arithmetic of C107 | SingleCosts | no new model code; costs are multiples of a power of two within the bounds of C107 |
| C21, C22 | process_ouputs, buffers and decoding in Impa.py | TspOut | sizes compared; round trips; C21 is false (witness) |
| C23, C24 | input_output.hpp input classes, Wrapper.cpp, ctypes code in Impa.py | KcIO, KsatIO | round trips by index arithmetic, then composed with C11 and C13 |
| C25-C27, C34, C45 | Impa.py TSP class: create_cost_matrix, undirected_graph, construct_graph, run_post_processing_improved, perform_k_opt, add_missing_nodes, find_indices_edges_from_tour, find_paths, get_paths, generate_k_opt_paths | TspPost | degree invariants of the cleaned edge set, chains, permutation proofs |
| C28, C30, C35, C40 | Impa.py k-SAT class: get_summary, hard_decision_analysis, run_post_processing, calculate_similarity | KsatPost | set reasoning, invariants over trials |
| C29 | Impa.py create_model_structure | KsatGen | invariants over draws |
| C31, C32, C42-C44 | Impa.py KcMwm class: pre_analysis, check_match, check_unbalanced_flag, post-processing, results_analysis | KcPost | loop invariants; composition with C33 |
| C33, C41 | Impa.py prune_teams, team_reward_generation | KcTeams | loop invariants over pairs and types |
| C36 | pure Python updates and runs under test/python_* | PyNp, PyKc, PyKsat, PyTsp | closed forms compared with those of the C++ models, then induction over the iterations |
| C37 | process2cnf.py | Cnf | character level round trip |

## Where the code does not do what the property says

Each entry has a theorem `Cnn_claim_false` with a concrete witness (or the named theorem), and the property is proved under an explicit
guard that excludes the witness.

* C03, C11: the running minimum over a team's projects starts at the literal 1000000, so larger messages are cut off.
* C10: the message of a team to a department leaves out its own contribution correctly only for teams in at most two departments.
* C18: the cost of a reported tour includes other selected edges (a chord can be selected as well).
* C21: the buffer for selected edges has comb(n,2) entries, two per edge are written; three or four nodes always overflow it.
* C39: a selection of cost zero (for example no selected edge) ends the whole process with `exit(0)`.
* C25, C45: with overfull nodes all selected edges can be removed, then the code raises IndexError. k-opt raises ValueError with four
  or fewer nodes.
* C30: the second phase of k-SAT post-processing compares with the count of the last rejected trial, so the result can be worse.
* C31: with a positive threshold a belief between 0 and the threshold is not matched.
* C33, C32: a kind of team that does not fit gets one weight entry without a team, later weights are shifted. Capacities can then be
  exceeded at the end.
* C43: with equal beliefs the removed team can be a selected team outside the overloaded unit that has the same belief.
* C44: the report considers at most two projects per team and at most one team per project.
* C36: the balanced project update of the pure Python solver is not clipped at zero (it sends exactly-one messages, C++ sends
  at-most-one messages); the 1000000 cut-off exists only in C++; damping with rate 0 raises UnboundLocalError in Python; groups of one
  edge or one team raise ValueError in Python while C++ sends infinities; zero iterations raise AttributeError in Python.
* C60: if the relaxed round selects no cycle, the native solver goes on without constraints, while the pure Python TSP program raises
  AxisError in the next round (it sums over the second axis of an empty list). The Python program has no round limit and no stop flags.
* C61: when several selected edges leave a node, the iteration order of `std::unordered_map` decides which loops are dropped as
  duplicates. For the same arguments a call can find a tour in one order and end the process in another order.
* C68: the table of distances has 3 from unit 7 to units 10 and 11 but 2 back, so both orders of these pairs are offered.
* C72, C75: whole costs and many iterations let messages grow beyond 2^24 (or overflow), so single precision can decide differently from
  exact arithmetic.
* C74: post-processing keeps the first assignment with fewer violated clauses. With two violated clauses this can block a repair that the
  search would have reached otherwise.
* C77: `find_closed_loop` takes `visited` by value and can make exponentially many calls.
* C82: the unit tests accept any result once one difference is NaN (a NaN on one side, or equal infinities), because `np.max` returns NaN and `NaN > tol` is false. `check_forward_backward_results` compares `any(errors)` (a truth value) with the tolerance, so it demands identical tables, and it removes the infinite entries of both tables separately, so it does not notice where they are.
* C83: `get_loops` starts no search from a node that an earlier search has passed, so with edges 0→1, 1→2, 2→1 it does not find the loop of length 2.
* C84: with infinite costs `edge_ec_to_subtour_constraints_update` subtracts minus infinity from a sum that contains it as soon as only one allowed edge leaves one of two or more cuts; NaN appears and the process ends, although the solver finds the tour if the forbidden edges cost 100. With two allowed edges leaving every set of nodes this cannot happen (C84_all_rounds_partial).
* C85: the forward table of `ksat_constraint_to_variable_ec_update` starts with plus infinity; a literal assumed true then adds minus infinity to it and the entry is NaN. A clause of three literals whose first is assumed true and whose last is assumed false therefore sends minus infinity to the middle one, although it is satisfied.
* C87: with equally many teams and projects the pure Python assignment program does not clip the project messages (`unbalanced_flag`), so it assigns every team even if every assignment costs something, while the native program reports nothing (`C87_balanced`); with one project it takes the minimum of an empty array and raises an exception (`C87_one_project`).
* C88: flags are declared with `type=bool`, so `--filteringFlag=False` switches filtering on and `--randomTestFlag=False` runs a random test instead of the file (`C88_claim_false`, `C88_on_partial`); only the empty text switches a flag off. `unit_test_ksat.sh` passes `--typeMetrics=0`, which is read as True. The native tests convert the pointer from `getenv` to `bool`, so `FILT_FLAG=false` filters as well.
* C89: the folder of the results contains the filtering parameter with one digit and no other numerical option, so runs with 0.46 and 0.54 or with different numbers of iterations overwrite each other (`C89_claim_false`).

Further observations (in examples or notes of the theorems):

* An augmentation limit of 0 is never met, since the count is compared for equality after it was increased (C20).
* Infinite costs of teams are not covered by C86: the knapsack messages of such a team are NaN (infinity minus infinity).
* When a tour is found the subtours reach Python as None although the solver holds the loop of the tour (C22).
* The TSP ctypes prototype passes the damping rate before the damping flag while the C function takes the flag first. This is
  harmless only on calling conventions that pass integers and doubles in different registers (C47).
* Python leaves out edges of cost zero while the native side always reads n*n-n edges, so a zero cost between two nodes leads to
  a read past the end (C48_zero_cost).
* `np.array(int).ctypes.data_as(c_int_p)` hands a 64-bit integer to C++ as `int*`. This works on little-endian machines because the
  initial value is 0.
* With symmetric costs both orientations of an edge get the same belief in the relaxed round, so an instance of the symmetric TSP never
  has a unique best cover and the reported cost counts both orientations (C51).
* With cuts and without damping, TSP messages can grow exponentially with the number of iterations (C76). They can leave the range of exact
  integers of `float` after a few iterations (C75).
* With more than 1290 nodes the native TSP reader overflows `int` (C78).
* The CNF reader of `run_minisat.py` drops the last word of every clause line, so a clause whose closing 0 is on the next line loses a literal (C95).
  It numbers clauses by lines, so a comment or an empty line between clauses shifts the numbers, and it fails if the first one is shifted.
* `run_pre_analysis` with the option for saving but without the LKH option raises an AttributeError after the run, so nothing is stored (C97).
* `test_EOP.cpp` compares sums taken in different orders for equality, so it can fail in `double` (C98).
* C100: the unit test of the project constraints fails whenever there are as many projects as teams (`C100_claim_false`), as a consequence of C36; the tests of the TSP equality constraint would fail on messages that are not zero off an edge's nodes. `IterateAugmentedGraph` fails on some drawn matrices because the Python program does not handle a relaxed run without a cycle (`C100_augmented_claim_false`). The drivers of the assignment tests fail before testing if a department has no room for one of the kinds of teams and the rows get different lengths, and the run with more than 11 departments fails (`C100_drawn_many_departments`). An empty `FILT_FLAG` switches filtering off in Python (`type=bool`) and on in the native test (`getenv` not null).
* cnpy, the reader of the native tests: appending to an array with several dimensions can make the header sixteen bytes longer, and the longer header overwrites the
  first sixteen bytes of the data (C102_append_claim_false); the assertion that should refuse data with another number of dimensions repeats its own condition
  (cnpy.h:105-108), so a list is appended to a table and the file cannot be read afterwards (C102_refuse_claim_false, C102_spoiled); a header line of more than
  256 bytes does not fit the buffer (C102_claim_false); `npz_load(fname)` keeps the last array of a name, `npz_load(fname, name)` returns the first (C103_same_claim_false).
* The Python drivers read `1_0` in the list of units as ten, the native tests as one (C104_claim_false).
* The unit-test scripts remove the results only after the last sub-test of a test: with `total_sub_tests` above 1 a sub-test in which both programs die is reported
  with the files of the one before it, as PASSED (C105_fresh_claim_false).  Their exit status is that of the last `rm`, so it is 0 when every comparison fails
  (C105_status_claim_false).
* The comments in update_ksat_constraint.hpp:118-126 and update_equality_constraint.hpp:316-323 say that clauses with a repeated variable are handled.  The
  message to such a variable is limited by its own cost (C111_repeated, C111_claim_false): "x or x or x" with a positive cost of x is decided to be false after
  every even number of undamped iterations (C111_unsatisfied), and so is "x or y" filled up to "x or x or y" when x is the cheaper one (C111_padded); "x or not x" pushes x the way it leans instead of leaving it alone (C111_both).
* Without damping, the k-SAT solver on vertex covers and hitting sets is right after odd numbers of iterations and may be entirely wrong after even ones: on the
  complete graph with four nodes and costs 4, 5, 6 and 7 every even number of iterations chooses no node (C112_claim_false).  Listing one clause three times has
  the same effect (example in Properties/OddRuns.lean).
* No damping factor makes the k-SAT solver satisfy every formula without mixed variables: on "at most one of three variables" with equal costs every even number of
  iterations violates all clauses, for all damping factors (C113_claim_false).
* Odd numbers of iterations satisfy such formulas without negations, but at any price: if two nodes are each joined to m others, all m + 2 nodes are taken
  instead of two (C115_claim_false).  The price is bounded by the number of clauses a variable is in (C115_bound).
* Rounding can make the k-SAT solver fail on a tree: on a path with four nodes and costs 3, 2^24+2, 2^26 and 2^24+2 odd numbers of iterations in `float` leave an edge
  uncovered, which exact arithmetic never does; so do three iterations with costs 0.4, 0.5, 0.9 and 0.8 on another path.  Six iterations
  on the triangle with costs 0.4, 0.3 and 0.7 report all nodes, at twice the necessary cost (C117_claim_false, C117_tenths, C117_even_claim_false; found with a search outside Lean, then proved).
* `np.int` is used in `apply_post_processing_teams_brute`; recent numpy versions raise AttributeError.

## Not modelled

* Floating point rounding and overflow except in C63, C64, C65, C72, C73, C75, C98 and C107, signed zeros, overflow of `int` except in C78, run time except in C77, memory use.
* Printing and values that are only printed (except those of C94); pickling, file access; of the command lines (main_*.py, environmentModule.py) what C88 and C89 do not cover.
* ctypes conversions of values and pointers (only the order and kind of arguments is modelled, C47).
* Reference solvers: exact, LKH and simulated annealing (called from Impa.py), Minisat (a parameter in C95).
* In `test/python_*`: the random generators of the test drivers (the tests themselves and what the drivers build from the drawn numbers are in C100, the comparisons in C82); of `graphical_model.py` the message
  passing (C36) and the rounds of the TSP program (C60), not the copies of the post-processing (`apply_post_processing` in
  `test/python_kc_mwm` is textually the same as the first option in Impa.py).

## Axioms of each theorem

**propext, Classical.choice, Quot.sound** (524 theorems):
C01_project_message_extrinsic, C01_project_messages_exact, C02_coupling_messages_exact, C03_claim_false,
C03_team_message_exact_partial, C04_clause_message_extrinsic, C04_clause_messages_exact, C04_clause_messages_push,
C05_degree_messages_exact, C05_degree_messages_value, C06_subtour_messages_exact, C07_knapsack_messages_exact,
C07_knapsack_messages_finite, C08_damping_closed_form, C08_damping_department, C08_damping_forgets, C08_damping_range,
C09_edge_augmented, C09_edge_relaxed, C09_edge_subtour, C09_project_to_coupling, C09_team_to_coupling, C09_variable_to_clause,
C100_augmented_claim_false, C100_backward, C100_claim_false, C100_clause, C100_coupling, C100_cut, C100_degree, C100_department,
C100_detects_flat, C100_detects_table, C100_detects_vector, C100_drawn_backward, C100_drawn_clause, C100_drawn_degree,
C100_drawn_department, C100_drawn_edge_augmented, C100_drawn_edge_cut, C100_drawn_edge_relaxed, C100_drawn_extrinsic_augmented,
C100_drawn_extrinsic_relaxed, C100_drawn_forward, C100_drawn_kc_iterate_partial, C100_drawn_ksat_iterate,
C100_drawn_many_departments, C100_drawn_output, C100_drawn_subtour, C100_drawn_tsp_augmented_partial, C100_drawn_tsp_iterate,
C100_drawn_variable, C100_edge_augmented, C100_edge_cut, C100_edge_relaxed, C100_extrinsic_team, C100_filter, C100_forward,
C100_intrinsic, C100_kc_iterate_partial, C100_ksat_extrinsic, C100_ksat_iterate, C100_output, C100_plain_formula,
C100_project_partial, C100_project_to_coupling, C100_team, C100_team_to_coupling, C100_tsp_extrinsic_augmented,
C100_tsp_extrinsic_relaxed, C100_tsp_iterate, C100_variable, C101_decision, C101_enough, C101_local, C101_needed,
C101_surroundings, C102_append_claim_false, C102_append_partial, C102_append_tables, C102_claim_false, C102_dimensions,
C102_element_size, C102_elements, C102_format, C102_load, C102_partial, C102_refuse_claim_false, C102_short, C102_spoiled,
C103_directory, C103_example, C103_find, C103_load, C103_same_claim_false, C103_same_partial, C104_blanks, C104_claim_false,
C104_native, C104_overflow, C104_partial, C104_python, C104_refused, C105_complete, C105_fresh_claim_false, C105_fresh_partial,
C105_reads, C105_status, C105_status_claim_false, C105_verdict, C106_bounds, C106_bracket, C106_decisions, C106_final, C106_mixed,
C106_settles, C107_exact, C107_ieee, C107_settles, C107_wide, C108_certified, C108_exists, C108_parity, C108_persistent,
C108_relaxation, C109_bracket, C109_certified, C109_decisions, C109_factor_one, C109_limit, C10_claim_false,
C10_team_to_department_partial, C110_criterion, C110_more_cycles, C110_optimal, C111_alternates, C111_both, C111_claim_false,
C111_file, C111_messages, C111_never, C111_once_partial, C111_own_cost, C111_padded, C111_padded_file, C111_repeated,
C111_settled, C111_tautology, C111_unsatisfied, C112_alternates, C112_claim_false, C112_claim_partial, C112_odd, C112_odd_beliefs,
C112_odd_plain, C112_often, C112_tie, C113_all_or_none, C113_claim_false, C113_equal, C113_value, C113_violated, C114_call,
C114_damped, C114_optimal, C114_parity, C114_stays, C115_attained, C115_bound, C115_call, C115_claim_false, C115_claim_partial,
C115_hubs, C116_calls, C116_damped, C116_fractional, C116_lower, C116_order, C116_tie, C117_claim_false, C117_double, C117_even,
C117_even_claim_false, C117_lower, C117_odd, C117_rounding, C117_tenths, C117_triangle, C11_below_limit_is_textbook,
C11_claim_false, C11_run, C11_textbook_run_partial, C12_complete_two_ways, C12_relaxed_run, C12_two_nodes_infinite, C13_ksat_run,
C13_no_iterations, C13_trace_unique, C14_hard_decision, C15_search_terminates, C16_tour, C16_tour_found, C17_all_cycles,
C17_nodes_covered, C17_subtours, C18_claim_false, C18_cost_partial, C18_exact_partial, C19_round, C19_rounds, C19_two_edges,
C20_rounds, C20_rows, C20_terminates, C20_tour, C21_claim_false, C21_fits_iff_partial, C21_fits_partial, C21_small_overflow,
C22_decoded, C22_meaning, C23_beliefs, C23_call, C23_decoded, C23_flattens, C23_trace, C24_call, C24_decoded, C24_used_needed,
C25_claim_false, C25_kept, C25_path_partial, C25_returns, C25_selection_claim_false, C25_selection_partial, C25_structure,
C25_tour, C26_kopt, C26_small, C27_greedy, C27_nothing_lost, C27_once, C28_report, C29_generated, C29_solver_ready,
C30_claim_false, C30_first_phase_partial, C30_one_violated_partial, C30_reported, C31_claim_false, C31_nonpositive_partial,
C31_positive, C32_claim_false, C32_fits_partial, C33_claim_false, C33_rewards, C33_weights_partial, C34_complete, C34_edges,
C34_matrix, C35_similarity, C36_claim_false, C36_clause_agrees, C36_coupling_agrees, C36_cut_agrees, C36_degree_agrees,
C36_department_agrees, C36_kc_run_partial, C36_knapsack_agrees, C36_ksat_run, C36_project_balanced, C36_project_partial,
C36_team_partial, C36_tsp_augmented_run, C36_tsp_relaxed_run, C36_zero_rate_differs, C37_injective, C37_round_trip,
C38_augmented_run, C39_claim_false, C39_returns_partial, C40_decision, C41_pruned, C42_valid, C43_claim_false,
C43_distinct_partial, C43_ties, C44_best_partial, C44_claim_false, C44_report, C45_claim_false, C45_node, C45_replaced_partial,
C45_subtours, C46_determined, C46_exit, C46_rounds, C47_swap, C47_tsp, C48_decoded, C48_defined, C48_instance, C48_zero_cost,
C49_ends, C49_other_edges, C49_result, C50_beliefs, C50_certificate, C50_gap, C50_optimal_tour, C50_optimal_tour_after, C50_rate,
C50_relaxed, C50_relaxed_after, C51_call, C51_generated, C51_round, C52_beliefs, C52_converges, C52_decision, C52_forest_iff,
C52_solves, C52_solves_damped, C53_call, C53_generated, C54_call, C54_matching, C54_mismatch, C54_plain, C55_beliefs, C55_report,
C55_scale, C56_pure, C56_report, C57_beliefs, C57_call, C58_call, C58_names, C58_units, C59_call, C59_relaxed,
C60_any_order_partial, C60_claim_false, C60_no_improvement, C60_no_loop_crash, C60_same_run_partial, C61_claim_false,
C61_determined, C61_one_out, C61_same_outcome_partial, C62_beliefs, C62_call, C62_certificate, C62_one_type, C62_solver, C63_call,
C63_exact, C63_integers, C64_call, C64_exact, C64_integers, C65_call, C65_exact, C65_integers, C66_kc, C66_kc_settled, C66_ksat,
C66_ksat_settled, C66_tsp_augmented, C66_tsp_relaxed, C67_kc, C67_ksat, C67_ksat_unsat, C67_tsp, C67_tsp_messages, C68_applies,
C68_call, C68_claim_false, C68_pruned_partial, C68_rewards, C69_limit_matters, C69_names, C69_projects, C69_units, C70_beliefs,
C70_below_limit, C70_periodic, C70_programs_agree, C70_settled, C70_textbook, C70_units, C71_ksat_bound, C71_ksat_growth,
C71_ksat_unbounded, C71_tsp_bound, C71_tsp_growth, C72_claim_false, C72_exact_partial, C72_formats, C72_ieee_partial,
C72_messages_partial, C73_exact, C73_ieee, C74_brute_force_partial, C74_claim_false, C74_shared_literal, C74_single_flip,
C75_claim_false, C75_exact_partial, C75_ieee_partial, C75_rounds_ieee_partial, C75_rounds_partial, C76_bound, C76_growth,
C77_bound_partial, C77_claim_false, C77_exponential, C77_failed_search, C78_kc, C78_ksat, C78_tsp, C79_call, C79_same_outcome,
C80_beliefs, C80_report, C80_rest, C80_satisfies, C80_solves, C81_file, C81_metrics, C81_random, C82_claim_false,
C82_finite_partial, C82_misplaced, C82_nan_passes, C82_tables_claim_false, C82_tables_partial, C83_complete_partial, C83_sound,
C84_all_rounds_partial, C84_best_partial, C84_claim_false, C84_finite_certificate_partial, C84_never_selected_partial,
C84_tour_partial, C84_two_leave_partial, C85_agrees_partial, C85_claim_false, C85_unit_propagation_partial, C86_call, C86_iterate,
C86_never, C86_optimal, C87_balanced, C87_claim_false, C87_ksat, C87_one_project, C87_optimal, C87_same_partial, C88_abbreviation,
C88_ambiguous, C88_claim_false, C88_kc_partial, C88_kc_run, C88_ksat_runs, C88_negative, C88_off_partial, C88_on_partial,
C88_random_partial, C88_settings, C88_tests_partial, C88_tsp_runs, C89_claim_false, C89_loaded, C89_one_digit_partial,
C89_same_file_partial, C89_tenth_partial, C90_call, C90_department, C90_needed, C91_beliefs, C91_call, C92_complete, C92_relaxed,
C92_rounds, C93_call, C93_no_iterations, C93_report, C93_size, C93_solver, C94_listed, C94_one_team, C94_plain, C94_printed,
C95_claim_false, C95_evaluation, C95_generated, C95_read_partial, C95_solver, C96_ksat_biased, C96_ksat_runs, C96_ksat_written,
C96_tsp, C97_claim_false, C97_gap, C97_no_reference, C97_reference, C97_stored_partial, C97_symmetric, C98_claim_false,
C98_difference, C98_error, C98_exact, C98_nan, C98_native, C98_python, C98_sums_partial, C98_whole_partial, C99_kc,
C99_ksat_arrays, C99_ksat_python, C99_ksat_signs, C99_tsp, C99_tsp_arrays

**propext, Quot.sound** (11 theorems):
C26_three, C26_two, C36_team_limit_differs, C36_tsp_new_cuts, C38_new_cuts, C47_kc, C47_ksat, C60_comparison, C77_same_result,
C83_claim_false, C99_kc_arrays

**propext** (1 theorems):
C47_tsp_by_position
