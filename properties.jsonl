{"id": "C01", "title": "Project constraint messages are exact at-most-one messages", "statement": "For one project, the message sent back to each team is exactly the min-sum message of the constraint 'at most one team is matched to this project': the cheapest legal choice that matches the team, minus the cheapest legal choice that does not, minus the team's own incoming message. It never depends on the team's own incoming message and is never negative.", "quantifier": "For every number of projects and teams and every matrix of finite incoming messages.", "why_tests_cant": "A test compares a handful of random matrices with numpy; the claim is about all sizes, all ties, all sign patterns and the boundary columns of the trellis.", "anchors": ["include/impalib/project_inequality_constraint.hpp: InequalityConstraint::project_inequality_constraint_update"]}
{"id": "C02", "title": "Team-project messages are exact for the 'a formed team has exactly one project' constraint", "statement": "The message from a team's coupling constraint to each of its projects is the exact min-sum message of 'the team is active iff exactly one of its project edges is active', and the message passed on to the project side is that message plus the project reward.", "quantifier": "For every number of projects and teams, all finite messages and rewards.", "why_tests_cant": "Exhaustive minimisation over all assignments cannot be tested for all sizes and all reals; unit tests compare to another hand-written formula.", "anchors": ["include/impalib/update_or_inequality_constraint.hpp: OrInequalityConstraint::oric_to_project_eq_constraint_update"]}
{"id": "C03", "title": "Message from the coupling constraint to a team is the minimum over its projects", "statement": "The message returned to a team equals the smallest of the messages it has on its project edges (the exact min-sum message of the coupling constraint).", "quantifier": "For every number of projects at least one, all finite messages.", "why_tests_cant": "Fails only for messages all above the literal 1000000 used to start the minimum, a region random tests do not visit.", "anchors": ["include/impalib/update_or_inequality_constraint.hpp: OrInequalityConstraint::oric_to_team_update"]}
{"id": "C04", "title": "k-SAT clause messages are exact", "statement": "The message from a clause to each of its variables is the exact min-sum message of 'at least one literal of the clause is true' (positive literals true at 1, negative literals true at 0). Consequently it does not depend on the variable's own message, it always pushes the variable towards satisfying the clause, and it is never larger in magnitude than the smallest other literal message.", "quantifier": "For every clause length k >= 2, every choice of k distinct variables and literal signs, every number of clauses, all finite messages.", "why_tests_cant": "The clause trellis has special cases at the first and last stage and a write guard on magnitudes; tests only sample random clauses.", "anchors": ["include/impalib/update_ksat_constraint.hpp: KsatConstraint::ksat_constraint_to_variable_ec_update"]}
{"id": "C05", "title": "Degree constraint messages are exact exactly-one messages", "statement": "For every node the message to an outgoing (incoming) edge is the exact min-sum message of 'exactly one outgoing (incoming) edge of the node is selected', i.e. minus the minimum of the messages of the other outgoing (incoming) edges; all entries of edges not touching the node are zero; with a single candidate edge the message is minus infinity (the edge is forced).", "quantifier": "For every directed edge list without self loops in which every node has at least one outgoing and one incoming edge, all finite messages.", "why_tests_cant": "Scratch tables are shared by both passes and indexed by edge number; correctness for all edge lists and orders is not samplable.", "anchors": ["include/impalib/update_degree_constraint.hpp: DegreeConstraint::degree_constraint_to_edge_ec_update"]}
{"id": "C06", "title": "Subtour elimination messages are exact at-least-one messages", "statement": "For every added subtour constraint, the message to each crossing edge is the exact min-sum message of 'at least one edge leaves the subtour'; it is never positive, and edges outside the constraint get zero.", "quantifier": "For every list of nonempty duplicate-free edge index sets, every number of edges, all finite messages.", "why_tests_cant": "Tests use a fixed random constraint list; the claim covers every set, order and tie.", "anchors": ["include/impalib/subtour_elimination_constraint.hpp: SubtourEliminationConstraint::subtour_constraints_to_edge_ec_update"]}
{"id": "C07", "title": "Knapsack messages are exact", "statement": "For every department the message returned to each team that uses the department equals the cheapest total over team sets that fit the department's capacity and contain the team, minus the cheapest over fitting sets that do not contain it, minus the team's own message. Teams with zero weight get zero. This holds whatever the pattern of zero-weight teams.", "quantifier": "For every capacity, every number of teams, every weight vector with at least one positive weight and no weight above the capacity, all finite messages.", "why_tests_cant": "The claim quantifies over exponentially many subsets, all gap patterns in the index list and all reals.", "anchors": ["include/impalib/knapsack.hpp: Knapsack::forward, Knapsack::backward, Knapsack::extrinsic_output_department_lhs"]}
{"id": "C08", "title": "Damping is exact exponential smoothing and forgets earlier runs", "statement": "With damping on and rate alpha, the message after iteration k of a run is (1-alpha) times the alpha-discounted sum of the raw messages of the same run; with damping off or rate 0 it equals the raw message. The result never depends on messages left over from a previous run (an earlier augmentation round), and for 0<=alpha<=1 it stays within the range spanned by 0 and the raw messages.", "quantifier": "For every iteration count, every rate, every sequence of raw messages, and every leftover state.", "why_tests_cant": "History independence and the closed form quantify over all iteration sequences.", "anchors": ["include/impalib/update_degree_constraint.hpp: DegreeConstraint::process_filtering", "include/impalib/subtour_elimination_constraint.hpp: SubtourEliminationConstraint::process_filtering", "include/impalib/update_ksat_constraint.hpp: KsatConstraint::process_filtering", "include/impalib/knapsack.hpp: Knapsack::process_extrinsic_output_department"]}
{"id": "C09", "title": "Variable nodes send each neighbour the sum of everything except that neighbour's own message", "statement": "For TSP edges, in the relaxed graph, in the augmented graph towards degree constraints and towards subtour constraints, and for k-SAT variables towards clauses, the outgoing message equals the own cost plus all incoming messages except the recipient's. The single-constraint special case gives the same value as the general rule.", "quantifier": "For every edge list without self loops, every list of constraints, every formula, all finite messages.", "why_tests_cant": "Echoing a neighbour's own message is the classic belief propagation bug and is invisible on small converged tests.", "anchors": ["include/impalib/update_equality_constraint.hpp: EqualityConstraint::edge_ec_to_degree_constraint_relaxed_graph_update, edge_ec_to_subtour_constraints_update, edge_ec_to_degree_constraint_augmented_graph_update, flip_matrix, variable_ec_to_ksat_constraint_update"]}
{"id": "C10", "title": "A team tells each department the value seen by everybody else", "statement": "The message from a team to a department it uses equals the team reward plus the coupling message plus the messages of all its other departments.", "quantifier": "For every number of departments and teams, every weight table, all finite messages.", "why_tests_cant": "The implementation combines set intersections and in-place erasures over departments; correctness for every overlap pattern is not samplable (and it fails beyond two departments per team).", "anchors": ["include/impalib/knapsack.hpp: Knapsack::team_to_knapsack_update"]}
{"id": "C11", "title": "A complete assignment-with-capacities run is the textbook min-sum algorithm and stays finite", "statement": "Running the solver for any number of iterations on well-formed finite inputs never reads or writes outside its arrays, never produces an infinity or NaN, and returns exactly what the mathematical min-sum algorithm with the same schedule returns.", "quantifier": "For every instance whose teams use one or two departments, every iteration count, every damping setting.", "why_tests_cant": "Requires induction over iterations and all instances.", "anchors": ["include/impalib/graphical_model.hpp: GraphicalModelKcMwm::iterate", "src/impa/Wrapper.cpp: WrapperKcMwm"]}
{"id": "C12", "title": "A complete relaxed TSP run is the textbook min-sum algorithm and stays finite", "statement": "Running the relaxed TSP phase for any number of iterations on a complete directed graph with at least three nodes never produces an infinity or NaN and equals the mathematical min-sum algorithm; with two nodes messages become infinite.", "quantifier": "For every n >= 3, all finite costs, every iteration count, every damping setting.", "why_tests_cant": "Requires induction over iterations and all instances.", "anchors": ["include/impalib/graphical_model.hpp: GraphicalModelTsp::iterate_relaxed_graph"]}
{"id": "C13", "title": "A complete k-SAT run is the textbook min-sum algorithm and stays finite", "statement": "Running the k-SAT solver for any number of iterations on a formula with clauses of k >= 2 distinct variables never produces an infinity or NaN, equals the mathematical min-sum algorithm, and the output of each variable is the sum of its clause messages.", "quantifier": "For every formula, every iteration count, every damping setting.", "why_tests_cant": "Requires induction over iterations and all formulas.", "anchors": ["include/impalib/graphical_model.hpp: GraphicalModelKsat::iterate", "include/impalib/input_output.hpp: OutputsKsat::update_extrinsic", "src/impa/Wrapper.cpp: WrapperKsat"]}
{"id": "C14", "title": "TSP hard decision and reported cost agree", "statement": "An edge is reported as selected exactly when its final belief is not above the threshold; the reported cost is the sum of the costs of exactly the reported edges; edges are reported once each in input order.", "quantifier": "For every belief vector (including NaN), threshold and edge list.", "why_tests_cant": "Universally quantified over vectors.", "anchors": ["include/impalib/graphical_model.hpp: GraphicalModelTsp::hard_decision_analysis"]}
{"id": "C15", "title": "The loop search is sound, complete and terminates", "statement": "Starting at a selected edge (s,e), the search returns a path e..s along selected edges without repeated nodes whenever any walk of selected edges from e to s exists, returns nothing otherwise, and always terminates.", "quantifier": "For every set of selected edges, every start edge and every order of the adjacency lists.", "why_tests_cant": "Completeness and termination over all graphs cannot be tested.", "anchors": ["include/impalib/graphical_model.hpp: GraphicalModelTsp::find_closed_loop"]}
{"id": "C16", "title": "A reported tour is a Hamiltonian cycle of selected edges", "statement": "Whenever the solver reports a tour it has n+1 entries, starts and ends at the same node, visits every node exactly once in between and uses only selected edges.", "quantifier": "For every selected edge set, every node count, every hash-map iteration order.", "why_tests_cant": "All graphs and all hash orders.", "anchors": ["include/impalib/graphical_model.hpp: GraphicalModelTsp::subtour_elimination_constraints_analysis, get_closed_loops"]}
{"id": "C17", "title": "Reported subtours are exactly the loop structure of the selected edges", "statement": "The solver reports no subtours iff the selected edges contain no directed cycle; each reported subtour is a simple directed cycle of selected edges; no reported subtour is a rotation of another; every loop dropped as a duplicate is contained in a reported one.", "quantifier": "For every selected edge set and every hash-map iteration order.", "why_tests_cant": "All graphs and all hash orders.", "anchors": ["include/impalib/graphical_model.hpp: GraphicalModelTsp::get_closed_loops, isSubsequence, find_closed_loop"]}
{"id": "C18", "title": "The reported cost is the cost of the reported tour", "statement": "When a tour is reported, the reported cost equals the sum of the costs of the tour's edges.", "quantifier": "For every selected edge set.", "why_tests_cant": "Holds when exactly n edges are selected, but the duplicate filter can hide extra selected edges; only an adversarial graph exposes it.", "anchors": ["include/impalib/graphical_model.hpp: GraphicalModelTsp::hard_decision_analysis, get_closed_loops, subtour_elimination_constraints_analysis"]}
{"id": "C19", "title": "Added subtour constraints are well formed", "statement": "Each added constraint lists, in increasing order and once each, exactly the edges that leave the node set of a detected loop; it is never empty; no constraint is added twice; constraints are never removed or reordered by later rounds.", "quantifier": "For every sequence of augmentation rounds.", "why_tests_cant": "An invariant over histories.", "anchors": ["include/impalib/graphical_model.hpp: GraphicalModelTsp::subtour_elimination_constraints_analysis"]}
{"id": "C20", "title": "Augmentation rounds are bounded and exits are honest", "statement": "With a limit of at least one, at most that many augmentation rounds are executed; a stop flag is only reported after more than the configured number of consecutive events; the run never continues after a tour is found; each round has one message row per constraint.", "quantifier": "For every behaviour of the message passing (arbitrary results in every round), every limit and failure count.", "why_tests_cant": "Quantifies over all histories of rounds.", "anchors": ["include/impalib/graphical_model.hpp: GraphicalModelTsp::perform_augmentation"]}
{"id": "C21", "title": "Result buffers of the TSP call are large enough", "statement": "All values the native call writes to the caller's buffers fit: the selected edges, the tour, the subtours and their sizes.", "quantifier": "For every run.", "why_tests_cant": "A buffer overflow needs particular results; tests on the default size do not overflow.", "anchors": ["src/impa/Impa.py: GraphicalModelTsp.process_inputs_ctypes", "include/impalib/graphical_model.hpp: GraphicalModelTsp::process_ouputs"]}
{"id": "C22", "title": "TSP results decoded in Python equal what the solver produced", "statement": "The tour, the selected edges and the list of subtours obtained in Python by decoding the flat buffers equal the solver's values; the tour is None exactly when none was found.", "quantifier": "For every result that fits the buffers.", "why_tests_cant": "Round trip over all nested lists.", "anchors": ["src/impa/Impa.py: GraphicalModelTsp.process_outputs_ctypes", "include/impalib/graphical_model.hpp: GraphicalModelTsp::process_ouputs"]}
{"id": "C23", "title": "Flat input and output arrays of the assignment solver are decoded faithfully", "statement": "Every matrix flattened by the Python caller is rebuilt identically on the native side, including the padded table of used teams per department, and each project-team belief is written to exactly one output cell that the caller reads back for the same pair.", "quantifier": "For all dimensions and contents.", "why_tests_cant": "Index arithmetic over all sizes.", "anchors": ["include/impalib/input_output.hpp: InputsKcMwm::process_inputs, OutputsKcMwm::intrinsic_out_mwm_update", "src/impa/Impa.py: ImpaKcMwm.process_inputs_ctypes"]}
{"id": "C24", "title": "The k-SAT formula is decoded faithfully", "statement": "The clause lists, literal signs and the variable-to-clause lists rebuilt natively equal the caller's, for every set of used variables that contains all variables with clauses.", "quantifier": "For all formulas.", "why_tests_cant": "Offsets accumulate only over used variables; all layouts must be covered.", "anchors": ["include/impalib/input_output.hpp: InputsKsat::process_inputs", "src/impa/Impa.py: GraphicalModelKsat.process_inputs_ctypes"]}
{"id": "C25", "title": "TSP post-processing always returns a valid tour", "statement": "Whatever the solver's selection, post-processing returns a sequence that visits every node exactly once, and the returned cost is the cost of that closed tour.", "quantifier": "For every selection of edges, every belief vector and cost matrix in which post-processing finds at least one path.", "why_tests_cant": "Edge removal, path extraction and insertion interact; all selections must be covered.", "anchors": ["src/impa/Impa.py: GraphicalModelTsp.run_post_processing_improved, get_paths, find_paths, add_missing_nodes, find_indices_edges_from_tour"]}
{"id": "C26", "title": "k-opt never makes a tour invalid or worse", "statement": "k-opt improvement returns a tour that visits the same nodes, never more expensive than its input, and the returned cost is the cost of the returned tour.", "quantifier": "For every tour and cost matrix on a complete graph with at least five nodes (k = 3) or four (k = 2).", "why_tests_cant": "All tours, all matrices, all sequences of accepted moves.", "anchors": ["src/impa/Impa.py: GraphicalModelTsp.perform_k_opt, generate_k_opt_paths"]}
{"id": "C27", "title": "Inserting missing nodes loses nothing", "statement": "Inserting missing nodes returns a tour containing exactly the old nodes and the missing nodes, once each, and keeps the cyclic order of the old ones.", "quantifier": "For every tour, list of missing nodes and cost matrix.", "why_tests_cant": "Greedy insertion over all inputs.", "anchors": ["src/impa/Impa.py: GraphicalModelTsp.add_missing_nodes"]}
{"id": "C28", "title": "Reported unsatisfied clauses are exactly the violated ones", "statement": "A clause is reported as unsatisfied iff none of its literals is true under the reported assignment.", "quantifier": "For every formula whose two connection tables agree and every assignment.", "why_tests_cant": "The report is computed from the variable-side table, not from the clauses; agreement for all formulas is needed.", "anchors": ["src/impa/Impa.py: GraphicalModelKsat.get_summary"]}
{"id": "C29", "title": "Generated random formulas are satisfiable and well formed", "statement": "Every generated formula is satisfied by the planted assignment, each clause has k distinct variables, no two clauses use the same variable set, and the variable-side table lists exactly the clause occurrences with their signs.", "quantifier": "For every outcome of every random draw.", "why_tests_cant": "All random outcomes, including rejected duplicates and their rollback.", "anchors": ["src/impa/Impa.py: GraphicalModelKsat.create_model_structure"]}
{"id": "C30", "title": "k-SAT post-processing never increases the number of violated clauses", "statement": "The assignment after post-processing violates at most as many clauses as before, and the reported satisfied flag and violated clauses are those of the returned assignment.", "quantifier": "For every formula, start assignment and iteration order.", "why_tests_cant": "The comparison baseline is updated by rejected trials; only specific histories expose it.", "anchors": ["src/impa/Impa.py: GraphicalModelKsat.run_post_processing"]}
{"id": "C31", "title": "A team-project pair is matched exactly when its belief is below the threshold", "statement": "The list of matched pairs contains exactly the pairs whose final belief is below the threshold.", "quantifier": "For every belief matrix and threshold.", "why_tests_cant": "In-place overwriting makes the result depend on the sign of the threshold.", "anchors": ["src/impa/Impa.py: ImpaKcMwm.check_match"]}
{"id": "C32", "title": "Department post-processing ends with every capacity respected", "statement": "After removing teams from overloaded departments, the teams kept respect every department capacity, the tracked loads equal the true loads, and the loop terminates without error.", "quantifier": "For every set of selected teams, beliefs (including ties) and capacities.", "why_tests_cant": "Invariant over removal histories.", "anchors": ["src/impa/Impa.py: ImpaKcMwm.apply_post_processing_departments_brute"]}
{"id": "C33", "title": "Generated teams have one weight per department", "statement": "After team generation every department has exactly one weight entry per generated team and the entries of a team are its true unit counts.", "quantifier": "For all capacities, team types and unit pairs.", "why_tests_cant": "Fails only for capacities too small for a team type.", "anchors": ["src/impa/Impa.py: ImpaKcMwm.team_reward_generation"]}
{"id": "C34", "title": "Random cost matrices are valid", "statement": "The generated matrix has a zero diagonal, is symmetric in symmetric mode, and when off-diagonal costs are nonzero the edge list enumerates every ordered pair of distinct nodes exactly once.", "quantifier": "For every n and all random outcomes.", "why_tests_cant": "All matrices.", "anchors": ["src/impa/Impa.py: GraphicalModelTsp.create_cost_matrix"]}
{"id": "C35", "title": "Similarity of variable sets is a proper score", "statement": "The similarity of two sets of variables lies between 0 and 1, is symmetric, is 1 exactly when the sets are equal, and is 0 exactly when they are disjoint and not both empty.", "quantifier": "For all pairs of finite sets.", "why_tests_cant": "All finite sets.", "anchors": ["src/impa/Impa.py: GraphicalModelKsat.calculate_similarity"]}
{"id": "C36", "title": "The pure Python solver and the C++ solver compute the same messages", "statement": "For each message update the pure Python implementation and the C++ implementation return the same numbers.", "quantifier": "For all inputs accepted by both.", "why_tests_cant": "Unit tests compare them on random instances; agreement for all inputs (and where they differ, e.g. balanced instances and damping with rate 0) needs a proof.", "anchors": ["test/python_kc_mwm/src/project_inequality_constraint.py: InequalityConstraint.exactly_one_update", "test/python_kc_mwm/src/update_or_inequality_constraint.py", "test/python_ksat/src/update_ksat_constraint.py", "test/python_tsp/src/update_degree_constraint.py", "test/python_tsp/src/subtour_elimination_constraint.py", "test/python_kc_mwm/src/knapsack.py"]}
{"id": "C37", "title": "CNF export preserves the formula", "statement": "Reading back the exported CNF text gives the same number of variables and clauses and the same literals.", "quantifier": "For every formula.", "why_tests_cant": "Round trip over all formulas.", "anchors": ["test/python_ksat/src/process2cnf.py: create_cnf_file"]}
{"id": "C38", "title": "An augmented TSP run is the textbook min-sum algorithm on the augmented graph and stays finite", "statement": "After cut constraints have been added, a run of message passing equals the mathematical min-sum algorithm on the graph with one at-least-one constraint per cut, started from the messages of the previous run (or from the costs when messages are reset); all messages stay finite, so the NaN exit is never taken.", "quantifier": "For all graphs whose nodes have two outgoing and two incoming edges, all lists of cuts with two distinct edges each, every iteration count, damping and reset setting.", "why_tests_cant": "Requires induction over iterations and all instances.", "anchors": ["include/impalib/graphical_model.hpp: GraphicalModelTsp::iterate_augmented_graph", "include/impalib/graphical_model.hpp: GraphicalModelTsp::perform_augmentation", "include/impalib/input_output.hpp: OutputsTsp::extrinsic_output_edge_ec_augmented_graph_update"]}
{"id": "C39", "title": "The native TSP call returns to its caller", "statement": "On valid inputs the solver returns normally: no out-of-bounds access, no endless loop, no NaN exit, and it never ends the whole Python process.", "quantifier": "For all complete graphs with three or more nodes, finite numbers, positive costs, every iteration count, threshold, failure count and every limit of at least one.", "why_tests_cant": "Whether the process-ending branch is reached depends on message values over many iterations and rounds.", "anchors": ["include/impalib/graphical_model.hpp: GraphicalModelTsp::perform_augmentation", "src/impa/Wrapper.cpp: WrapperTsp"]}
{"id": "C40", "title": "A k-SAT variable is reported true exactly when its belief is at most the threshold", "statement": "With finite beliefs, the reported active variables are exactly the used variables whose belief is at most the threshold, and the inactive ones exactly the used variables whose belief is larger.", "quantifier": "For every formula, belief vector and threshold.", "why_tests_cant": "Tie at the threshold and unused variables; all inputs.", "anchors": ["src/impa/Impa.py: GraphicalModelKsat.hard_decision_analysis", "src/impa/Impa.py: GraphicalModelKsat.get_summary"]}
{"id": "C41", "title": "Pruning unit pairs loses no pair of units", "statement": "Pruning keeps every pair (u, u); of two different units it keeps at least one order, drops an order only if the other is at least as likely and meets at the same point, and keeps only one order when the meeting points and the ratios or distances agree.", "quantifier": "For every number of units covered by the tables and for all tables.", "why_tests_cant": "All tables and numbers of units; the tests use one fixed table.", "anchors": ["src/impa/Impa.py: ImpaKcMwm.prune_teams"]}
{"id": "C42", "title": "The valid-match flag is set exactly for complete matchings", "statement": "The flag valid_match is set exactly when no project and no team occurs in two chosen pairs and all projects or all teams are matched.", "quantifier": "For every belief matrix, balanced or not, and every threshold at most 0 that no belief hits exactly.", "why_tests_cant": "Zero rows and columns are deleted before the sums are compared; all matrices.", "anchors": ["src/impa/Impa.py: ImpaKcMwm.check_match", "src/impa/Impa.py: ImpaKcMwm.check_unbalanced_flag"]}
{"id": "C43", "title": "Post-processing removes the least confident team of an overloaded unit", "statement": "In every round, option 1 removes the least confident team of the first overloaded unit; option 2 removes the least confident team among the mixed teams (else all teams) of overloaded units, preferring teams all of whose units are overloaded. Teams without an overloaded unit are kept.", "quantifier": "For all generated teams, selections, beliefs and capacities.", "why_tests_cant": "The removed team is looked up by the value of its belief; the outcome depends on ties and on the whole removal history.", "anchors": ["src/impa/Impa.py: ImpaKcMwm.apply_post_processing_departments_brute", "src/impa/Impa.py: ImpaKcMwm.apply_post_processing_teams_brute"]}
{"id": "C44", "title": "Every kept team is reported with its most confident project", "statement": "The results contain one entry per kept team with its units and type, and with exactly one project: the matched project with the best belief.", "quantifier": "For all generated teams, belief matrices, thresholds at most 0 and both post-processing options.", "why_tests_cant": "Depends on how often a team and a project occur among the matched pairs.", "anchors": ["src/impa/Impa.py: ImpaKcMwm.results_analysis", "src/impa/Impa.py: ImpaKcMwm.pre_processing_analysis"]}
{"id": "C45", "title": "TSP post-processing removes only edges that lose against a kept one", "statement": "An edge removed at a node with several inward or outward selected edges shares an end with a kept edge whose belief is at least as strong, and a reported subtour that is still connected loses its weakest edge.", "quantifier": "For every selection, belief vector and list of reported subtours.", "why_tests_cant": "Removals at one node change what other nodes see; the outcome depends on the order of nodes and on ties.", "anchors": ["src/impa/Impa.py: GraphicalModelTsp.run_post_processing_improved"]}
{"id": "C46", "title": "The whole TSP solver is min-sum with growing cuts", "statement": "A run that returns has performed rounds 0..k of the mathematical algorithm, k being the reported number of augmentations. Every round is exact min-sum with the cuts of all cycles selected so far and goes on with the messages of the round before. The reported edges, cost, beliefs and stop flags are those of the mathematical rounds. The only other outcome is the exit on a selection of cost zero.", "quantifier": "For all complete graphs with three or more nodes, finite costs and start messages, iteration counts, dampings, thresholds, limits and traversal orders.", "why_tests_cant": "Messages, memory of damping and constraint rows are carried over between any number of rounds of any number of iterations.", "anchors": ["include/impalib/graphical_model.hpp: GraphicalModelTsp::perform_augmentation", "include/impalib/graphical_model.hpp: GraphicalModelTsp::iterate_augmented_graph", "src/impa/Wrapper.cpp: WrapperTsp"]}
{"id": "C47", "title": "Every argument reaches the native parameter of the same name", "statement": "With calling conventions that pass integers and floating point numbers in separate registers, every parameter of the three native entry points receives the argument with the same name and kind, although the TSP call writes the damping rate and the damping flag in the other order. With registers numbered by position the two would be exchanged.", "quantifier": "For all register counts with at least one floating point or six general registers, and all argument values; the exchange rule for every argument list.", "why_tests_cant": "A test runs on one platform, and all arguments of wrong order are accepted silently.", "anchors": ["src/impa/cFunctionAPI.py", "src/impa/Impa.py: GraphicalModelTsp.run_impa", "src/impa/Wrapper.cpp"]}
{"id": "C48", "title": "The native TSP solver receives the tables that Python built", "statement": "The tables Python builds from the cost matrix and the edge list arrive in the native solver as the costs, edges, cost matrix and start messages of the same graph, and they form a well-formed instance. The tables can be built exactly when there are at most n*n-n edges, and decoding stays in bounds exactly when there are n*n-n edges; so one cost of zero between two nodes makes the native side read past the end.", "quantifier": "For all cost matrices, node counts, edge lists and damping settings.", "why_tests_cant": "A read past the end of a buffer usually goes unnoticed, and the tests draw positive costs.", "anchors": ["src/impa/Impa.py: GraphicalModelTsp.initialize", "src/impa/Impa.py: GraphicalModelTsp.run_impa", "src/impa/Wrapper.cpp: WrapperTsp", "include/impalib/input_output.hpp: InputsTsp::process_inputs"]}
{"id": "C49", "title": "A whole TSP call returns results of min-sum with growing cuts, or fails in a known way", "statement": "Everything that run_impa returns to Python (number of augmentations, selected edges, cost, beliefs, subtours, tour) is determined by rounds of the mathematical algorithm on the given cost matrix; a returned tour visits every node once; with post-processing there always is a tour and the cost is its length when post-processing made it. A call that does not return has hit one of five listed conditions: a selection of cost zero, one of two buffers too small, no end of a path among the kept edges, or k-opt with less than five nodes.", "quantifier": "For all cost matrices with nonzero costs between three or more nodes, settings, and traversal orders.", "why_tests_cant": "Combines encoding, any number of rounds and iterations, decoding and post-processing.", "anchors": ["src/impa/Impa.py: GraphicalModelTsp.run_impa", "src/impa/Impa.py: GraphicalModelTsp.process_outputs", "src/impa/Wrapper.cpp: WrapperTsp"]}
{"id": "C50", "title": "The TSP solver finds the unique cheapest cycle cover, and with it an optimal tour", "statement": "On a complete directed graph whose cheapest cycle cover is unique, for every damping factor below one and every finite threshold there is a number of iterations from which on the relaxed round selects exactly the edges of that cover and reports its cost; the beliefs of its edges fall below and those of all other edges rise above any bound. If the cover is a single cycle through five or more nodes, the whole call from Python returns it, without augmentation or post-processing, with its cost, and no tour is cheaper. If all other covers cost at least gap more and no cost exceeds B in magnitude, more than 1 + n(8B + |threshold|)/((1 - alpha) gap) iterations suffice, since the beliefs separate by at least 2(K(1 - alpha) gap/n - 8B) after K + 1 iterations.", "quantifier": "For all cost matrices with a unique cheapest cycle cover, start messages (relaxed round), damping factors in [0,1), thresholds, and all iteration counts beyond a bound.", "why_tests_cant": "Tests observe single runs with one iteration count; convergence for every large iteration count and optimality against all tours cannot be enumerated.", "anchors": ["include/impalib/graphical_model.hpp: GraphicalModelTsp::iterate_relaxed_graph", "src/impa/Impa.py: GraphicalModelTsp.run_impa"]}
{"id": "C51", "title": "With symmetric costs the relaxed TSP round cannot tell a tour from its reverse", "statement": "If going from u to v costs as much as going back (as in the symmetric mode of create_cost_matrix), the relaxed round selects an edge if and only if it selects the reverse edge, for all settings and iteration counts. Hence if a call returns a tour without augmentation, the reverse tour is selected too, and with nonnegative costs the reported cost is at least twice the cost of the reported tour.", "quantifier": "For all symmetric cost matrices, settings, iteration counts and traversal orders.", "why_tests_cant": "A symmetry of all messages in all iterations; tests would only see single instances.", "anchors": ["include/impalib/graphical_model.hpp: GraphicalModelTsp::iterate_relaxed_graph", "src/impa/Impa.py: GraphicalModelTsp.create_cost_matrix", "src/impa/Impa.py: GraphicalModelTsp.run_impa"]}
{"id": "C52", "title": "On formulas without cycles the k-SAT solver finds the cheapest satisfying assignment", "statement": "If the graph of clauses and variables has no cycle (clauses of at least two literals), then after more than 2C undamped iterations for C clauses the belief of every used variable equals the cost of the cheapest satisfying assignment that sets it minus the cost of the cheapest one that does not; with damping |alpha| < 1 the beliefs converge to these values. Hence, if one satisfying assignment is cheaper than all others by delta and the threshold is within delta of zero, the whole call reports exactly this assignment, all clauses satisfied, without post-processing; and whenever no belief lies between zero and the threshold, what the call reports is the only cheapest satisfying assignment.", "quantifier": "For all formulas without cycles, all costs, thresholds, damping factors below one and iteration counts above the bound.", "why_tests_cant": "An optimality statement about all instances of a class, and a limit; a test compares a few instances with brute force.", "anchors": ["include/impalib/graphical_model.hpp: GraphicalModelKsat::iterate", "include/impalib/update_ksat_constraint.hpp: KsatConstraint::ksat_constraint_to_variable_ec_update", "src/impa/Impa.py: GraphicalModelKsat.run_impa", "src/impa/Impa.py: GraphicalModelKsat.hard_decision_analysis"]}
{"id": "C53", "title": "A whole k-SAT call returns consistent results for every formula", "statement": "For every well-formed formula (in particular every formula the generator can draw), finite costs and all settings, run_impa returns: the beliefs are the damped sums of the textbook min-sum messages plus the costs, the flag, violated clauses and active and inactive variables are those of the final decisions, the decisions are those of the beliefs unless post-processing was required, post-processing is marked required exactly when it is on and the first decisions violate a clause, and the similarity is computed exactly when there is a planted assignment and no clause is violated, lies in [0,100], and is 100 exactly when the planted assignment was found on the used variables.", "quantifier": "For all well-formed formulas, costs, thresholds, damping settings, iteration counts of at least one and set iteration orders.", "why_tests_cant": "Composition of generator, flattening, native solver, decision, post-processing and report over all inputs.", "anchors": ["src/impa/Impa.py: GraphicalModelKsat.run_impa", "src/impa/Impa.py: GraphicalModelKsat.initialize", "src/impa/Impa.py: GraphicalModelKsat.create_model_structure", "src/impa/Impa.py: GraphicalModelKsat.calculate_similarity"]}
{"id": "C54", "title": "A whole run of the assignment solver returns a consistent selection", "statement": "For every input of at least one unit whose teams of every kind fit their units, one or more projects and all finite costs and settings with a threshold of at most zero, a run of main_kc_mwm ends without error: the generated teams, the converted tables and the costs of the input file agree; the reported beliefs are the sums of the messages of the algorithm; the selected teams are those with a belief below the threshold for some project; with post-processing, teams are removed one at a time among the candidates with the belief of the least confident one while a unit is overloaded, no capacity is exceeded at the end, and each kept team is reported with its units, its type and projects; without post-processing every selected team is reported with all its projects; a decision that is already a feasible matching is reported unchanged.", "quantifier": "For all unit capacities, team types, numbers of projects, costs, iteration counts of at least one, damping settings and nonpositive thresholds.", "why_tests_cant": "Composition of team generation, table conversion, native solver, decision, post-processing and report over all inputs.", "anchors": ["src/impa/Impa.py: ImpaKcMwm.initialize", "src/impa/Impa.py: ImpaKcMwm.iterate", "src/impa/Impa.py: ImpaKcMwm.pre_analysis", "src/impa/Impa.py: ImpaKcMwm.post_analysis", "src/impa/main_kc_mwm.py: main"]}
{"id": "C55", "title": "Names, signs, order and scale do not matter to the k-SAT solver", "statement": "Renaming variables, negating some variables (all their literals and their cost), reordering clauses and the literals in clauses, and multiplying all costs by a positive factor changes the beliefs only in the corresponding way: each belief is multiplied by the factor and negated for negated variables. Without post-processing the reported active and inactive variables, violated clauses and flag correspond (threshold scaled; threshold 0 and no zero belief where variables are negated). Scaling costs and threshold changes nothing but the scale of the beliefs in the whole call, also with post-processing.", "quantifier": "For all well-formed formulas with clauses of at least two literals, renamings, negations, orders, factors, costs, damping settings and iteration counts of at least one.", "why_tests_cant": "A relation between pairs of runs over all inputs; any test tries finitely many transformations.", "anchors": ["src/impa/Impa.py: GraphicalModelKsat.run_impa", "include/impalib/graphical_model.hpp: GraphicalModelKsat::iterate", "include/impalib/update_ksat_constraint.hpp: KsatConstraint::ksat_constraint_to_variable_ec_update"]}
{"id": "C56", "title": "Clauses never argue against a pure literal", "statement": "For a variable that occurs only unnegated the final belief is at most its own cost, and for a variable that occurs only negated it is at least its own cost; so without post-processing such a variable is reported active when its cost is at most the threshold, respectively inactive when its cost exceeds it.", "quantifier": "For all well-formed formulas with clauses of at least two literals, costs, damping factors between 0 and 1, thresholds and iteration counts of at least one.", "why_tests_cant": "Holds for all formulas, costs and iteration counts.", "anchors": ["include/impalib/graphical_model.hpp: GraphicalModelKsat::iterate", "include/impalib/update_ksat_constraint.hpp: KsatConstraint::ksat_constraint_to_variable_ec_update", "src/impa/Impa.py: GraphicalModelKsat.run_impa"]}
{"id": "C57", "title": "Small changes of the costs change the k-SAT beliefs little", "statement": "If no variable is in more than D+1 clauses and two cost vectors differ by at most delta in every used variable, the beliefs after K+1 iterations differ by at most delta(1+(D+1)(1+D+...+D^K)); if all beliefs of one run are further than that from the threshold, the other run reports the same decisions, violated clauses, flags and similarity.", "quantifier": "For all well-formed formulas with clauses of at least two literals, cost vectors, damping factors between 0 and 1, thresholds and iteration counts of at least one.", "why_tests_cant": "A bound over all pairs of runs.", "anchors": ["include/impalib/graphical_model.hpp: GraphicalModelKsat::iterate", "include/impalib/update_ksat_constraint.hpp: KsatConstraint::ksat_constraint_to_variable_ec_update", "include/impalib/update_equality_constraint.hpp: EqualityConstraint::variable_ec_to_ksat_constraint_update", "src/impa/Impa.py: GraphicalModelKsat.run_impa"]}
{"id": "C58", "title": "Units, names and the order of the edge list do not matter to the TSP solver", "statement": "Multiplying all costs and the threshold by a positive factor leaves the outcome of the whole solver (all augmentation rounds) unchanged: same selected edges, tour, subtours, cuts, flags and number of augmentations, with cost and beliefs multiplied by the factor. Renaming the nodes by a permutation, listing the edges in another order and scaling the costs gives the renamed edges the scaled beliefs in the relaxed round, and a call without augmentation selects exactly the renamed edges at the scaled cost.", "quantifier": "For all complete graphs with at least three nodes, finite costs, factors, permutations, edge orders, damping settings, iteration counts and thresholds.", "why_tests_cant": "A relation between pairs of whole runs over all inputs; any test tries finitely many transformations.", "anchors": ["include/impalib/graphical_model.hpp: GraphicalModelTsp::iterate_relaxed_graph", "include/impalib/graphical_model.hpp: GraphicalModelTsp::perform_augmentation", "src/impa/Impa.py: GraphicalModelTsp.run_impa"]}
{"id": "C59", "title": "Small changes of the costs do not change the outcome of the TSP solver", "statement": "If two cost matrices differ by at most delta, the beliefs of the relaxed round with K iterations differ by at most (2K+1)delta. For a whole call that returned without post-processing and in which no belief of any round equals the threshold, there is for every tolerance a delta such that every cost matrix within delta gives the same number of augmentations, selected edges, tour, subtours and flags, and a cost within the tolerance.", "quantifier": "For all complete graphs with at least three nodes, finite costs, damping factors between 0 and 1, iteration counts, thresholds and numbers of rounds.", "why_tests_cant": "A statement about all nearby inputs of all inputs; the discrete control flow of the augmentation loop makes it a simulation proof.", "anchors": ["include/impalib/graphical_model.hpp: GraphicalModelTsp::iterate_relaxed_graph", "include/impalib/graphical_model.hpp: GraphicalModelTsp::iterate_augmented_graph", "include/impalib/graphical_model.hpp: GraphicalModelTsp::perform_augmentation", "src/impa/Impa.py: GraphicalModelTsp.run_impa"]}
{"id": "C60", "title": "The pure Python TSP program and the native one make the same decisions", "statement": "Started with the same arguments, the Python reference program goes through the same rounds as the native solver: in every round both select the same edges at the same cost from the same beliefs, find the same loops and add the same constraints, and when the native solver ends with a tour the Python program returns that tour. Between rounds the Python program compares selections without regard to the direction of edges; a repeated selection ends the process exactly if a message to a degree constraint is NaN, otherwise the comparison has no effect.", "quantifier": "For all complete graphs with at least three nodes, finite costs, damping settings, iteration counts, thresholds and round limits.", "why_tests_cant": "Comparing two programs on samples cannot show that their control flow stays in step for all inputs and all numbers of rounds; the loop search, the duplicate removal and the constraint lists are written differently in the two programs.", "anchors": ["test/python_tsp/src/graphical_model.py: GraphicalModel.pre_analysis", "test/python_tsp/src/graphical_model.py: GraphicalModel.get_closed_loops", "test/python_tsp/src/graphical_model.py: GraphicalModel.subtour_elimination_constraints_analysis", "include/impalib/graphical_model.hpp: GraphicalModelTsp::perform_augmentation"]}
{"id": "C61", "title": "The order in which a hash map is visited does not matter to the TSP solver", "statement": "The outgoing edges are kept in a std::unordered_map whose iteration order the C++ standard leaves open. Two calls with equal arguments have the same outcome whatever that order is: both end the process or both return after the same number of augmentations with the same selection, cost, beliefs and flags, the same loops and constraints up to order, and the same tour up to its first node.", "quantifier": "For all complete graphs with at least three nodes, finite costs, damping settings, iteration counts, thresholds, round limits and iteration orders of the hash maps in each round.", "why_tests_cant": "A test runs with one standard library and sees one iteration order; the order changes the list of loops, the order of the constraints and which loops are dropped as duplicates.", "anchors": ["include/impalib/graphical_model.hpp: GraphicalModelTsp::get_closed_loops", "include/impalib/graphical_model.hpp: GraphicalModelTsp::subtour_elimination_constraints_analysis", "include/impalib/graphical_model.hpp: GraphicalModelTsp::perform_augmentation"]}
{"id": "C62", "title": "If all teams together fit their units, the assignment solver finds the cheapest assignment", "statement": "Let w be the team costs and R the costs of pairs, and let one assignment of projects to teams (each team at most one project, each project at most one team, idle teams cost nothing) be cheaper than every other one by at least gap > 0. If all teams together fit the capacities of all departments, then from K+1 iterations on, where K*gap >= (T+1)*B + gap and B bounds the costs of the teams and of the pairs of this assignment, the belief of a pair is at most -2*gap/(T+1) if it belongs to this assignment and at least gap/(T+1) otherwise. So the native solver returns the optimum, and the whole Python run reports exactly the teams, types, units and projects of the optimum, with and without damping and post-processing. An assignment is cheaper than all others exactly if prices of teams and projects prove it. With a single team type without weasels the generated teams always fit.", "quantifier": "all numbers of departments, teams and projects, all weights, capacities, rational costs, damping factors, start values and iteration counts above the bound", "why_tests_cant": "Loopy message passing has no general guarantee; tests can show convergence for the instances that were tried only, and never that the limit is the optimum of an unbounded family.", "anchors": ["include/impalib/graphical_model.hpp: GraphicalModelKcMwm::iterate", "include/impalib/project_inequality_constraint.hpp", "include/impalib/update_or_inequality_constraint.hpp", "include/impalib/knapsack.hpp", "include/impalib/update_equality_constraint.hpp", "src/impa/Impa.py: ImpaKcMwm.iterate", "src/impa/main_kc_mwm.py: main"]}
{"id": "C63", "title": "Rounding errors do not change the outcome of the TSP solver unless a belief meets the threshold", "statement": "Replace every addition, subtraction and multiplication of the message passing, of the decision and of the beliefs read by Python by the rounded operation of an arbitrary rounding function, which may also round to infinities or NaN. (1) If the exact call returns without post-processing, finitely many numbers occur in it, and every rounding that keeps these numbers gives exactly the same result; the numbers are whole if the costs are whole and damping is off, so any arithmetic that is exact on whole numbers up to a bound gives exactly the same result. (2) If no belief of any round equals the threshold, then for every tolerance there are a range and an accuracy such that every rounding of that accuracy on that range, also for costs that are off by as much, gives the same number of augmentations, selected edges, tour, subtours, constraints and flags, with the cost and all beliefs within the tolerance.", "quantifier": "For all complete graphs with at least three nodes, finite costs, damping settings, iteration counts, thresholds, round limits and rounding functions.", "why_tests_cant": "The claim is about all number formats and all inputs; tests run with one format, and cannot see whether an answer depends on rounding.", "anchors": ["include/impalib/common.hpp", "include/impalib/graphical_model.hpp: GraphicalModelTsp::iterate_relaxed_graph", "include/impalib/graphical_model.hpp: GraphicalModelTsp::iterate_augmented_graph", "include/impalib/graphical_model.hpp: GraphicalModelTsp::hard_decision_analysis", "include/impalib/update_equality_constraint.hpp", "include/impalib/subtour_elimination_constraint.hpp: SubtourEliminationConstraint::process_filtering", "src/impa/Impa.py: GraphicalModelTsp.run_impa"]}
{"id": "C64", "title": "Rounding errors do not change the outcome of the k-SAT solver unless a belief meets the threshold", "statement": "Replace every addition, subtraction and multiplication of the k-SAT message passing and of the beliefs by the rounded operation of an arbitrary rounding function, which may also round to infinities or NaN. (1) A whole exact call returns, finitely many numbers occur in it, and every rounding that keeps these numbers gives exactly the same result; with whole costs and no damping any arithmetic that is exact on whole numbers up to some bound gives exactly the same result. (2) If no belief equals the threshold, then for every tolerance there are a range and an accuracy such that every rounding of that accuracy on that range, also for costs that are off by as much, gives the same decisions, reports, flags and similarity, with and without post-processing, and all beliefs within the tolerance.", "quantifier": "For all well-formed formulas with clauses of at least two literals, finite costs, damping settings, positive iteration counts, thresholds, set orders, post-processing settings and rounding functions.", "why_tests_cant": "The claim is about all number formats and all inputs; tests run with one format and cannot see whether an answer depends on rounding.", "anchors": ["include/impalib/graphical_model.hpp: GraphicalModelKsat::iterate", "include/impalib/update_ksat_constraint.hpp: KsatConstraint", "include/impalib/update_equality_constraint.hpp: EqualityConstraint::variable_ec_to_ksat_constraint_update", "include/impalib/input_output.hpp: OutputsKsat::update_extrinsic", "src/impa/Impa.py: GraphicalModelKsat.run_impa"]}
{"id": "C65", "title": "Rounding errors do not change the outcome of the assignment solver unless beliefs tie", "statement": "Replace every addition, subtraction and multiplication of the Knapsack-MWM message passing and of the beliefs by the rounded operation of an arbitrary rounding function, which may also round to infinities or NaN. (1) A whole exact run ends, finitely many numbers occur in it, and every rounding that keeps these numbers gives exactly the same result; with whole costs and no damping any arithmetic that is exact on whole numbers up to some bound gives exactly the same result. (2) If no pair belief equals the threshold, and if with post-processing moreover the pair beliefs of one team below the threshold differ and the selected teams have different beliefs, then for every tolerance there are a range and an accuracy such that every rounding of that accuracy on that range, also for team and pair costs that are off by as much, keeps the same teams, removes the same ones, reports the same projects, and has all team beliefs within the tolerance.", "quantifier": "For all unit capacities, team types and tables as in C54, finite costs, damping settings, positive iteration counts, thresholds at most 0, with and without either kind of post-processing, and all rounding functions.", "why_tests_cant": "The claim is about all number formats and all inputs; tests run with one format and cannot see whether an answer depends on rounding.", "anchors": ["include/impalib/graphical_model.hpp: GraphicalModelKcMwm::iterate", "include/impalib/knapsack.hpp: Knapsack", "include/impalib/update_equality_constraint.hpp: EqualityConstraint", "include/impalib/update_or_inequality_constraint.hpp: OrInequalityConstraint", "src/impa/Impa.py: ImpaKcMwm.iterate", "src/impa/Impa.py: ImpaKcMwm.post_analysis"]}
{"id": "C66", "title": "Once the messages repeat, the outcome repeats, so more iterations cannot help", "statement": "If the damped messages of two iterations K and K' agree, then everything after them repeats: for every m the solver returns the same for K + m and for K' + m iterations (up to the fixed shift of the statement). In particular, if two successive iterations have the same messages, then no larger number of iterations changes the result, and if the messages alternate, the result alternates for ever. This holds for the k-SAT call (clause messages), the assignment call (unit and project messages), the relaxed TSP round (degree messages) and the augmented TSP round (degree and cut messages), although the damped state, the edge tables and the start values are kept between iterations.", "quantifier": "For all well-formed inputs as in C53, C54, C12 and C38, all damping settings, all pairs K, K' and all m, with and without post-processing.", "why_tests_cant": "The claim is about all numbers of iterations; a test sees only finitely many of them, and stops at the number it was given.", "anchors": ["include/impalib/graphical_model.hpp: GraphicalModelKcMwm::iterate", "include/impalib/graphical_model.hpp: GraphicalModelTsp::iterate_relaxed_graph", "include/impalib/graphical_model.hpp: GraphicalModelTsp::iterate_augmented_graph", "include/impalib/graphical_model.hpp: GraphicalModelKsat::iterate"]}
{"id": "C67", "title": "Settled messages without ties are a solution that no treelike change improves", "statement": "If the messages of two successive iterations agree and no belief is a tie, then the decisions are feasible and locally optimal: the k-SAT call reports a satisfying assignment, without post-processing, and every other satisfying assignment whose changed variables form no cycle with the clauses costs strictly more; the assignment call reports a plan that respects all capacities, gives each kept team one project and no project twice, identically with and without post-processing, and every other plan that differs in a treelike way costs strictly more. For both, no other solution whose changes close at most one cycle in each connected part costs less. This holds on graphs with cycles and for this and every larger number of iterations. For an unsatisfiable formula settled messages always leave some belief at zero. For the relaxed TSP round the situation cannot arise: if the cheapest cycle cover is unique, the messages of no two iterations agree, although the decisions settle.", "quantifier": "For all well-formed inputs as in C53, C54 and C48, all damping factors other than one (TSP: below one), all iteration numbers K and N >= K + 1 (assignment: N >= K + 2), all assignments or plans compared.", "why_tests_cant": "The statement compares the result with all other feasible solutions of arbitrary size and holds for all larger numbers of iterations; tests on small instances check neither.", "anchors": ["include/impalib/graphical_model.hpp: GraphicalModelKcMwm::iterate", "include/impalib/graphical_model.hpp: GraphicalModelTsp::iterate_relaxed_graph", "include/impalib/graphical_model.hpp: GraphicalModelKsat::iterate", "src/impa/Impa.py: ImpaKcMwm.post_analysis"]}
{"id": "C68", "title": "With the shipped unit tables teams are offered in the cheaper order, rewards are negative, and whole runs succeed", "statement": "With the tables of initializationModule.py, two different units are offered as a pair in one order only, the cheaper one (fighters of the first plus weasels of the second; the smaller number first if equal), unless the two orders meet at different points, which happens only for units of different coasts. Every generated reward lies between -10 and -2. For up to eleven units of capacity at least 4, any known types and any input file with the right number of teams, the whole run ends without error and no capacity is exceeded. The first part fails for unit 7 with units 10 and 11: the distance table is not symmetric there, so both orders are offered although they meet at one point.", "quantifier": "For all numbers of units up to the size of the tables, all capacities of at least 4, all lists of known types, all costs, projects, thresholds <= 0 and iteration numbers, and every exp and product of floats with the listed order properties.", "why_tests_cant": "Capacities, costs and the number of iterations are unbounded; the asymmetric table entries concern two particular pairs among many and only show as extra teams.", "anchors": ["src/impa/initializationModule.py: distance_metric", "src/impa/Impa.py: ImpaKcMwm.prune_teams", "src/impa/Impa.py: ImpaKcMwm.team_reward_generation"]}
{"id": "C69", "title": "Names, order and unit of costs do not matter to the assignment solver", "statement": "If two assignment problems differ only by renaming departments, teams and projects, every run of the same length gives the renamed beliefs and assignment entries. If all costs are also multiplied by one positive factor, beliefs and entries are multiplied by it, provided no team message reaches the limit 1000000 before or after scaling. For the whole run on an input file, the order in which the projects are listed does not matter: the beliefs and the kept teams are the same, with and without post-processing, and without post-processing each kept team is reported with the same projects under their new places. Without the proviso the scaling claim fails.", "quantifier": "For all numbers of departments, teams and projects, all permutations, weights, capacities and costs, every positive factor, with and without damping, and every number of iterations.", "why_tests_cant": "A renaming is a permutation of arbitrarily many objects; the tests compare one fixed listing with stored results.", "anchors": ["include/impalib/graphical_model.hpp: GraphicalModelKcMwm::iterate", "src/impa/Impa.py: ImpaKcMwm.iterate", "src/impa/Impa.py: ImpaKcMwm.post_analysis"]}
{"id": "C70", "title": "Messages of the assignment solver stay bounded, and undamped runs end in a cycle", "statement": "If no cost exceeds B in magnitude and the damping rate lies between 0 and 1, then after any number of iterations every belief of T teams and of their pairs with projects lies between -2B and 4BT. If for every team there is a project it can take over for less than 1000000 (in particular if all costs are below 333333 in magnitude), no team message ever reaches the limit 1000000; so the native solver is the textbook algorithm, the Python and C++ programs agree (at least two teams and projects, different numbers, nonzero rate if damped), scaling the costs scales the beliefs, and settled results are locally optimal, with conditions on the costs only. Without damping, on every input, the result of the whole run is eventually periodic in the number of iterations.", "quantifier": "For all numbers of departments, teams and projects, all weights, capacities and rational costs, every start of the messages (limit, textbook, agreement) and every number of iterations.", "why_tests_cant": "The bound and the periodicity speak about every number of iterations; a test runs a few.", "anchors": ["include/impalib/graphical_model.hpp: GraphicalModelKcMwm::iterate", "src/impa/Impa.py: ImpaKcMwm.iterate", "include/impalib/knapsack.hpp", "include/impalib/update_or_inequality_constraint.hpp"]}
{"id": "C71", "title": "How fast messages grow with the number of iterations", "statement": "k-SAT: if no variable is in more than D+1 clauses and no cost exceeds B in magnitude, then after K+1 iterations with damping rate between 0 and 1 no belief exceeds B(1+(D+1)(1+D+...+D^K)). Geometric growth does occur: on every formula whose clauses have exactly one unnegated literal and whose variables are unnegated in d clauses each, with all costs -c, the beliefs after K+1 undamped iterations are exactly -c(1+d+...+d^(K+1)), so for d at least 2 they pass every bound. TSP without cuts: with costs and start messages up to B, extrinsic outputs are at most 2KB and beliefs at most (2K+1)B after K iterations; linear growth does occur: if the edges of disjoint cycles through all nodes cost p and all others p+g, the undamped beliefs after K iterations are p-Kg on the cycles and p+g+Kg elsewhere, minus 2p+g if K is odd.", "quantifier": "For all formulas with k at least 2 and all graphs with two ways in and out of every node, all rational costs and every number of iterations.", "why_tests_cant": "The statements speak about every number of iterations; the overflow they show needs more iterations than the tests run.", "anchors": ["include/impalib/graphical_model.hpp: GraphicalModelKsat::iterate", "include/impalib/graphical_model.hpp: GraphicalModelTsp::iterate_relaxed_graph", "include/impalib/update_ksat_constraint.hpp", "include/impalib/update_degree_constraint.hpp"]}
{"id": "C72", "title": "k-SAT in single precision", "statement": "With whole costs and without damping, running the k-SAT solver in single precision (the default impalib_type float) leads to the same decisions as exact arithmetic for every number of iterations, provided that all exact beliefs are at least 1 away from the threshold. This is FALSE: on a formula with 3 variables and 5 clauses and costs -1, -1, 2 the messages overflow, and after 130 iterations single precision returns an assignment that violates a clause while exact arithmetic satisfies all (the default of main_ksat.py is 200 iterations). Guarded version: if the costs are whole multiples of a power of two within range, at most B times this power, and no variable is in more than D+1 clauses, then with S=B(1+D+...+D^K), 2kS at most 2^p and B+(D+2)S at most 2^p, arithmetic with p significant bits (24 for float, 53 for double) gives after K+1 iterations exactly the same result object as exact arithmetic; the same holds with S replaced by any bound on the messages from variables to clauses in the exact run. Rounding is round to nearest even with subnormal numbers and overflow, and is proved to give the nearest number of the format.", "quantifier": "For all well-formed formulas with k at least 2, all such costs, every K, thresholds, post-processing settings and binary formats.", "why_tests_cant": "Tests compare a few instances; that every intermediate result of a run stays representable is a statement about all intermediate results of all runs.", "anchors": ["include/impalib/graphical_model.hpp: GraphicalModelKsat::iterate", "include/impalib/update_ksat_constraint.hpp", "include/impalib/common.hpp", "src/impa/Impa.py: GraphicalModelKsat.run_impa"]}
{"id": "C73", "title": "Assignment solver in single precision", "statement": "Let all costs of the assignment problem be whole multiples of a power of two u that divides 10^6, of size at most B times u, and let there be no damping. With T teams, if 4B(2T+1)(T+1) is at most 2^p, then arithmetic with p significant bits (24 for float, 53 for double) computes, after every number of iterations, exactly the same beliefs, chosen teams and reported pairs as exact arithmetic. The bound does not depend on the number of iterations, departments or projects.", "quantifier": "For all well-formed inputs, all such costs, every positive number of iterations, every threshold of at most 0, with and without post-processing, and every binary format whose range contains the numbers.", "why_tests_cant": "Tests compare a few instances and a few iteration counts; that every intermediate result of every iteration is representable is a statement about unboundedly many values.", "anchors": ["include/impalib/graphical_model.hpp: GraphicalModelKcMwm::iterate", "include/impalib/knapsack.hpp", "include/impalib/update_or_inequality_constraint.hpp", "include/impalib/common.hpp", "src/impa/Impa.py: ImpaKcMwm.iterate"]}
{"id": "C74", "title": "k-SAT post-processing is a complete local search", "statement": "If a satisfying assignment differs from the first decisions in at most pp_elements (at least 2) variables, all of them in violated clauses or in clauses near them (sharing some but not all variables with a violated clause and having no true literal outside of it), post-processing ends with a satisfying assignment. If one clause is violated and changing one of its variables satisfies the formula, this is found even without brute force when a near clause contains the same literal and no near clause shares only this variable. If two clauses are violated and setting a literal they share leaves at most one violated clause, at most one is violated at the end.", "quantifier": "For all formulas with consistent tables, all beliefs and thresholds, every pp_elements and all iteration orders of the Python sets.", "why_tests_cant": "A test that ends with a satisfied formula does not show that nothing repairable is missed; that requires all formulas and all combinations of changes.", "anchors": ["src/impa/Impa.py: GraphicalModelKsat.run_post_processing", "src/impa/Impa.py: GraphicalModelKsat.get_summary"]}
{"id": "C75", "title": "The TSP solver in single precision", "statement": "With whole-number costs up to B and no damping, rounded arithmetic gives exactly the result of exact arithmetic: the same beliefs, selected edges, subtours, tour, cost and flags. Up to the first cut it suffices that (2K+1)B, where K is the number of iterations, and B times the number of selected edges do not exceed 2^24 for float or 2^53 for double. With D cuts it suffices that (D+3)X+B does not exceed this, where X bounds the messages of the augmentation rounds.", "quantifier": "For all numbers of cities, all complete cost matrices, every number of iterations and every binary format.", "why_tests_cant": "Tests compare one precision with itself on sample inputs; whether rounding can change a result needs all inputs.", "anchors": ["include/impalib/graphical_model.hpp: GraphicalModelTsp::iterate_relaxed_graph", "include/impalib/update_degree_constraint.hpp", "include/impalib/update_equality_constraint.hpp", "include/impalib/input_output.hpp"]}
{"id": "C76", "title": "How fast TSP messages grow once cuts are added", "statement": "Suppose no edge is in more than N cuts and no cost and no message from earlier rounds exceeds B in magnitude. After K+1 iterations on the augmented graph with damping rate between 0 and 1 no belief exceeds 2B(M^(K+1)+(N+1)(1+M+...+M^K)), where M=N^2+N+1. Geometric growth does occur: if all edges cost p, every edge is in exactly d+1 cuts, no cut has a message yet and messages are reset, then after K+1 undamped iterations all beliefs are exactly -p d^K. So with four cities and all cuts of two or three cities beliefs double in each iteration and leave the range of float after 129 iterations (main_tsp.py runs 400 iterations by default).", "quantifier": "For all graphs with two ways in and out of every node, all lists of cuts with at least two edges, all rational costs and every number of iterations.", "why_tests_cant": "The statements speak about every number of iterations and every list of cuts; the tests run a few small instances.", "anchors": ["include/impalib/graphical_model.hpp: GraphicalModelTsp::iterate_augmented_graph", "include/impalib/subtour_elimination_constraint.hpp", "include/impalib/update_degree_constraint.hpp", "include/impalib/update_equality_constraint.hpp"]}
{"id": "C77", "title": "Run time of the loop search", "statement": "The number of calls find_closed_loop makes for one selected edge is bounded by a polynomial in the number m of selected edges. This is FALSE: the visited set is passed by value, so nodes are searched again on every path. A failed search makes exactly one call for every walk without repeated nodes. For every L there are 4L+1 selected edges, in any order, for which one search makes 2^(L+1)-1 calls. Guarded version: if no node has more than d selected outgoing edges there are at most 1+d+...+d^(m-1) calls, so at most m calls with at most one outgoing edge per node.", "quantifier": "For every list of selected edges, every start edge and every L.", "why_tests_cant": "Run time over all graphs cannot be tested; the worst case is not met by the small test graphs.", "anchors": ["include/impalib/graphical_model.hpp: GraphicalModelTsp::find_closed_loop"]}
{"id": "C78", "title": "Problem sizes for which positions in the arguments fit into int", "statement": "The native readers compute positions in the flat arguments with 32-bit int. For TSP with n>=2 nodes (n*n-n edges) all positions fit exactly if n is at most 1290, for all contents; with more nodes a product overflows, which is undefined. For the assignment problem all positions fit exactly if teams times units and teams times projects are at most 2^31-1, and then the computed output positions p+t+p(T-1) fit and equal T p+t. For well-formed k-SAT formulas all positions fit exactly if k times clauses and variables times clauses are at most 2^31-1. When all positions fit, the checked readers return the same tables as the readers with unbounded integers used in all other properties.", "quantifier": "For all numbers of nodes, edges, teams, units, projects, variables and clauses, and all contents.", "why_tests_cant": "Tests with more than 1290 nodes need arrays of 17 gigabytes.", "anchors": ["include/impalib/input_output.hpp: InputsTsp::process_inputs", "include/impalib/input_output.hpp: InputsKcMwm::process_inputs", "include/impalib/input_output.hpp: InputsKsat::process_inputs", "include/impalib/input_output.hpp: OutputsKcMwm::intrinsic_out_mwm_update"]}
{"id": "C79", "title": "Names, the order of the edge list and units do not matter in any augmentation round", "statement": "Rename the nodes of a TSP instance by a permutation, list its edges in another order, multiply all costs and the threshold by a positive number and let hash maps be visited in another order. If in each round of the first call selected cycles with a common node are the same cycle, the solver behaves in the same way on both instances in all rounds: either both calls end the process, or both return after the same number of augmentations with the renamed selection, loops and tour (with some first node), the same flags, and cost and beliefs multiplied by the factor. For whole Python calls: the number of augmentations and the renamed selection agree, post-processing is entered by both or neither, and otherwise costs are multiplied by the factor and both or neither return a tour.", "quantifier": "For all complete instances with at least three nodes, permutations, edge orders, positive factors, settings, hash orders and numbers of rounds.", "why_tests_cant": "An equality of two runs with differently ordered sums, lists and constraints over all instances; tests compare a few pairs of runs.", "anchors": ["include/impalib/graphical_model.hpp: GraphicalModelTsp::iterate_augmented_graph", "include/impalib/graphical_model.hpp: GraphicalModelTsp::perform_augmentation", "include/impalib/graphical_model.hpp: GraphicalModelTsp::get_closed_loops", "include/impalib/graphical_model.hpp: GraphicalModelTsp::subtour_elimination_constraints_analysis", "src/impa/Impa.py: GraphicalModelTsp.run_impa"]}
{"id": "C80", "title": "Partial assignments that satisfy every clause they touch are kept and decouple the rest", "statement": "Let A be a set of variables with values that satisfy every clause containing a variable of A and that the costs do not speak against (variables set to true cost at most zero, variables set to false at least zero). With damping between 0 and 1 and after any number of iterations, the belief of a variable in A is at least as far on the side of its value as its cost; the belief of every other variable equals its belief in the formula without the clauses that contain a variable of A; if the threshold separates the costs in A like the values, the call without post-processing reports these values and no violated clause contains a variable of A. If A contains all used variables, the call reports exactly these values with all clauses satisfied and no post-processing, and no other choice of active variables costs less. This decides the example program of the repository.", "quantifier": "For all formulas with at least two literals per clause, costs, such sets and values, damping factors in [0, 1], numbers of iterations, thresholds, hash orders and post-processing settings.", "why_tests_cant": "A statement about all formulas and iteration counts that relates the run on one formula to the run on another; tests fix the formula and the number of iterations.", "anchors": ["include/impalib/graphical_model.hpp: GraphicalModelKsat::iterate", "include/impalib/update_ksat_constraint.hpp: KsatConstraint::ksat_constraint_to_variable_ec_update", "src/impa/Impa.py: GraphicalModelKsat.run_impa", "examples/Ksat/demo.cpp: main"]}
{"id": "C81", "title": "Random tests with small noise end with the planted assignment", "statement": "The generated costs of type 1 are half the variance on the side of the planted value plus the noise; type 0 uses the drawn sign instead, type 2 is noise only, other types are zero, and type 1 without a planted assignment is an error. In tests read from files with new costs, if every clause has a literal that is true in the planted assignment and whose variable has noise below the threshold and half the variance, the call satisfies the formula after any number of iterations without post-processing and every variable with small noise gets its planted value. In random tests where the noise of all variables is small, the generated formula is satisfied without post-processing by exactly the planted values and the reported similarity is 100.", "quantifier": "For all sizes, clause widths of at least two, planted assignments, draws, variances, noises, damping factors in [0, 1], numbers of iterations, thresholds, hash orders and post-processing settings.", "why_tests_cant": "The tests draw at random; the statement covers every outcome of the draws together with every size and iteration count.", "anchors": ["src/impa/Impa.py: GraphicalModelKsat.generate_incoming_metrics", "src/impa/Impa.py: GraphicalModelKsat.create_model_structure", "src/impa/Impa.py: GraphicalModelKsat.initialize", "src/impa/Impa.py: GraphicalModelKsat.run_impa"]}
{"id": "C82", "title": "A unit test that passes has compared arrays that agree", "statement": "The comparison used by the unit tests passes only if the arrays agree up to the absolute tolerance. Proved: for finite arrays of one length it passes exactly when all differences are at most the absolute tolerance and at most the relative tolerance times the distance of the greatest reference value from -1e-30. The full claim fails: one NaN, or one infinity at the same place of both arrays, makes the test pass whatever the other entries are. The comparison of knapsack tables passes exactly for identical tables if the infinite entries are in the same places, since it compares a truth value with the tolerance; it also passes when the infinite entries are in different places.", "quantifier": "For all arrays, numbers of tables and tolerances.", "why_tests_cant": "The property is about the tests: it tells which faults no run of them can show.", "anchors": ["test/python_kc_mwm/test/ut_utils.py: check_agreement", "test/python_kc_mwm/test/ut_utils.py: check_forward_backward_results", "test/python_ksat/test/ut_utils.py: check_agreement", "test/python_tsp/test/ut_utils.py: check_agreement"]}
{"id": "C83", "title": "The search for one loop of a given length", "statement": "Called with selected edges and a length, the search ends and what it returns is a simple closed loop of exactly that many nodes along selected edges. The full claim, that it returns a loop whenever one of this length exists, is false: the search from an earlier node marks the nodes it passes and no search starts from a marked node. Proved: if no two selected edges leave the same node and no two enter the same node, it returns a loop exactly if there is one of this length.", "quantifier": "For all lists of selected edges and all lengths.", "why_tests_cant": "The tests do not call the function; the statement covers every graph.", "anchors": ["src/impa/Impa.py: GraphicalModelTsp.get_loops", "src/impa/Impa.py: GraphicalModelTsp.find_loops"]}
{"id": "C84", "title": "Infinite costs forbid edges", "statement": "If some pairs of nodes have infinite cost and some cycle cover avoids them, the relaxed round of the TSP solver returns after any number of iterations, no belief is NaN, the beliefs of the forbidden edges are infinite and no forbidden edge is selected. If the cheapest cycle cover without forbidden edges is unique, exactly its edges are selected after enough iterations, and if it is one cycle the solver returns an optimal tour. If at least two allowed edges leave every nonempty proper set of nodes, the same holds in all rounds, with all cuts that the augmented rounds add: no belief is NaN, no forbidden edge is ever selected, and the solver returns a state of finite cost or stops at cost zero. The full claim, that an infinite cost works wherever a large finite cost works, is false: in the augmented rounds a cut that only one allowed edge leaves makes messages NaN and the process ends.", "quantifier": "For all complete graphs, all finite costs of the allowed edges, all sets of forbidden edges, all damping factors below one, all numbers of iterations and thresholds.", "why_tests_cant": "The tests have finite costs only, and whether infinite messages cancel to NaN depends on every step of every iteration.", "anchors": ["include/impalib/graphical_model.hpp: GraphicalModelTsp::iterate_relaxed_graph", "include/impalib/update_equality_constraint.hpp: edge_ec_to_subtour_constraints_update", "include/impalib/update_degree_constraint.hpp: degree_constraint_to_edge_ec_update"]}
{"id": "C85", "title": "Infinite metrics act as assumptions, and two-literal clauses propagate them exactly", "statement": "If incoming metrics of minus and plus infinity ask for variables to be true and false and some satisfying assignment has these values, then for clauses with two literals the k-SAT solver returns after any number of iterations, no belief is NaN, and after K iterations the beliefs at minus and plus infinity are exactly those of the variables that at most K rounds of unit propagation make true and false. So every infinite belief agrees with every satisfying assignment that has the assumed values. The full claim, the same agreement for clauses of any length, is false: with three literals the solver can force a variable of a clause that is already satisfied.", "quantifier": "For all formulas with two literals per clause, all metrics other than NaN, all damping factors from 0 up to but excluding 1, all numbers of iterations.", "why_tests_cant": "The tests have finite metrics only, and whether infinite messages cancel to NaN or persist depends on every step of every iteration.", "anchors": ["include/impalib/update_ksat_constraint.hpp: KsatConstraint::ksat_constraint_to_variable_ec_update", "include/impalib/update_equality_constraint.hpp: variable_ec_to_ksat_constraint_update", "include/impalib/graphical_model.hpp: GraphicalModelKsat::iterate"]}
{"id": "C86", "title": "Infinite costs forbid pairs in the assignment solver", "statement": "Let some pairs of project and team cost infinity and all other costs be finite. Then no NaN occurs, and for every number of iterations the team beliefs are exactly those with any finite cost M >= 10^6 that outweighs the team costs in place of infinity; the beliefs of all other pairs agree too. With a threshold of at most zero the whole Python run, with and without post-processing, gives exactly the same result as with M, and never reports a forbidden pair. If all teams fit their units and one assignment is the cheapest among those without forbidden pairs, the run reports exactly this one, from the same number of iterations on as without forbidden pairs.", "quantifier": "For all numbers of departments, teams and projects, all weights, capacities, rational costs, sets of forbidden pairs, damping factors from 0 to 1, iteration counts and thresholds of at most zero.", "why_tests_cant": "The tests have finite costs only; whether infinite messages cancel to NaN or leak into other pairs depends on every step of every iteration.", "anchors": ["include/impalib/project_inequality_constraint.hpp: InequalityConstraint::project_inequality_constraint_update", "include/impalib/update_or_inequality_constraint.hpp: OrInequalityConstraint::oric_to_project_eq_constraint_update", "include/impalib/graphical_model.hpp: GraphicalModelKcMwm::iterate", "src/impa/Impa.py: ImpaKcMwm.iterate", "src/impa/main_kc_mwm.py: main"]}
{"id": "C87", "title": "The pure Python programs report the same as those with native code", "statement": "The pure Python assignment program, run on the same input file as the program with native code, returns the same beliefs, keeps the same teams and reports the same entries, for every number of iterations, with and without post-processing; the pure Python k-SAT program returns the same beliefs, decisions, active and inactive variables and violated clauses as the program with native code without post-processing.", "quantifier": "For all input files, tables of units, rational costs, nonzero damping factors up to 1, iteration counts from 1 and thresholds of at most zero; for all well-formed formulas with at least two literals per clause, all rational costs and thresholds.", "why_tests_cant": "The repository compares single functions of the two programs on random tables, never whole reports, and every pair of runs is one input among infinitely many.", "anchors": ["test/python_kc_mwm/src/graphical_model.py: GraphicalModelKcMwm.initialize", "test/python_kc_mwm/src/graphical_model.py: GraphicalModelKcMwm.iterate", "test/python_kc_mwm/src/graphical_model.py: GraphicalModelKcMwm.post_analysis", "test/python_ksat/src/graphical_model.py: GraphicalModel.run_impa", "test/python_ksat/src/graphical_model.py: GraphicalModel.hard_decision_analysis", "src/impa/Impa.py: ImpaKcMwm.iterate"]}
{"id": "C88", "title": "What a command line switches on and off", "statement": "The three programs read --name=text and --name text (and unambiguous abbreviations) as settings of their options: the program goes on exactly if every text can be converted, and then each option has the value of its last setting or its default; --flag=False switches a flag off, in the programs and in the unit tests.", "quantifier": "For all command lines of the three programs (any number of settings, any texts, any conversion of texts to numbers), and for all values of the environment variable of the unit tests.", "why_tests_cant": "Tests call the classes directly with Boolean values; the texts on a command line are unbounded, and the tests themselves read their flag in the same way.", "anchors": ["src/impa/main_tsp.py", "src/impa/main_ksat.py", "src/impa/main_kc_mwm.py", "test/src/unit_test_tsp.sh", "test/include/ut_knapsack.hpp: ut_forward_backward", "test/python_ksat/test/impalib_unit_tests.py"]}
{"id": "C89", "title": "Results of different runs are saved in different files", "statement": "Two runs of the TSP program that save their results into the same file were started with the same options: the name of the file tells the output path, filtering and its parameter, post-processing and the number of the test.", "quantifier": "For all pairs of command lines, all numbers of tests and all rational filtering parameters.", "why_tests_cant": "No test looks at the names of saved files, and a collision needs two runs with particular parameters.", "anchors": ["src/impa/main_tsp.py", "src/impa/main_ksat.py", "src/impa/Impa.py: GraphicalModelTsp.save_outputs", "src/impa/Impa.py: GraphicalModelKsat.save_outputs"]}
{"id": "C90", "title": "The assignment solver stays inside its arrays exactly on well-formed problems", "statement": "A call of the assignment solver with at least one project and one iteration returns without reading outside an array if and only if there is a department, every department is used, every team fits alone into each of its departments, and no team uses more than two departments.", "quantifier": "For all numbers of departments, teams and projects, all capacities, weights and connection tables, all numbers of iterations, and all finite costs (the needed part: all costs).", "why_tests_cant": "A read outside an array is undefined behaviour that often returns a plausible number; tests use generated problems in which every condition holds.", "anchors": ["include/impalib/knapsack.hpp: Knapsack::forward", "include/impalib/knapsack.hpp: Knapsack::backward", "include/impalib/knapsack.hpp: Knapsack::extrinsic_output_department_lhs", "include/impalib/knapsack.hpp: Knapsack::team_to_knapsack_update", "src/impa/Impa.py: ImpaKcMwm.iterate"]}
{"id": "C91", "title": "Formulas whose clauses have one literal are solved", "statement": "If every clause has exactly one literal, the k-SAT solver reports that all clauses are satisfied exactly if the formula is satisfiable, and then it needs no post-processing, decides every variable as its clauses demand and the other variables by their costs.", "quantifier": "For all such formulas, all finite costs and thresholds, all numbers of iterations but zero, no damping or any damping rate from zero to below one, with and without post-processing.", "why_tests_cant": "The clause update takes the difference with an infinite value here, so infinities and NaN pass through the whole run; tests use clauses with three literals.", "anchors": ["include/impalib/update_ksat_constraint.hpp: KsatConstraint", "include/impalib/graphical_model.hpp: GraphicalModelKsat::iterate", "include/impalib/update_equality_constraint.hpp: EqualityConstraint::variable_ec_to_ksat_constraint_update", "src/impa/Impa.py: GraphicalModelKsat.run_impa"]}
{"id": "C92", "title": "The TSP solver stays inside its arrays exactly if every node can be left and entered", "statement": "With at least one iteration the relaxed round reads and writes only inside its arrays exactly if the edges join nodes that exist and every node can be left and can be entered from another node. Then no later round leaves its arrays either: the solver returns, or it ends the program because the selection of a round costs nothing or a message is not a number. With a complete graph this holds for every number of nodes but one.", "quantifier": "For all graphs and edge lists, all costs including infinite ones and NaN, all damping settings, all thresholds, all numbers of iterations and augmentation rounds, every order in which the loops are searched.", "why_tests_cant": "Reading past the end of a list need not show in a test; tests use complete graphs with finite costs, where no list is empty.", "anchors": ["include/impalib/update_degree_constraint.hpp: DegreeConstraint", "include/impalib/subtour_elimination_constraint.hpp: SubtourEliminationConstraint", "include/impalib/graphical_model.hpp: GraphicalModelTsp::iterate_relaxed_graph", "include/impalib/graphical_model.hpp: GraphicalModelTsp::iterate_augmented_graph", "include/impalib/graphical_model.hpp: GraphicalModelTsp::perform_augmentation"]}
{"id": "C93", "title": "The k-SAT solver stays inside its arrays exactly if its tables name variables and clauses that exist", "statement": "With at least one iteration the native k-SAT solver reads and writes only inside its arrays exactly if the clauses and the list of used variables name variables that exist and the lists of the variables name clauses that exist. Every call from Python with such tables computes one belief per variable. For every well-formed formula the whole call returns, and what it reports fits the returned decisions.", "quantifier": "For all tables of the right sizes, all clause lengths, clauses that repeat a variable, all costs and initial messages including infinite ones and NaN, all damping settings and numbers of iterations.", "why_tests_cant": "Reading outside an array need not show in a test; tests use finite costs and clauses with three different variables.", "anchors": ["include/impalib/update_ksat_constraint.hpp: KsatConstraint", "include/impalib/graphical_model.hpp: GraphicalModelKsat::iterate", "include/impalib/update_equality_constraint.hpp: EqualityConstraint::variable_ec_to_ksat_constraint_update", "src/impa/Impa.py: GraphicalModelKsat.run_impa"]}
{"id": "C94", "title": "The totals printed by the assignment program", "statement": "The totals that the assignment program prints are those of the teams it keeps: minus their costs, what they take from each unit and whether that exceeds a capacity, how many there are of each type and in total, and the cost of the projects with which they are counted. With post-processing every kept team is listed with one project, no project is listed twice, no capacity is exceeded, the number of matched projects is the number of listed projects, and the program says that all projects are matched exactly if every project is listed. Without post-processing it says so only if every project is listed.", "quantifier": "For all unit tables, capacities, types, costs, damping settings, thresholds up to zero, numbers of iterations, with and without post-processing and for both kinds of post-processing.", "why_tests_cant": "The totals are only printed, and no test reads them. The number of matched projects is really the number of kept teams; that the two agree depends on the message passing, which gives every project at most one team.", "anchors": ["src/impa/Impa.py: ImpaKcMwm.results_analysis", "src/impa/Impa.py: ImpaKcMwm.post_analysis", "src/impa/main_kc_mwm.py"]}
{"id": "C95", "title": "CNF files are read as written and the reference solver is checked correctly", "statement": "Every CNF file is read as the formula it contains. For files with one clause per line directly after the header, as the export of this library writes them, the reader returns the numbers of the header, the clauses, the clauses for the solver and well-formed tables. With a correct solver the formula is reported as satisfied exactly if it is satisfiable, with a satisfying assignment; otherwise the script ends with an error. Exported generated formulas are always reported as satisfied, and every variable has the same clauses as before the export.", "quantifier": "For all texts of files: all formulas with clauses of one length, all numbers of variables, all comments before the header and closing lines; for all correct solvers and all lists of signed variables.", "why_tests_cant": "The reader has no tests. Whether the indices of clauses, the skipped lines and the split into words fit together is a question about all texts; files with another layout lose literals without a message.", "anchors": ["test/python_ksat/src/run_minisat.py", "test/python_ksat/src/process2cnf.py"]}
{"id": "C96", "title": "The scripts for test inputs always write usable files", "statement": "The script for k-SAT inputs writes a file for every sample and never stops with ERROR. The file holds between one and the requested number of different clauses, the right count, a planted assignment that satisfies them and a finite cost per variable. The program returns on it with every setting and reports correctly whether its decisions satisfy the formula; with biased costs and little noise it finds the planted assignment. The script for TSP inputs writes a complete graph, sorted, with the drawn numbers, and the first round of the program returns on it.", "quantifier": "For all outcomes of all random draws, all sizes, all kinds of costs, all settings and numbers of iterations; TSP numbers other than zero.", "why_tests_cant": "The scripts draw random inputs; a test sees a few draws. The duplicate removal and the ERROR branch depend on rare draws.", "anchors": ["test/python_ksat/src/generate_inputs.py", "test/python_tsp/src/generate_inputs.py", "src/impa/Impa.py: GraphicalModelKsat.initialize"]}
{"id": "C97", "title": "The comparison of TSP results with a reference tour", "statement": "With the option for saving, the results of every run are stored together with the reference tour and its cost. The cost of the reference tour is the sum along it. If no cost is negative and the reference tour is a shortest one, a run that reports a tour reports at least the cost of its tour and at least the cost of the reference tour, and equal costs mean that the reported tour is a shortest one. With symmetric costs a run without augmentation and post-processing reports at least twice the cost of the reference tour.", "quantifier": "For all cost matrices, numbers of nodes, settings, orders of the hash map, reference tours and results.", "why_tests_cant": "Tests would need an exact solver to know whether a gap is real. That the reported cost is never below the optimum, and that it can be twice the cost of an optimal tour, concerns all inputs.", "anchors": ["src/impa/Impa.py: run_pre_analysis", "src/impa/Impa.py: solve_tsp_lkh", "src/impa/Impa.py: GraphicalModelTsp.run_impa"]}
{"id": "C98", "title": "The order of additions in the beliefs of the teams", "statement": "The program test_EOP.cpp, which adds the rows in two orders and compares for equality, succeeds on all numbers it draws. In exact arithmetic, and whenever rounding does not change the sums, it does. Rounded results differ by at most (2D+1) times the error of one operation for D rows, less than 10^-9 for the sizes and ranges of the program. The Python program adds in the same order twice and always succeeds. The native solver uses the first order.", "quantifier": "For all numbers of rows and columns, all drawn numbers and all roundings of the stated kinds.", "why_tests_cant": "Random draws fail only if the last bits differ; a test cannot bound the difference for all draws.", "anchors": ["test/src/test_EOP/test_EOP.cpp", "test/src/test_EOP/test_EOP.py", "include/impalib/input_output.hpp: OutputsKcMwm::extrinsic_output_team_update"]}
{"id": "C99", "title": "The example programs", "statement": "The example programs for the TSP, k-SAT and assignment problems hand the library the arrays that the Python programs build for the same data (the assignment example passes two more entries that are never read). They never leave an array. The assignment example prints the intrinsic outputs of the Python call, the k-SAT example the beliefs without the costs; their signs never speak against the assignment that the costs prefer and that satisfies both clauses. The TSP example comes to its end, and with a tour of all nodes if it reports one, or the library ends the process because a round selects no edge.", "quantifier": "For every number of iterations, every damping, threshold, limit, flag and traversal order.", "why_tests_cant": "The programs have fixed constants; the claims are about all settings.", "anchors": ["examples/Tsp/demo.cpp: main", "examples/Ksat/demo.cpp: main", "examples/KcMwm/demo.cpp: main"]}
{"id": "C100", "title": "The unit tests pass on everything they can draw", "statement": "Each unit test that draws inputs, runs the pure Python function and the library on them and compares the results (team, project and coupling constraints, equality constraints, knapsack tables and outputs, damping, whole runs of the assignment, k-SAT and relaxed TSP programs, and all updates of the k-SAT and TSP programs) reports PASSED for every possible draw, not only for the drawn one. Claimed for the project constraints for all numbers of projects and teams, but with as many projects as teams that test fails; and for the TSP run with cuts for all drawn matrices, but for some the Python program fails where the library returns a tour.", "quantifier": "For all sizes, all finite messages (those that the drivers leave at zero are zero), all well-formed instances, all draws of the drivers (capacities with room for a team of every kind, formulas, cost matrices) and all numbers of iterations.", "why_tests_cant": "A test run covers one random draw; the claim is about all of them, and about sizes that the scripts do not use.", "anchors": ["test/python_kc_mwm/test/ut_*.py", "test/python_ksat/test/ut_*.py", "test/python_tsp/test/ut_*.py", "test/include/ut_*.hpp"]}
{"id": "C101", "title": "What the belief of a k-SAT variable depends on and how many iterations are needed", "statement": "After N iterations, with any damping, the belief of a variable depends only on the clauses that contain a variable fewer than N steps away and on the costs of the variables at most N steps away; two formulas that agree there give the same belief and, without post-processing, the same reported value. If these clauses form a formula without cycles, the belief without damping is exactly the difference between its cheapest satisfying assignments with and without the variable, even if there are cycles further away. In a formula without cycles as many iterations as there are clauses on the longest walk from the variable are enough, and for every N there is a chain of N+1 implications for which N iterations report the wrong value.", "quantifier": "For all formulas, costs, damping settings, numbers of iterations and variables.", "why_tests_cant": "Locality is a relation between all pairs of formulas that agree near a variable; tests compare single runs with a known answer.", "anchors": ["include/impalib/graphical_model.hpp: GraphicalModelKsat::iterate", "include/impalib/update_ksat_constraint.hpp: KsatConstraint::ksat_constraint_to_variable_ec_update", "src/impa/Impa.py: GraphicalModelKsat.run_impa"]}
{"id": "C102", "title": "The .npy files of the native tests", "statement": "The reader of the native tests returns shape, element size, order and exactly the bytes of the elements for every file in numpy's format whose header line has at most 256 bytes, and refuses files that are too short. What the writer writes is that format, aligned to 16 bytes, and is read back unchanged for up to fifteen dimensions; appending to lists and tables adds the new rows. The elements are in bounds exactly for types that are not larger than the elements of the file. Three of the expected laws are false: with many dimensions the header does not fit the buffer, appending to an array with more dimensions can overwrite the first sixteen bytes of the data, and a list can be appended to a table, after which the file cannot be read.", "quantifier": "For all shapes, element types, data and preambles; files of any length.", "why_tests_cant": "The tests read the few files their Python drivers have just written; no test appends or uses more than three dimensions.", "anchors": ["test/external/cnpy/cnpy.h: npy_save, create_npy_header, NpyArray", "test/external/cnpy/cnpy.cpp: parse_npy_header, load_the_npy_file, npy_load"]}
{"id": "C103", "title": "Archives of arrays", "statement": "Arrays that are saved one after the other in an archive of less than 4 GB are all read back in that order, whatever the checksums are; reading a single name gives the array that was saved first under it and fails if there is none. A reader that follows the directory of the archive, as Python's does, finds the same files with their names and checksums. Both readers agree if the names differ; if a name was saved twice they do not, because reading everything keeps the last one. All assertions of the example program of the library hold for all data.", "quantifier": "For all lists of calls, names, shapes, element types and data.", "why_tests_cant": "The example program of the library saves three fixed variables; properties of every sequence of calls need induction over the archive.", "anchors": ["test/external/cnpy/cnpy.h: npz_save", "test/external/cnpy/cnpy.cpp: parse_zip_footer, npz_load", "test/external/cnpy/example1.cpp: main"]}
{"id": "C104", "title": "The list of numbers of units", "statement": "The native unit tests read the numbers of units of the assignment problem from a text that the Python drivers read too. For every list of numbers that fit the type int the text that lists them with commas is read by both programs as that list. Both programs agree on every text without underscores whose numbers fit and that the Python program accepts: numbers between commas, with signs, leading zeros and spaces. They do not agree on every text, since Python reads underscores between digits; numbers outside the type end the native program, text after a number is ignored by it.", "quantifier": "For all texts.", "why_tests_cant": "The tests use one fixed text; agreement of two parsers on all texts needs induction over the text.", "anchors": ["test/include/ut_utils.hpp: take_int", "test/python_kc_mwm/test/impalib_unit_tests.py: main (args.Nu.split)"]}
{"id": "C105", "title": "What the unit-test scripts compare", "statement": "For each of the tests in the three scripts the variables that the native program looks up are exported and the files it opens are those the Python program of the same sub-test has saved. With one sub-test for each test, or when neither program dies, every report compares files of its own sub-test; with more sub-tests a report can be about old files and say PASSED, because the results are only removed after the last one. If neither program dies, every result the Python program saves is compared with the native file of the corresponding name, for any number of departments. A report is never about no files. The exit status of a script does not depend on the verdicts: it is 0 as soon as the Python program of the last test has saved its results.", "quantifier": "For all three scripts, any number of departments and of sub-tests, all contents of files, and programs that die at any point.", "why_tests_cant": "A test suite cannot test what its own scripts overlook: stale files, ignored exit codes and files that nobody compares do not show in runs that pass.", "anchors": ["test/src/unit_test_kc_mwm.sh", "test/src/unit_test_tsp.sh", "test/src/unit_test_ksat.sh", "test/src/impalib_unit_tests_kc_mwm.cpp: main", "test/src/impalib_unit_tests_tsp.cpp: main", "test/src/impalib_unit_tests_ksat.cpp: main", "test/python_kc_mwm/test/ut_methods_utils.py", "test/python_kc_mwm/test/ut_utils.py: check_forward_backward_results"]}
{"id": "C106", "title": "Formulas in which no variable occurs with both signs", "statement": "If no variable occurs with both signs (vertex covers, hitting sets), runs of the k-SAT solver without damping bracket all later results: read as cost of making the literal of a variable true, beliefs after an odd number of iterations are lower bounds and beliefs after an even number are upper bounds of the beliefs after every larger number. So a literal made true after an even number of iterations, or false after an odd number, keeps its value. With any damping a belief stays between the own cost and the own cost minus the costs of satisfying the clauses of the variable otherwise. With costs that are multiples of a unit the results repeat with period two after a number of iterations proportional to the number of literals and the largest cost, and two successive results with the same beliefs are final. With both signs the last two statements fail.", "quantifier": "For all such formulas of any size, cyclic or not, all rational costs and all numbers of iterations.", "why_tests_cant": "The tests run random formulas with both signs for fixed numbers of iterations; that a result is final cannot be observed.", "anchors": ["src/impa/Impa.py: GraphicalModelKsat.run_impa", "include/impalib/graphical_model.hpp: GraphicalModelKsat::iterate", "include/impalib/update_ksat_constraint.hpp: KsatConstraint::ksat_constraint_to_variable_ec_update", "include/impalib/update_equality_constraint.hpp: EqualityConstraint::variable_ec_to_ksat_constraint_update"]}
{"id": "C107", "title": "Single precision on formulas in which no variable occurs with both signs", "statement": "If no variable occurs with both signs, all costs are whole multiples of a power of two within range, at most B times this power, no variable is in more than D+1 clauses, there is no damping, and 2k(D+1)B and B+(D+2)(D+1)B are at most 2^p, then the k-SAT solver in arithmetic with p significant bits (24 for float, 53 for double) returns exactly the same result object as in exact arithmetic after every number of iterations, and its results repeat with period two after a number of iterations proportional to the number of literals and B. The bound does not depend on the number of iterations, unlike in C72.", "quantifier": "For all such formulas with k at least 2, cyclic or not, all such costs, every number of iterations, thresholds, post-processing settings and binary formats.", "why_tests_cant": "Tests compare a few instances and iteration counts; that every intermediate result of every iteration is representable is a statement about unboundedly many values.", "anchors": ["include/impalib/graphical_model.hpp: GraphicalModelKsat::iterate", "include/impalib/update_ksat_constraint.hpp", "include/impalib/common.hpp", "src/impa/Impa.py: GraphicalModelKsat.run_impa"]}
{"id": "C108", "title": "Decisions on formulas in which no variable occurs with both signs", "statement": "If no variable occurs with both signs and there is no damping, then a belief of the k-SAT solver that makes a literal true after an even number of iterations, or false after an odd number, agrees with every cheapest solution of the linear relaxation (values between 0 and 1, literals of a clause summing up to at least 1). If an even and an odd number of iterations give the same decisions and no belief is zero, these decisions are the only cheapest satisfying assignment, and every call with at least as many iterations reports it with its flag for satisfied and without post-processing. For clauses of two literals (vertex covers) every satisfying assignment can be replaced by one that is no costlier and follows all these decisions at once.", "quantifier": "For all such formulas with k at least 2 (exactly 2 for the last claim), cyclic or not, all costs, all numbers of iterations, all cheapest fractional solutions and all satisfying assignments.", "why_tests_cant": "Optimality over all assignments and all fractional solutions cannot be observed from single runs; the claim rests on duality of linear programs.", "anchors": ["include/impalib/graphical_model.hpp: GraphicalModelKsat::iterate", "include/impalib/update_ksat_constraint.hpp", "include/impalib/update_equality_constraint.hpp", "src/impa/Impa.py: GraphicalModelKsat.run_impa"]}
{"id": "C109", "title": "Damping on formulas in which no variable occurs with both signs", "statement": "If no variable occurs with both signs, then with any damping factor from 0 up to but below 1 the beliefs of a long k-SAT run lie, up to an error as small as one likes, between the undamped beliefs after every odd and every even number of iterations (read as costs of making the literal true). Hence every decision that an undamped run makes with the right parity is made by all sufficiently long damped runs; if the undamped beliefs of two successive numbers of iterations agree, damped runs tend to them; and if an even and an odd number of undamped iterations give the same decisions without a zero belief, every sufficiently long damped call reports the only cheapest satisfying assignment.", "quantifier": "For all such formulas with k at least 2, cyclic or not, all costs, all damping factors in [0,1), all numbers of undamped iterations and all sufficiently large numbers of damped ones.", "why_tests_cant": "Limits of runs with arbitrary damping factors cannot be observed.", "anchors": ["include/impalib/graphical_model.hpp: GraphicalModelKsat::iterate", "include/impalib/update_ksat_constraint.hpp", "include/impalib/update_equality_constraint.hpp", "src/impa/Impa.py: GraphicalModelKsat.run_impa"]}
{"id": "C110", "title": "Formulas with at most one cycle in each connected part", "statement": "If the graph of clauses and variables has at most one cycle in each connected part, the clause messages of two successive iterations agree and every belief is nonzero and on the same side of the threshold as of zero, then the k-SAT call with this or any larger number of iterations reports a satisfying assignment, without post-processing, and no satisfying assignment costs less. The condition holds if striking one variable from one clause removes all cycles. With more cycles the conclusion fails: there is a formula whose messages settle without a zero belief and whose reported assignment is not a cheapest one.", "quantifier": "For all such formulas with k at least 2, all costs, thresholds, damping factors other than 1, all iteration numbers at which the messages have settled and all larger ones, and all satisfying assignments compared.", "why_tests_cant": "Optimality over all assignments of formulas of any size; tests can only compare small instances with brute force.", "anchors": ["include/impalib/graphical_model.hpp: GraphicalModelKsat::iterate", "include/impalib/update_ksat_constraint.hpp", "include/impalib/update_equality_constraint.hpp", "src/impa/Impa.py: GraphicalModelKsat.run_impa"]}
{"id": "C111", "title": "Clauses in which a variable occurs more than once", "statement": "The update of the clause messages works on clauses that repeat variables, with one sign or with both: the message to a variable is the strongest of the pushes to its positions. A variable that occurs once in a clause gets the exact min-sum message of the clause, whatever the clause repeats. A variable that is repeated with one sign is pushed by the cost of the cheapest literal of the clause, its own included, so its clause never makes it cheaper than free. A variable that occurs with both signs is pushed the way it leans, by at most as much as it leans, and such a clause says nothing to its other variables. So messages to repeated variables are not exact: a clause that is one costly literal several times, with a variable that occurs nowhere else, never gets a belief beyond zero in any run, damped or not. Without damping, when the clause is listed several times with its variable, as read_cnf_file does, the belief alternates between the cost and zero, and after every even number of iterations the clause is decided to be false; this is proved from the text of the file to the decisions. The same holds for all literals of a clause that shares no variable with others and is filled up by repeating a cheapest literal. If a run settles on a clause that is one literal several times, the belief is the cost times (m - 1)/m for a clause listed m times.", "quantifier": "For all numbers of clauses and variables, all clause lengths of at least two, all incoming messages and costs, all damping factors between 0 and 1 and all numbers of iterations.", "why_tests_cant": "The statements quantify over all clauses, all repetitions and all costs; tests draw clauses with distinct variables.", "anchors": ["include/impalib/update_ksat_constraint.hpp: KsatConstraint::ksat_constraint_to_variable_ec_update", "include/impalib/update_equality_constraint.hpp: EqualityConstraint::variable_ec_to_ksat_constraint_update", "include/impalib/graphical_model.hpp: GraphicalModelKsat::iterate", "test/python_ksat/src/run_minisat.py: read_cnf_file"]}
{"id": "C112", "title": "Odd and even numbers of iterations on formulas in which no variable occurs with both signs", "statement": "If no variable occurs with both signs and there is no damping, then after every odd number of iterations of the k-SAT solver every clause has a literal whose belief does not speak against it; so with threshold zero the reported assignment satisfies the formula and post-processing is not used, unless the belief of a negated variable is exactly zero, and with plain literals only (vertex covers, hitting sets) it does for every threshold from zero on. Even numbers of iterations need not: if every literal costs something and no more than satisfying all but any one of its clauses otherwise (for instance if every variable is in at least d+1 clauses and costs differ at most by the factor d), then the run alternates forever between making all literals true and making all literals false, and after every even number of iterations the beliefs are the costs and every clause is violated.", "quantifier": "For all such formulas with k at least 2, cyclic or not, all costs, all numbers of iterations of the given parity, and post-processing settings.", "why_tests_cant": "That the parity of the number of iterations decides whether the result satisfies the formula, for every formula and every number, cannot be observed from runs with one fixed number of iterations.", "anchors": ["include/impalib/graphical_model.hpp: GraphicalModelKsat::iterate", "include/impalib/update_ksat_constraint.hpp: KsatConstraint::ksat_constraint_to_variable_ec_update", "include/impalib/update_equality_constraint.hpp: EqualityConstraint::variable_ec_to_ksat_constraint_update", "src/impa/Impa.py: GraphicalModelKsat.run_impa", "src/impa/Impa.py: GraphicalModelKsat.hard_decision_analysis"]}
{"id": "C113", "title": "Damping on formulas in which all variables look alike", "statement": "If no variable occurs with both signs, every variable is in d clauses and all literals cost the same, then all beliefs of the k-SAT solver, read as costs of making the literal true, are equal after every number of iterations and with every damping factor; if all literals are plain or all negated, the call without post-processing satisfies all clauses or none, for every threshold. With damping factor alpha between 0 and 1 and (1-alpha)(d-1) at most 1 the belief after N iterations is the cost times (1-d(1-alpha))^N. So damping does not make such runs end in a solution: with d(1-alpha) below 1 all clauses are violated after every number of iterations, otherwise after every even number; and there is no damping factor with which long runs satisfy every formula without mixed variables.", "quantifier": "For all such formulas with k at least 2, all costs, damping factors, thresholds and numbers of iterations.", "why_tests_cant": "A closed form for all numbers of iterations and all damping factors cannot be observed from runs with one setting; random costs hide the symmetric case.", "anchors": ["include/impalib/graphical_model.hpp: GraphicalModelKsat::iterate", "include/impalib/update_ksat_constraint.hpp: KsatConstraint::process_filtering", "include/impalib/update_equality_constraint.hpp: EqualityConstraint::variable_ec_to_ksat_constraint_update", "src/impa/Impa.py: GraphicalModelKsat.run_impa"]}
{"id": "C114", "title": "An even number of iterations that satisfies the formula has found the cheapest solution", "statement": "If no variable occurs with both signs, there is no damping, no belief is zero after some even number of iterations of the k-SAT solver, and the decisions satisfy the formula, then they are the only cheapest satisfying assignment, whatever the costs and the cycles. So a call with an even number of iterations that reports all clauses satisfied without post-processing reports the only cheapest solution. Later even numbers of iterations decide the same, and all sufficiently long runs with any damping factor below one satisfy the formula. For odd numbers of iterations this is false.", "quantifier": "For all such formulas with k at least 2, cyclic or not, all costs, all even numbers of iterations and all damping factors below 1.", "why_tests_cant": "Optimality over all assignments and the statement for all larger numbers of iterations cannot be observed; nothing in the code or the tests compares costs of k-SAT solutions.", "anchors": ["include/impalib/graphical_model.hpp: GraphicalModelKsat::iterate", "include/impalib/update_ksat_constraint.hpp: KsatConstraint::ksat_constraint_to_variable_ec_update", "include/impalib/update_equality_constraint.hpp: EqualityConstraint::variable_ec_to_ksat_constraint_update", "src/impa/Impa.py: GraphicalModelKsat.run_impa", "src/impa/Impa.py: GraphicalModelKsat.hard_decision_analysis"]}
{"id": "C115", "title": "Solutions from odd numbers of iterations can cost any factor too much, but a factor bounded by the occurrences", "statement": "Consider formulas with k literals per clause, none negated, and costs that are not negative. If each variable is in at most D clauses, then after any number of iterations of the k-SAT solver, with any damping between 0 and 1, the variables that are decided to be true together cost at most 1 + (k-1) D times as much as any satisfying assignment; without damping and with an odd number of iterations the reported assignment satisfies the formula, too. The bound is attained by the star with three leaves after one iteration. That some fixed factor holds for all formulas with two literals per clause, unit costs and all sufficiently large odd numbers of iterations is false: if two nodes are each joined to m others, every odd number of iterations takes all m + 2 nodes although two are enough.", "quantifier": "For all such formulas with k at least 2, cyclic or not, all costs that are not negative, all numbers of iterations and all damping factors between 0 and 1; the counterexamples for all m and all odd numbers of iterations.", "why_tests_cant": "A ratio to the best of exponentially many assignments, for all formulas, cannot be tested; nothing in the code or the tests looks at costs of k-SAT solutions.", "anchors": ["include/impalib/graphical_model.hpp: GraphicalModelKsat::iterate", "include/impalib/update_ksat_constraint.hpp: KsatConstraint::ksat_constraint_to_variable_ec_update", "include/impalib/update_equality_constraint.hpp: EqualityConstraint::variable_ec_to_ksat_constraint_update", "src/impa/Impa.py: GraphicalModelKsat.run_impa", "src/impa/Impa.py: GraphicalModelKsat.hard_decision_analysis"]}
{"id": "C116", "title": "Costs after even numbers of iterations are lower bounds and costs after odd ones upper bounds for the optimum", "statement": "If no variable occurs with both signs, there is no damping and no belief is zero after an even number of iterations of the k-SAT solver, then the assignment decided then, which need not satisfy the formula, costs at most as much as any fractional solution of the linear relaxation and so as any satisfying assignment. The cost of the assignment decided after an even number of iterations is at most that after any larger number, and after an odd number at least that after any larger number. All sufficiently long runs with a damping factor below one decide on assignments with costs in between (unless an undamped belief is zero). So on formulas without negations two calls, one with an even and one with an odd number of iterations, enclose the optimum, and if the reported assignments cost the same, the second is a cheapest solution. With a belief that is zero the lower bound can fail.", "quantifier": "For all such formulas with k at least 2, cyclic or not, all costs of any sign, all numbers of iterations and all damping factors below 1.", "why_tests_cant": "The optimum over all assignments and the statements for all larger numbers of iterations cannot be observed; nothing in the code or the tests looks at costs of k-SAT solutions.", "anchors": ["include/impalib/graphical_model.hpp: GraphicalModelKsat::iterate", "include/impalib/update_ksat_constraint.hpp: KsatConstraint::ksat_constraint_to_variable_ec_update", "include/impalib/update_equality_constraint.hpp: EqualityConstraint::variable_ec_to_ksat_constraint_update", "src/impa/Impa.py: GraphicalModelKsat.run_impa", "src/impa/Impa.py: GraphicalModelKsat.hard_decision_analysis"]}
{"id": "C117", "title": "Solution quality of odd and even numbers of iterations in single precision", "statement": "Let no variable of a formula occur with both signs and be in more than D + 1 clauses, and let the costs be whole multiples of a power of two that are small enough for the number format (24 bits for float), without damping. Without negations and with costs that are not negative, the call in that format with an odd number of iterations reports a satisfying assignment that costs at most 1 + (k-1)(D+1) times as much as any other. With an even number of iterations and no reported belief zero, the reported assignment costs at most as much as any satisfying one, and if the call reports that all clauses are satisfied without post-processing, it is the only cheapest one. That odd numbers of iterations in float satisfy all formulas without negations for all positive costs that float can hold is false: on a path with four nodes and costs 3, 2^24+2, 2^26 and 2^24+2 three iterations leave an edge uncovered, and on another path so do the costs 0.4, 0.5, 0.9 and 0.8, which exact arithmetic handles. The statement on even numbers is false without the bounds, too: six iterations in float on the triangle with costs 0.4, 0.3 and 0.7 report all three nodes, at twice the necessary cost.", "quantifier": "For all such formulas, costs and numbers of iterations, for all binary formats with p bits.", "why_tests_cant": "Rounding in arbitrarily long runs together with the optimum over all assignments cannot be covered by sample runs; the tests compare with a tolerance and never look at costs.", "anchors": ["include/impalib/common.hpp: impalib_type", "include/impalib/graphical_model.hpp: GraphicalModelKsat::iterate", "include/impalib/update_ksat_constraint.hpp: KsatConstraint::ksat_constraint_to_variable_ec_update", "include/impalib/update_equality_constraint.hpp: EqualityConstraint::variable_ec_to_ksat_constraint_update", "src/impa/Impa.py: GraphicalModelKsat.run_impa", "src/impa/Impa.py: GraphicalModelKsat.hard_decision_analysis"]}
