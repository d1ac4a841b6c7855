{
 "claims": [
  {
   "property": "C01",
   "status": "proved",
   "theorems": [
    "Verif.Properties.C01_project_messages_exact",
    "Verif.Properties.C01_project_message_extrinsic"
   ],
   "note": "exact at-most-one message, non-negative, independent of own message and of old output"
  },
  {
   "property": "C02",
   "status": "proved",
   "theorems": [
    "Verif.Properties.C02_coupling_messages_exact"
   ],
   "note": "exact coupling message, plus reward"
  },
  {
   "property": "C03",
   "status": "partial",
   "theorems": [
    "Verif.Properties.C03_team_message_exact_partial",
    "Verif.Properties.C03_claim_false"
   ],
   "note": "false as claimed when all edge messages of a team exceed the literal 1000000 in the code (C03_claim_false); proved otherwise"
  },
  {
   "property": "C04",
   "status": "proved",
   "theorems": [
    "Verif.Properties.C04_clause_messages_exact",
    "Verif.Properties.C04_clause_messages_push",
    "Verif.Properties.C04_clause_message_extrinsic"
   ],
   "note": "exact clause messages for every k, sign/magnitude/finiteness for k>=2, independence of own message"
  },
  {
   "property": "C05",
   "status": "proved",
   "theorems": [
    "Verif.Properties.C05_degree_messages_exact",
    "Verif.Properties.C05_degree_messages_value"
   ],
   "note": "exact exactly-one messages; -inf for sole candidate; other entries unchanged (zero in the caller)"
  },
  {
   "property": "C06",
   "status": "proved",
   "theorems": [
    "Verif.Properties.C06_subtour_messages_exact"
   ],
   "note": "exact at-least-one messages, non-positive; other entries unchanged (zero in the caller)"
  },
  {
   "property": "C07",
   "status": "proved",
   "theorems": [
    "Verif.Properties.C07_knapsack_messages_exact",
    "Verif.Properties.C07_knapsack_messages_finite"
   ],
   "note": "exact capacity messages for every gap pattern, finiteness"
  },
  {
   "property": "C08",
   "status": "proved",
   "theorems": [
    "Verif.Properties.C08_damping_closed_form",
    "Verif.Properties.C08_damping_forgets",
    "Verif.Properties.C08_damping_range",
    "Verif.Properties.C08_damping_department"
   ],
   "note": "closed form, history independence, range, and the per-department version"
  },
  {
   "property": "C09",
   "status": "proved",
   "theorems": [
    "Verif.Properties.C09_edge_relaxed",
    "Verif.Properties.C09_edge_augmented",
    "Verif.Properties.C09_edge_subtour",
    "Verif.Properties.C09_variable_to_clause",
    "Verif.Properties.C09_team_to_coupling",
    "Verif.Properties.C09_project_to_coupling"
   ],
   "note": "relaxed, augmented, towards subtour constraints (both code paths), k-SAT, and the assignment solver"
  },
  {
   "property": "C10",
   "status": "partial",
   "theorems": [
    "Verif.Properties.C10_team_to_department_partial",
    "Verif.Properties.C10_claim_false"
   ],
   "note": "holds when every team uses at most two departments; false for three (C10_claim_false)"
  },
  {
   "property": "C11",
   "status": "partial",
   "theorems": [
    "Verif.Properties.C11_run",
    "Verif.Properties.C11_textbook_run_partial",
    "Verif.Properties.C11_below_limit_is_textbook",
    "Verif.Properties.C11_claim_false"
   ],
   "note": "whole runs proved for every instance with the literal limit 1000000 on team messages; textbook algorithm proved while the limit is not reached; false beyond it (C11_claim_false)"
  },
  {
   "property": "C12",
   "status": "proved",
   "theorems": [
    "Verif.Properties.C12_complete_two_ways",
    "Verif.Properties.C12_relaxed_run",
    "Verif.Properties.C12_two_nodes_infinite"
   ],
   "note": "runs on any graph with two ways out of and into every node (includes complete graphs with n>=3); two nodes give -inf"
  },
  {
   "property": "C13",
   "status": "proved",
   "theorems": [
    "Verif.Properties.C13_ksat_run",
    "Verif.Properties.C13_trace_unique",
    "Verif.Properties.C13_no_iterations"
   ],
   "note": ""
  },
  {
   "property": "C14",
   "status": "proved",
   "theorems": [
    "Verif.Properties.C14_hard_decision"
   ],
   "note": "All belief vectors, including infinities and NaN, all thresholds and edge lists; costs finite."
  },
  {
   "property": "C15",
   "status": "proved",
   "theorems": [
    "Verif.Properties.C15_search_terminates"
   ],
   "note": "Depth of the recursion is bounded by the number of selected edges; the result does not depend on the depth limit."
  },
  {
   "property": "C16",
   "status": "proved",
   "theorems": [
    "Verif.Properties.C16_tour",
    "Verif.Properties.C16_tour_found"
   ],
   "note": "For every traversal order of the hash map. Also: a Hamiltonian cycle is always recognised when no node has two outgoing selected edges."
  },
  {
   "property": "C17",
   "status": "proved",
   "theorems": [
    "Verif.Properties.C17_subtours",
    "Verif.Properties.C17_nodes_covered",
    "Verif.Properties.C17_all_cycles"
   ],
   "note": "For every traversal order of the hash map. Also: a node is on a directed cycle iff it is in a reported subtour; with at most one outgoing edge per node the reported subtours are exactly the cycles up to rotation."
  },
  {
   "property": "C18",
   "status": "partial",
   "theorems": [
    "Verif.Properties.C18_cost_partial",
    "Verif.Properties.C18_exact_partial",
    "Verif.Properties.C18_claim_false"
   ],
   "note": "False in general (C18_claim_false): a chord of the tour can be selected as well, its loop is dropped as a subsequence and its cost stays in the reported cost. Proved: the cost is that of the tour plus the extra selected edges, and equal to the tour's when exactly n edges are selected."
  },
  {
   "property": "C19",
   "status": "proved",
   "theorems": [
    "Verif.Properties.C19_round",
    "Verif.Properties.C19_rounds",
    "Verif.Properties.C19_two_edges"
   ],
   "note": "One round and every sequence of rounds; also that on complete graphs with three or more nodes each constraint has at least two edges, as C38 needs."
  },
  {
   "property": "C20",
   "status": "proved",
   "theorems": [
    "Verif.Properties.C20_terminates",
    "Verif.Properties.C20_rounds",
    "Verif.Properties.C20_rows",
    "Verif.Properties.C20_tour"
   ],
   "note": "For every behaviour of the message passing. Each stop flag is characterised exactly by the selections of the last rounds. A limit of zero is never met (example)."
  },
  {
   "property": "C21",
   "status": "partial",
   "theorems": [
    "Verif.Properties.C21_fits_iff_partial",
    "Verif.Properties.C21_fits_partial",
    "Verif.Properties.C21_small_overflow",
    "Verif.Properties.C21_claim_false"
   ],
   "note": "False (C21_claim_false, C21_small_overflow): the buffer for selected edges has comb(n,2) entries, two per edge are written; with three or four nodes every tour overflows it. Proved: exactly when everything fits, and that it does with five or more nodes and at most one outgoing selected edge per node."
  },
  {
   "property": "C22",
   "status": "proved",
   "theorems": [
    "Verif.Properties.C22_decoded",
    "Verif.Properties.C22_meaning"
   ],
   "note": "For every behaviour of the message passing that returns one extrinsic value per edge. When a tour is found the subtours are None although the solver holds the tour's loop."
  },
  {
   "property": "C23",
   "status": "proved",
   "theorems": [
    "Verif.Properties.C23_decoded",
    "Verif.Properties.C23_flattens",
    "Verif.Properties.C23_beliefs",
    "Verif.Properties.C23_trace",
    "Verif.Properties.C23_call"
   ],
   "note": "Every table is rebuilt for all contents (also infinite or NaN); each belief is read back at its own pair; the whole call returns the results of C11. With no departments the caller raises before calling (C23_flattens)."
  },
  {
   "property": "C24",
   "status": "proved",
   "theorems": [
    "Verif.Properties.C24_decoded",
    "Verif.Properties.C24_used_needed",
    "Verif.Properties.C24_call"
   ],
   "note": "With every variable that has clauses in the used list; that condition is also shown to be needed (C24_used_needed). The whole call returns the results of C13."
  },
  {
   "property": "C25",
   "status": "partial",
   "theorems": [
    "Verif.Properties.C25_tour",
    "Verif.Properties.C25_returns",
    "Verif.Properties.C25_kept",
    "Verif.Properties.C25_structure",
    "Verif.Properties.C25_claim_false",
    "Verif.Properties.C25_selection_claim_false",
    "Verif.Properties.C25_path_partial",
    "Verif.Properties.C25_selection_partial"
   ],
   "note": "claim as stated is false: k-opt with four nodes raises an exception, and with overfull nodes every selected edge may be removed (C25_claim_false, C25_selection_claim_false). Proved: every returned result is a tour with its cost, the exact condition for returning, and the structure of the result"
  },
  {
   "property": "C26",
   "status": "proved",
   "theorems": [
    "Verif.Properties.C26_kopt",
    "Verif.Properties.C26_two",
    "Verif.Properties.C26_three",
    "Verif.Properties.C26_small"
   ],
   "note": "at least five nodes; with at most four nodes the code raises an exception (C26_small)"
  },
  {
   "property": "C27",
   "status": "proved",
   "theorems": [
    "Verif.Properties.C27_greedy",
    "Verif.Properties.C27_nothing_lost",
    "Verif.Properties.C27_once"
   ],
   "note": "finite costs, nonempty tour; also that every step is the cheapest one"
  },
  {
   "property": "C28",
   "status": "proved",
   "theorems": [
    "Verif.Properties.C28_report"
   ],
   "note": "Full report: unsatisfied clauses, active and inactive variables; the report never fails on consistent tables."
  },
  {
   "property": "C29",
   "status": "proved",
   "theorems": [
    "Verif.Properties.C29_generated",
    "Verif.Properties.C29_solver_ready"
   ],
   "note": "All random outcomes; also shows that generated formulas meet the conditions of the solver theorems (C24)."
  },
  {
   "property": "C30",
   "status": "partial",
   "theorems": [
    "Verif.Properties.C30_claim_false",
    "Verif.Properties.C30_reported",
    "Verif.Properties.C30_one_violated_partial",
    "Verif.Properties.C30_first_phase_partial"
   ],
   "note": "The monotonicity half is false: the second phase compares with the count of the last rejected trial (C30_claim_false, pp_elements = 1). Proved: the report half in full for all orders, and monotonicity when at most one clause is violated initially or after the first phase."
  },
  {
   "property": "C31",
   "status": "partial",
   "theorems": [
    "Verif.Properties.C31_claim_false",
    "Verif.Properties.C31_nonpositive_partial",
    "Verif.Properties.C31_positive"
   ],
   "note": "False for positive thresholds (C31_claim_false, C31_positive describes what happens). Proved for thresholds at most 0, including infinite and NaN beliefs."
  },
  {
   "property": "C32",
   "status": "partial",
   "theorems": [
    "Verif.Properties.C32_claim_false",
    "Verif.Properties.C32_fits_partial"
   ],
   "note": "End to end from team generation, both options, ties and infinite beliefs included. False if some kind of team does not fit (C32_claim_false, consequence of C33)."
  },
  {
   "property": "C33",
   "status": "partial",
   "theorems": [
    "Verif.Properties.C33_claim_false",
    "Verif.Properties.C33_rewards",
    "Verif.Properties.C33_weights_partial"
   ],
   "note": "False in full: a kind of team that does not fit still gets one weight entry (C33_claim_false). Proved without restriction: rewards and the table of last indices; proved when every kind fits at least once: weights and types."
  },
  {
   "property": "C34",
   "status": "proved",
   "theorems": [
    "Verif.Properties.C34_matrix",
    "Verif.Properties.C34_edges",
    "Verif.Properties.C34_complete"
   ],
   "note": "matrix, edge list and edge costs for all sizes and random outcomes"
  },
  {
   "property": "C35",
   "status": "proved",
   "theorems": [
    "Verif.Properties.C35_similarity"
   ],
   "note": ""
  },
  {
   "property": "C36",
   "status": "partial",
   "theorems": [
    "Verif.Properties.C36_claim_false",
    "Verif.Properties.C36_team_limit_differs",
    "Verif.Properties.C36_zero_rate_differs",
    "Verif.Properties.C36_project_partial",
    "Verif.Properties.C36_project_balanced",
    "Verif.Properties.C36_team_partial",
    "Verif.Properties.C36_coupling_agrees",
    "Verif.Properties.C36_knapsack_agrees",
    "Verif.Properties.C36_department_agrees",
    "Verif.Properties.C36_kc_run_partial",
    "Verif.Properties.C36_clause_agrees",
    "Verif.Properties.C36_ksat_run",
    "Verif.Properties.C36_degree_agrees",
    "Verif.Properties.C36_cut_agrees",
    "Verif.Properties.C36_tsp_relaxed_run",
    "Verif.Properties.C36_tsp_augmented_run",
    "Verif.Properties.C36_tsp_new_cuts"
   ],
   "note": "False as claimed (C36_claim_false: balanced project update is not clipped in Python; C36_team_limit_differs: 1000000 cut-off only in C++; C36_zero_rate_differs: rate 0 raises in Python). Agreement is proved for every update and for whole runs of all three solvers away from these cases (balanced instances, messages above 1000000, damping on with rate 0, groups of one edge, one team or one project)."
  },
  {
   "property": "C37",
   "status": "proved",
   "theorems": [
    "Verif.Properties.C37_round_trip",
    "Verif.Properties.C37_injective"
   ],
   "note": "Against an independent DIMACS reader, character by character."
  },
  {
   "property": "C38",
   "status": "proved",
   "theorems": [
    "Verif.Properties.C38_augmented_run",
    "Verif.Properties.C38_new_cuts"
   ],
   "note": ""
  },
  {
   "property": "C39",
   "status": "partial",
   "theorems": [
    "Verif.Properties.C39_returns_partial",
    "Verif.Properties.C39_claim_false"
   ],
   "note": "False as claimed (C39_claim_false): with equal costs and an even number of iterations no edge is selected, the cost is zero and exit(0) ends the process. Proved: a zero-cost selection (with positive costs: an empty one) is the only way in which the call does not return."
  },
  {
   "property": "C40",
   "status": "proved",
   "theorems": [
    "Verif.Properties.C40_decision"
   ],
   "note": "Finite beliefs. A NaN belief counts as true in the model, as in the code."
  },
  {
   "property": "C41",
   "status": "proved",
   "theorems": [
    "Verif.Properties.C41_pruned"
   ],
   "note": ""
  },
  {
   "property": "C42",
   "status": "proved",
   "theorems": [
    "Verif.Properties.C42_valid"
   ],
   "note": "Finite beliefs, thresholds at most 0, no belief exactly on a negative threshold."
  },
  {
   "property": "C43",
   "status": "partial",
   "theorems": [
    "Verif.Properties.C43_claim_false",
    "Verif.Properties.C43_distinct_partial",
    "Verif.Properties.C43_ties"
   ],
   "note": "False with equal beliefs (C43_claim_false). Proved for distinct beliefs; C43_ties gives what holds in general."
  },
  {
   "property": "C44",
   "status": "partial",
   "theorems": [
    "Verif.Properties.C44_claim_false",
    "Verif.Properties.C44_report",
    "Verif.Properties.C44_best_partial"
   ],
   "note": "False if a team has three projects or a project two teams (C44_claim_false). C44_report proves what is reported in all cases."
  },
  {
   "property": "C45",
   "status": "partial",
   "theorems": [
    "Verif.Properties.C45_claim_false",
    "Verif.Properties.C45_replaced_partial",
    "Verif.Properties.C45_node",
    "Verif.Properties.C45_subtours"
   ],
   "note": "claim is false: all edges can be removed (C45_claim_false). Proved for selections overfull in one direction only, per node, and for subtours"
  },
  {
   "property": "C46",
   "status": "proved",
   "theorems": [
    "Verif.Properties.C46_rounds",
    "Verif.Properties.C46_exit",
    "Verif.Properties.C46_determined"
   ],
   "note": "messages of a new round start from those of the last; the specification is shown to determine all selections"
  },
  {
   "property": "C47",
   "status": "proved",
   "theorems": [
    "Verif.Properties.C47_swap",
    "Verif.Properties.C47_tsp",
    "Verif.Properties.C47_tsp_by_position",
    "Verif.Properties.C47_kc",
    "Verif.Properties.C47_ksat"
   ],
   "note": "holds on the supported platforms Linux and macOS; C47_tsp_by_position shows the exchange under positional conventions"
  },
  {
   "property": "C48",
   "status": "proved",
   "theorems": [
    "Verif.Properties.C48_decoded",
    "Verif.Properties.C48_defined",
    "Verif.Properties.C48_zero_cost",
    "Verif.Properties.C48_instance"
   ],
   "note": "a zero cost between two nodes leads to a read past the end (C48_zero_cost)"
  },
  {
   "property": "C49",
   "status": "proved",
   "theorems": [
    "Verif.Properties.C49_result",
    "Verif.Properties.C49_ends",
    "Verif.Properties.C49_other_edges"
   ],
   "note": "C49_result: what is returned; C49_ends: the call ends, and the conditions under which nothing is returned"
  },
  {
   "property": "C50",
   "status": "proved",
   "theorems": [
    "Verif.Properties.C50_beliefs",
    "Verif.Properties.C50_rate",
    "Verif.Properties.C50_certificate",
    "Verif.Properties.C50_gap",
    "Verif.Properties.C50_relaxed",
    "Verif.Properties.C50_relaxed_after",
    "Verif.Properties.C50_optimal_tour",
    "Verif.Properties.C50_optimal_tour_after"
   ],
   "note": "the number of iterations is not computed; uniqueness of the cover is necessary for the method (C51: symmetric costs)"
  },
  {
   "property": "C51",
   "status": "proved",
   "theorems": [
    "Verif.Properties.C51_round",
    "Verif.Properties.C51_call",
    "Verif.Properties.C51_generated"
   ],
   "note": "an example shows a tour of cost 9 reported with cost 18"
  },
  {
   "property": "C52",
   "status": "proved",
   "theorems": [
    "Verif.Properties.C52_forest_iff",
    "Verif.Properties.C52_beliefs",
    "Verif.Properties.C52_converges",
    "Verif.Properties.C52_solves",
    "Verif.Properties.C52_solves_damped",
    "Verif.Properties.C52_decision"
   ],
   "note": "clauses with at least two literals; the damped statement is a limit (no rate)"
  },
  {
   "property": "C53",
   "status": "proved",
   "theorems": [
    "Verif.Properties.C53_call",
    "Verif.Properties.C53_generated"
   ],
   "note": "at least one iteration; costs are a parameter (drawn at random or read from a file)"
  },
  {
   "property": "C54",
   "status": "proved",
   "theorems": [
    "Verif.Properties.C54_call",
    "Verif.Properties.C54_plain",
    "Verif.Properties.C54_matching",
    "Verif.Properties.C54_mismatch"
   ],
   "note": "one team of every kind must fit its units (C33 shows the failure otherwise); threshold at most zero (C31)"
  },
  {
   "property": "C55",
   "status": "proved",
   "theorems": [
    "Verif.Properties.C55_beliefs",
    "Verif.Properties.C55_report",
    "Verif.Properties.C55_scale"
   ],
   "note": "clauses with at least two literals; decisions of negated variables need threshold 0 and nonzero beliefs (ties count as true)"
  },
  {
   "property": "C56",
   "status": "proved",
   "theorems": [
    "Verif.Properties.C56_pure",
    "Verif.Properties.C56_report"
   ],
   "note": "damping factor between 0 and 1"
  },
  {
   "property": "C57",
   "status": "proved",
   "theorems": [
    "Verif.Properties.C57_beliefs",
    "Verif.Properties.C57_call"
   ],
   "note": "damping factor between 0 and 1; the example attains the bound"
  },
  {
   "property": "C58",
   "status": "proved",
   "theorems": [
    "Verif.Properties.C58_units",
    "Verif.Properties.C58_names",
    "Verif.Properties.C58_call"
   ],
   "note": "the factor is stated for all rounds, renaming and reordering for the relaxed round and calls without augmentation (C79 has all rounds)"
  },
  {
   "property": "C59",
   "status": "proved",
   "theorems": [
    "Verif.Properties.C59_relaxed",
    "Verif.Properties.C59_call"
   ],
   "note": "damping factor between 0 and 1; no belief equal to the threshold; an example shows that the last condition is needed"
  },
  {
   "property": "C60",
   "status": "partial",
   "theorems": [
    "Verif.Properties.C60_no_loop_crash",
    "Verif.Properties.C60_same_run_partial",
    "Verif.Properties.C60_claim_false",
    "Verif.Properties.C60_comparison",
    "Verif.Properties.C60_no_improvement",
    "Verif.Properties.C60_any_order_partial"
   ],
   "note": "full run for a native hash map visited in order of insertion and a cycle in the relaxed round (any order if selected cycles do not share nodes); without a cycle the claim is false (C60_claim_false)"
  },
  {
   "property": "C61",
   "status": "partial",
   "theorems": [
    "Verif.Properties.C61_same_outcome_partial",
    "Verif.Properties.C61_one_out",
    "Verif.Properties.C61_determined",
    "Verif.Properties.C61_claim_false"
   ],
   "note": "proved if in each round selected cycles with a common node are the same cycle; otherwise false (C61_claim_false)"
  },
  {
   "property": "C62",
   "status": "proved",
   "theorems": [
    "Verif.Properties.C62_beliefs",
    "Verif.Properties.C62_certificate",
    "Verif.Properties.C62_solver",
    "Verif.Properties.C62_call",
    "Verif.Properties.C62_one_type"
   ],
   "note": "algorithm, native solver and whole Python run; explicit number of iterations; the hypothesis on optimality is shown equivalent to the existence of prices"
  },
  {
   "property": "C63",
   "status": "proved",
   "theorems": [
    "Verif.Properties.C63_exact",
    "Verif.Properties.C63_integers",
    "Verif.Properties.C63_call"
   ],
   "note": "exact runs, whole numbers, and small errors in arithmetic and costs; the range and accuracy are existential"
  },
  {
   "property": "C64",
   "status": "proved",
   "theorems": [
    "Verif.Properties.C64_exact",
    "Verif.Properties.C64_integers",
    "Verif.Properties.C64_call"
   ],
   "note": "exact runs, whole numbers, and small errors in arithmetic and costs; the range and accuracy are existential"
  },
  {
   "property": "C65",
   "status": "proved",
   "theorems": [
    "Verif.Properties.C65_exact",
    "Verif.Properties.C65_integers",
    "Verif.Properties.C65_call"
   ],
   "note": "exact runs, whole numbers, and small errors in arithmetic and costs; the range and accuracy are existential; thresholds at most 0 as in C31"
  },
  {
   "property": "C66",
   "status": "proved",
   "theorems": [
    "Verif.Properties.C66_ksat",
    "Verif.Properties.C66_ksat_settled",
    "Verif.Properties.C66_kc",
    "Verif.Properties.C66_kc_settled",
    "Verif.Properties.C66_tsp_relaxed",
    "Verif.Properties.C66_tsp_augmented"
   ],
   "note": "k-SAT and assignment as whole calls, TSP per round; the hypothesis is about the messages of the specification, which are the messages of the code by C53, C54, C12 and C38"
  },
  {
   "property": "C67",
   "status": "proved",
   "theorems": [
    "Verif.Properties.C67_kc",
    "Verif.Properties.C67_ksat",
    "Verif.Properties.C67_ksat_unsat",
    "Verif.Properties.C67_tsp_messages",
    "Verif.Properties.C67_tsp"
   ],
   "note": "k-SAT and assignment as whole calls; the assignment part supposes that no team message has reached the limit 10^6; TSP per relaxed round"
  },
  {
   "property": "C68",
   "status": "partial",
   "theorems": [
    "Verif.Properties.C68_pruned_partial",
    "Verif.Properties.C68_claim_false",
    "Verif.Properties.C68_rewards",
    "Verif.Properties.C68_applies",
    "Verif.Properties.C68_call"
   ],
   "note": "which pairs are offered is proved with the exception of units 7 and 10, 7 and 11 (C68_claim_false); rewards and whole runs are proved"
  },
  {
   "property": "C69",
   "status": "proved",
   "theorems": [
    "Verif.Properties.C69_names",
    "Verif.Properties.C69_units",
    "Verif.Properties.C69_projects",
    "Verif.Properties.C69_limit_matters"
   ],
   "note": "the scaling part carries the stated proviso on the limit 1000000; C69_limit_matters shows it is needed"
  },
  {
   "property": "C70",
   "status": "proved",
   "theorems": [
    "Verif.Properties.C70_beliefs",
    "Verif.Properties.C70_below_limit",
    "Verif.Properties.C70_units",
    "Verif.Properties.C70_textbook",
    "Verif.Properties.C70_programs_agree",
    "Verif.Properties.C70_periodic",
    "Verif.Properties.C70_settled"
   ],
   "note": "cycles: exact rational arithmetic, damping off or rate 0; the example shows a run whose results alternate"
  },
  {
   "property": "C71",
   "status": "proved",
   "theorems": [
    "Verif.Properties.C71_ksat_bound",
    "Verif.Properties.C71_ksat_growth",
    "Verif.Properties.C71_ksat_unbounded",
    "Verif.Properties.C71_tsp_bound",
    "Verif.Properties.C71_tsp_growth"
   ],
   "note": "exact arithmetic; the growth theorems are for runs without damping"
  },
  {
   "property": "C72",
   "status": "partial",
   "theorems": [
    "Verif.Properties.C72_formats",
    "Verif.Properties.C72_messages_partial",
    "Verif.Properties.C72_exact_partial",
    "Verif.Properties.C72_ieee_partial",
    "Verif.Properties.C72_claim_false"
   ],
   "note": "the full claim is false (C72_claim_false); proved while an explicit bound on the intermediate results is at most 2^p, or the messages of the exact run are small (C72_messages_partial)"
  },
  {
   "property": "C73",
   "status": "proved",
   "theorems": [
    "Verif.Properties.C73_exact",
    "Verif.Properties.C73_ieee"
   ],
   "note": "explicit bound independent of the number of iterations"
  },
  {
   "property": "C74",
   "status": "partial",
   "theorems": [
    "Verif.Properties.C74_claim_false",
    "Verif.Properties.C74_brute_force_partial",
    "Verif.Properties.C74_single_flip",
    "Verif.Properties.C74_shared_literal"
   ],
   "note": "the first sentence is false with two violated clauses (C74_claim_false: an early improvement blocks the repair); proved with one violated clause; second and third sentence proved"
  },
  {
   "property": "C75",
   "status": "partial",
   "theorems": [
    "Verif.Properties.C75_exact_partial",
    "Verif.Properties.C75_ieee_partial",
    "Verif.Properties.C75_claim_false",
    "Verif.Properties.C75_rounds_partial",
    "Verif.Properties.C75_rounds_ieee_partial"
   ],
   "note": "false in augmentation rounds under the same bounds (C75_claim_false: messages exceed 2^25 after 11 iterations of one augmentation round); proved for calls that end without augmentation rounds (C75_exact_partial), and for calls with D cuts in whose augmentation rounds no message exceeds X, if (D+3)X+B does not exceed 2^24 (C75_rounds_partial)"
  },
  {
   "property": "C76",
   "status": "proved",
   "theorems": [
    "Verif.Properties.C76_bound",
    "Verif.Properties.C76_growth"
   ],
   "note": ""
  },
  {
   "property": "C77",
   "status": "partial",
   "theorems": [
    "Verif.Properties.C77_same_result",
    "Verif.Properties.C77_bound_partial",
    "Verif.Properties.C77_failed_search",
    "Verif.Properties.C77_exponential",
    "Verif.Properties.C77_claim_false"
   ],
   "note": "the full claim is false (C77_claim_false, C77_exponential); proved with a bound on the number of successors, and the exact number of calls of a failed search"
  },
  {
   "property": "C78",
   "status": "proved",
   "theorems": [
    "Verif.Properties.C78_tsp",
    "Verif.Properties.C78_kc",
    "Verif.Properties.C78_ksat"
   ],
   "note": ""
  },
  {
   "property": "C79",
   "status": "proved",
   "theorems": [
    "Verif.Properties.C79_same_outcome",
    "Verif.Properties.C79_call"
   ],
   "note": "the hypothesis on the selected cycles is part of the statement; without it the order of hash maps alone can change the outcome (C61)"
  },
  {
   "property": "C80",
   "status": "proved",
   "theorems": [
    "Verif.Properties.C80_beliefs",
    "Verif.Properties.C80_rest",
    "Verif.Properties.C80_report",
    "Verif.Properties.C80_satisfies",
    "Verif.Properties.C80_solves"
   ],
   "note": ""
  },
  {
   "property": "C81",
   "status": "proved",
   "theorems": [
    "Verif.Properties.C81_metrics",
    "Verif.Properties.C81_file",
    "Verif.Properties.C81_random"
   ],
   "note": ""
  },
  {
   "property": "C82",
   "status": "partial",
   "theorems": [
    "Verif.Properties.C82_nan_passes",
    "Verif.Properties.C82_claim_false",
    "Verif.Properties.C82_finite_partial",
    "Verif.Properties.C82_misplaced",
    "Verif.Properties.C82_tables_claim_false",
    "Verif.Properties.C82_tables_partial"
   ],
   "note": "the full claims are false (C82_claim_false, C82_tables_claim_false); proved for finite arrays and for tables with infinite entries in the same places"
  },
  {
   "property": "C83",
   "status": "partial",
   "theorems": [
    "Verif.Properties.C83_sound",
    "Verif.Properties.C83_claim_false",
    "Verif.Properties.C83_complete_partial"
   ],
   "note": "the full claim is false (C83_claim_false); soundness for all graphs, completeness if no two selected edges leave or enter the same node"
  },
  {
   "property": "C84",
   "status": "partial",
   "theorems": [
    "Verif.Properties.C84_never_selected_partial",
    "Verif.Properties.C84_best_partial",
    "Verif.Properties.C84_tour_partial",
    "Verif.Properties.C84_all_rounds_partial",
    "Verif.Properties.C84_finite_certificate_partial",
    "Verif.Properties.C84_two_leave_partial",
    "Verif.Properties.C84_claim_false"
   ],
   "note": "the full claim is false in the augmented rounds (C84_claim_false); the relaxed round is proved for all graphs in which some cycle cover avoids the forbidden edges, and all rounds for all graphs in which two allowed edges leave every set of nodes"
  },
  {
   "property": "C85",
   "status": "partial",
   "theorems": [
    "Verif.Properties.C85_agrees_partial",
    "Verif.Properties.C85_unit_propagation_partial",
    "Verif.Properties.C85_claim_false"
   ],
   "note": "the full claim is false for clauses with three literals (C85_claim_false); clauses with two literals are proved, as an equivalence with unit propagation"
  },
  {
   "property": "C86",
   "status": "proved",
   "theorems": [
    "Verif.Properties.C86_iterate",
    "Verif.Properties.C86_call",
    "Verif.Properties.C86_never",
    "Verif.Properties.C86_optimal"
   ],
   "note": ""
  },
  {
   "property": "C87",
   "status": "partial",
   "theorems": [
    "Verif.Properties.C87_same_partial",
    "Verif.Properties.C87_one_project",
    "Verif.Properties.C87_optimal",
    "Verif.Properties.C87_ksat",
    "Verif.Properties.C87_balanced",
    "Verif.Properties.C87_claim_false"
   ],
   "note": "false for equally many teams and projects (C87_claim_false: the pure Python program reports assignments that cost more than none) and for one project, where the pure Python program raises an exception (C87_one_project); C87_same_partial proves it for at least two projects, different numbers of teams and projects and costs that keep the messages to teams below 10^6; the k-SAT part is proved in full (C87_ksat)"
  },
  {
   "property": "C88",
   "status": "partial",
   "theorems": [
    "Verif.Properties.C88_settings",
    "Verif.Properties.C88_abbreviation",
    "Verif.Properties.C88_negative",
    "Verif.Properties.C88_on_partial",
    "Verif.Properties.C88_off_partial",
    "Verif.Properties.C88_kc_partial",
    "Verif.Properties.C88_random_partial",
    "Verif.Properties.C88_tests_partial",
    "Verif.Properties.C88_claim_false",
    "Verif.Properties.C88_ambiguous",
    "Verif.Properties.C88_kc_run",
    "Verif.Properties.C88_tsp_runs",
    "Verif.Properties.C88_ksat_runs"
   ],
   "note": "the part on flags is false: bool(text) is true for every text except the empty one, and the native tests convert a pointer to bool (C88_claim_false); C88_settings, C88_abbreviation, C88_ambiguous and C88_negative prove how command lines are read, C88_tsp_runs and C88_ksat_runs when the programs go on to a run, C88_kc_run what the assignment program runs with; C88_on_partial, C88_off_partial, C88_kc_partial, C88_random_partial and C88_tests_partial prove what flags do"
  },
  {
   "property": "C89",
   "status": "partial",
   "theorems": [
    "Verif.Properties.C89_same_file_partial",
    "Verif.Properties.C89_one_digit_partial",
    "Verif.Properties.C89_tenth_partial",
    "Verif.Properties.C89_loaded",
    "Verif.Properties.C89_claim_false"
   ],
   "note": "false: the number of iterations and most other options are not in the name, and the parameter is rounded to one digit (C89_claim_false); C89_same_file_partial says exactly when the names agree for one output path and parameters that are not negative, C89_one_digit_partial that parameters with one digit are told apart, C89_tenth_partial bounds the difference otherwise"
  },
  {
   "property": "C90",
   "status": "proved",
   "theorems": [
    "Verif.Properties.C90_department",
    "Verif.Properties.C90_needed",
    "Verif.Properties.C90_call"
   ],
   "note": "C90_department states it for one department, C90_needed what every call that returns must satisfy, C90_call the equivalence for whole calls"
  },
  {
   "property": "C91",
   "status": "proved",
   "theorems": [
    "Verif.Properties.C91_beliefs",
    "Verif.Properties.C91_call"
   ],
   "note": "C91_beliefs gives the beliefs after any number of iterations but zero, C91_call the outcome of the whole call; with damping rate one it fails (example beside the theorem)"
  },
  {
   "property": "C92",
   "status": "proved",
   "theorems": [
    "Verif.Properties.C92_relaxed",
    "Verif.Properties.C92_rounds",
    "Verif.Properties.C92_complete"
   ],
   "note": "C92_relaxed is the equivalence for the relaxed round, C92_rounds covers all rounds, C92_complete the call from Python with a complete graph"
  },
  {
   "property": "C93",
   "status": "proved",
   "theorems": [
    "Verif.Properties.C93_solver",
    "Verif.Properties.C93_size",
    "Verif.Properties.C93_no_iterations",
    "Verif.Properties.C93_call",
    "Verif.Properties.C93_report"
   ],
   "note": "C93_solver is the equivalence for the native solver, C93_size and C93_no_iterations add the size of the answer, C93_call the beliefs of a call from Python, C93_report the whole call with post-processing"
  },
  {
   "property": "C94",
   "status": "proved",
   "theorems": [
    "Verif.Properties.C94_one_team",
    "Verif.Properties.C94_printed",
    "Verif.Properties.C94_listed",
    "Verif.Properties.C94_plain"
   ],
   "note": "C94_printed proves all totals for whole runs, C94_listed that they agree with the list of teams with post-processing, C94_plain the case without; C94_one_team is the fact that no project is given to two teams; without post-processing a team with two projects counts as one matched project (second example)"
  },
  {
   "property": "C95",
   "status": "partial",
   "theorems": [
    "Verif.Properties.C95_claim_false",
    "Verif.Properties.C95_read_partial",
    "Verif.Properties.C95_evaluation",
    "Verif.Properties.C95_solver",
    "Verif.Properties.C95_generated"
   ],
   "note": "as stated false (C95_claim_false: a clause whose 0 is on the next line loses its last literal, so a satisfiable file becomes contradictory; a comment between header and clauses is an error); C95_read_partial proves it for one clause per line after the header with comments before and closing lines after, C95_evaluation, C95_solver and C95_generated the rest"
  },
  {
   "property": "C96",
   "status": "proved",
   "theorems": [
    "Verif.Properties.C96_ksat_written",
    "Verif.Properties.C96_ksat_runs",
    "Verif.Properties.C96_ksat_biased",
    "Verif.Properties.C96_tsp"
   ],
   "note": "C96_ksat_written, C96_ksat_runs and C96_ksat_biased for k-SAT, C96_tsp for TSP"
  },
  {
   "property": "C97",
   "status": "partial",
   "theorems": [
    "Verif.Properties.C97_reference",
    "Verif.Properties.C97_no_reference",
    "Verif.Properties.C97_claim_false",
    "Verif.Properties.C97_stored_partial",
    "Verif.Properties.C97_gap",
    "Verif.Properties.C97_symmetric"
   ],
   "note": "the first sentence is false: without the option for the reference solver its results are missing and storing raises an AttributeError (C97_claim_false, C97_no_reference); C97_stored_partial proves it with the reference solver; C97_reference, C97_gap and C97_symmetric prove the rest"
  },
  {
   "property": "C98",
   "status": "partial",
   "theorems": [
    "Verif.Properties.C98_claim_false",
    "Verif.Properties.C98_sums_partial",
    "Verif.Properties.C98_exact",
    "Verif.Properties.C98_whole_partial",
    "Verif.Properties.C98_error",
    "Verif.Properties.C98_difference",
    "Verif.Properties.C98_python",
    "Verif.Properties.C98_native",
    "Verif.Properties.C98_nan"
   ],
   "note": "the first sentence is false in double precision (C98_claim_false, two rows); C98_exact, C98_sums_partial and C98_whole_partial prove it without rounding errors, C98_error and C98_difference bound the difference, C98_python and C98_native prove the rest"
  },
  {
   "property": "C99",
   "status": "proved",
   "theorems": [
    "Verif.Properties.C99_ksat_arrays",
    "Verif.Properties.C99_ksat_python",
    "Verif.Properties.C99_ksat_signs",
    "Verif.Properties.C99_kc_arrays",
    "Verif.Properties.C99_kc",
    "Verif.Properties.C99_tsp_arrays",
    "Verif.Properties.C99_tsp"
   ],
   "note": "exact arithmetic, the decimal constants taken as rational numbers; damping between 0 and 1 for the signs; at least one iteration for k-SAT and assignment"
  },
  {
   "property": "C100",
   "status": "partial",
   "theorems": [
    "Verif.Properties.C100_drawn_forward",
    "Verif.Properties.C100_drawn_backward",
    "Verif.Properties.C100_drawn_output",
    "Verif.Properties.C100_drawn_department",
    "Verif.Properties.C100_drawn_kc_iterate_partial",
    "Verif.Properties.C100_drawn_many_departments",
    "Verif.Properties.C100_drawn_variable",
    "Verif.Properties.C100_drawn_clause",
    "Verif.Properties.C100_plain_formula",
    "Verif.Properties.C100_drawn_ksat_iterate",
    "Verif.Properties.C100_drawn_extrinsic_relaxed",
    "Verif.Properties.C100_drawn_extrinsic_augmented",
    "Verif.Properties.C100_drawn_degree",
    "Verif.Properties.C100_drawn_subtour",
    "Verif.Properties.C100_drawn_edge_relaxed",
    "Verif.Properties.C100_drawn_edge_cut",
    "Verif.Properties.C100_drawn_edge_augmented",
    "Verif.Properties.C100_drawn_tsp_iterate",
    "Verif.Properties.C100_drawn_tsp_augmented_partial",
    "Verif.Properties.C100_augmented_claim_false",
    "Verif.Properties.C100_claim_false",
    "Verif.Properties.C100_detects_vector",
    "Verif.Properties.C100_detects_table",
    "Verif.Properties.C100_detects_flat",
    "Verif.Properties.C100_project_partial",
    "Verif.Properties.C100_team",
    "Verif.Properties.C100_coupling",
    "Verif.Properties.C100_extrinsic_team",
    "Verif.Properties.C100_intrinsic",
    "Verif.Properties.C100_team_to_coupling",
    "Verif.Properties.C100_project_to_coupling",
    "Verif.Properties.C100_forward",
    "Verif.Properties.C100_backward",
    "Verif.Properties.C100_output",
    "Verif.Properties.C100_filter",
    "Verif.Properties.C100_department",
    "Verif.Properties.C100_kc_iterate_partial",
    "Verif.Properties.C100_ksat_extrinsic",
    "Verif.Properties.C100_variable",
    "Verif.Properties.C100_clause",
    "Verif.Properties.C100_ksat_iterate",
    "Verif.Properties.C100_tsp_extrinsic_relaxed",
    "Verif.Properties.C100_tsp_extrinsic_augmented",
    "Verif.Properties.C100_degree",
    "Verif.Properties.C100_cut",
    "Verif.Properties.C100_edge_relaxed",
    "Verif.Properties.C100_edge_cut",
    "Verif.Properties.C100_edge_augmented",
    "Verif.Properties.C100_tsp_iterate"
   ],
   "note": "the test of the project constraints fails with as many projects as teams (C100_claim_false) and passes otherwise; exact arithmetic; team messages at most 1000000; the whole run of the assignment program under the conditions of C36_kc_run_partial; the drivers' draws are modelled (C100_drawn_*): departments with room for every kind of team, at most 11 of them; the run of the TSP program with cuts fails on some drawn matrices (C100_augmented_claim_false) and passes when the relaxed run selects a cycle and the library ends with a tour"
  },
  {
   "property": "C101",
   "status": "proved",
   "theorems": [
    "Verif.Properties.C101_local",
    "Verif.Properties.C101_decision",
    "Verif.Properties.C101_surroundings",
    "Verif.Properties.C101_enough",
    "Verif.Properties.C101_needed"
   ],
   "note": "exact arithmetic; C101_local and C101_decision for two formulas with the same numbers of the nearby clauses (C55 covers renumbering); C101_surroundings, C101_enough and the second half of C101_needed without damping"
  },
  {
   "property": "C102",
   "status": "partial",
   "theorems": [
    "Verif.Properties.C102_load",
    "Verif.Properties.C102_short",
    "Verif.Properties.C102_format",
    "Verif.Properties.C102_claim_false",
    "Verif.Properties.C102_partial",
    "Verif.Properties.C102_dimensions",
    "Verif.Properties.C102_append_claim_false",
    "Verif.Properties.C102_append_partial",
    "Verif.Properties.C102_append_tables",
    "Verif.Properties.C102_refuse_claim_false",
    "Verif.Properties.C102_spoiled",
    "Verif.Properties.C102_elements",
    "Verif.Properties.C102_element_size"
   ],
   "note": "proved for all files as stated (C102_load, C102_short, C102_format, C102_dimensions, C102_append_tables, C102_elements, C102_element_size, C102_spoiled); the unrestricted laws are false (C102_claim_false, C102_append_claim_false, C102_refuse_claim_false), C102_partial and C102_append_partial give the conditions on the header"
  },
  {
   "property": "C103",
   "status": "partial",
   "theorems": [
    "Verif.Properties.C103_load",
    "Verif.Properties.C103_find",
    "Verif.Properties.C103_directory",
    "Verif.Properties.C103_same_claim_false",
    "Verif.Properties.C103_same_partial",
    "Verif.Properties.C103_example"
   ],
   "note": "proved for archives below 4 GB of uncompressed members; that both readers agree is false (C103_same_claim_false) and proved for different names (C103_same_partial)"
  },
  {
   "property": "C104",
   "status": "partial",
   "theorems": [
    "Verif.Properties.C104_claim_false",
    "Verif.Properties.C104_partial",
    "Verif.Properties.C104_overflow",
    "Verif.Properties.C104_python",
    "Verif.Properties.C104_native",
    "Verif.Properties.C104_blanks",
    "Verif.Properties.C104_refused"
   ],
   "note": "agreement on all accepted texts is false (C104_claim_false: Python reads 1_0 as ten), C104_partial proves it for texts without underscores and numbers that fit int; C104_overflow, C104_python, C104_native and C104_refused say what happens otherwise"
  },
  {
   "property": "C105",
   "status": "partial",
   "theorems": [
    "Verif.Properties.C105_reads",
    "Verif.Properties.C105_fresh_claim_false",
    "Verif.Properties.C105_fresh_partial",
    "Verif.Properties.C105_complete",
    "Verif.Properties.C105_verdict",
    "Verif.Properties.C105_status_claim_false",
    "Verif.Properties.C105_status"
   ],
   "note": "that every report is about its own sub-test is false with several sub-tests (C105_fresh_claim_false) and proved for one or when both programs finish (C105_fresh_partial); that the exit status tells whether the tests passed is false (C105_status_claim_false); C105_status says what it tells; C105_reads, C105_complete and C105_verdict hold as stated"
  },
  {
   "property": "C106",
   "status": "proved",
   "theorems": [
    "Verif.Properties.C106_bracket",
    "Verif.Properties.C106_decisions",
    "Verif.Properties.C106_bounds",
    "Verif.Properties.C106_settles",
    "Verif.Properties.C106_final",
    "Verif.Properties.C106_mixed"
   ],
   "note": "exact arithmetic; C106_bracket, C106_decisions, C106_settles and C106_final without damping, C106_bounds with damping between 0 and 1; C106_mixed shows that the condition on the signs is needed"
  },
  {
   "property": "C107",
   "status": "proved",
   "theorems": [
    "Verif.Properties.C107_exact",
    "Verif.Properties.C107_ieee",
    "Verif.Properties.C107_settles",
    "Verif.Properties.C107_wide"
   ],
   "note": "without damping; rounded model as in C72; C107_wide shows that costs of 24 bits are too large"
  },
  {
   "property": "C108",
   "status": "proved",
   "theorems": [
    "Verif.Properties.C108_exists",
    "Verif.Properties.C108_relaxation",
    "Verif.Properties.C108_certified",
    "Verif.Properties.C108_persistent",
    "Verif.Properties.C108_parity"
   ],
   "note": "without damping; exact arithmetic (C107 carries it over to floats for small whole costs); C108_parity shows that the parity condition is needed"
  },
  {
   "property": "C109",
   "status": "proved",
   "theorems": [
    "Verif.Properties.C109_bracket",
    "Verif.Properties.C109_decisions",
    "Verif.Properties.C109_limit",
    "Verif.Properties.C109_certified",
    "Verif.Properties.C109_factor_one"
   ],
   "note": "no rate is given for the damped runs; C109_factor_one shows that a factor of 1 must be excluded"
  },
  {
   "property": "C110",
   "status": "proved",
   "theorems": [
    "Verif.Properties.C110_criterion",
    "Verif.Properties.C110_optimal",
    "Verif.Properties.C110_more_cycles"
   ],
   "note": "the report is a cheapest assignment; that it is the only one is not claimed; C110_more_cycles shows that the condition is needed"
  },
  {
   "property": "C111",
   "status": "partial",
   "theorems": [
    "Verif.Properties.C111_messages",
    "Verif.Properties.C111_once_partial",
    "Verif.Properties.C111_repeated",
    "Verif.Properties.C111_own_cost",
    "Verif.Properties.C111_both",
    "Verif.Properties.C111_tautology",
    "Verif.Properties.C111_claim_false",
    "Verif.Properties.C111_never",
    "Verif.Properties.C111_alternates",
    "Verif.Properties.C111_settled",
    "Verif.Properties.C111_unsatisfied",
    "Verif.Properties.C111_padded",
    "Verif.Properties.C111_file",
    "Verif.Properties.C111_padded_file"
   ],
   "note": "messages to repeated variables are not exact (C111_claim_false); what they are is proved, and exactness for the variables that occur once"
  },
  {
   "property": "C112",
   "status": "partial",
   "theorems": [
    "Verif.Properties.C112_odd_beliefs",
    "Verif.Properties.C112_odd",
    "Verif.Properties.C112_odd_plain",
    "Verif.Properties.C112_alternates",
    "Verif.Properties.C112_often",
    "Verif.Properties.C112_claim_false",
    "Verif.Properties.C112_claim_partial",
    "Verif.Properties.C112_tie"
   ],
   "note": "that long runs on such formulas end in satisfying assignments is false for even numbers of iterations (C112_claim_false); proved for odd numbers, and when runs alternate forever"
  },
  {
   "property": "C113",
   "status": "partial",
   "theorems": [
    "Verif.Properties.C113_equal",
    "Verif.Properties.C113_value",
    "Verif.Properties.C113_all_or_none",
    "Verif.Properties.C113_violated",
    "Verif.Properties.C113_claim_false"
   ],
   "note": "that some damping factor makes long runs end in satisfying assignments is false (C113_claim_false); the beliefs on regular formulas are proved in closed form"
  },
  {
   "property": "C114",
   "status": "proved",
   "theorems": [
    "Verif.Properties.C114_optimal",
    "Verif.Properties.C114_stays",
    "Verif.Properties.C114_damped",
    "Verif.Properties.C114_call",
    "Verif.Properties.C114_parity"
   ],
   "note": ""
  },
  {
   "property": "C115",
   "status": "partial",
   "theorems": [
    "Verif.Properties.C115_bound",
    "Verif.Properties.C115_call",
    "Verif.Properties.C115_hubs",
    "Verif.Properties.C115_claim_false",
    "Verif.Properties.C115_claim_partial",
    "Verif.Properties.C115_attained"
   ],
   "note": "A fixed factor for all formulas is false (C115_claim_false, with an explicit family of graphs). Proved: the factor 1 + (k-1) D when each variable is in at most D clauses, for all numbers of iterations and all damping between 0 and 1 (C115_bound), also for the call (C115_call), and attained (C115_attained)."
  },
  {
   "property": "C116",
   "status": "proved",
   "theorems": [
    "Verif.Properties.C116_fractional",
    "Verif.Properties.C116_lower",
    "Verif.Properties.C116_order",
    "Verif.Properties.C116_damped",
    "Verif.Properties.C116_calls",
    "Verif.Properties.C116_tie"
   ],
   "note": "Fractional and integral lower bound, order of the costs, damped runs, and two calls; a zero belief is shown to break the bound (C116_tie)."
  },
  {
   "property": "C117",
   "status": "partial",
   "theorems": [
    "Verif.Properties.C117_odd",
    "Verif.Properties.C117_even",
    "Verif.Properties.C117_lower",
    "Verif.Properties.C117_rounding",
    "Verif.Properties.C117_claim_false",
    "Verif.Properties.C117_double",
    "Verif.Properties.C117_tenths",
    "Verif.Properties.C117_triangle",
    "Verif.Properties.C117_even_claim_false"
   ],
   "note": "Without bounds on the costs the statement on odd numbers of iterations is false in float because of rounding, also on a tree (C117_claim_false), and so is the one on even numbers (C117_even_claim_false). Proved for costs that are multiples of a power of two within explicit bounds."
  }
 ]
}