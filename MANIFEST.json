{
 "claims": [
  {
   "property": "C01",
   "status": "proved",
   "theorems": [
    "Verif.Dll.C01_list_is_sequence",
    "Verif.Dll.C01_del_list_frees_everything"
   ],
   "note": "pointer-level model; all histories without insertion at index = size of a non-empty list"
  },
  {
   "property": "C02",
   "status": "partial",
   "theorems": [
    "Verif.Dll.C02_insert_at_size_partial",
    "Verif.Dll.C02_insert_at_size_refuted"
   ],
   "note": "the code violates the property: tail is left stale (list_functions.c:111-113); refuted by a concrete history; the partial theorem covers all reads right after the insertion"
  },
  {
   "property": "C03",
   "status": "partial",
   "theorems": [
    "Verif.Dll.C03_delete_bottom_partial",
    "Verif.Dll.C03_delete_single_refuted"
   ],
   "note": "the code violates the property on every one-element list (NULL dereference, list_functions.c:136); proved for all other lists"
  },
  {
   "property": "C04",
   "status": "proved",
   "theorems": [
    "Verif.Dll.C04_iterator_enumerates"
   ],
   "note": "for every reachable list and every number of calls"
  },
  {
   "property": "C05",
   "status": "proved",
   "theorems": [
    "Verif.Dll.C05_open_list_is_sequence"
   ],
   "note": "same refinement, b_and_b_data.c"
  },
  {
   "property": "C06",
   "status": "proved",
   "theorems": [
    "Verif.Mf.C06_C07_find_is_equivalence_closure"
   ],
   "note": "every history of find/merge on a created forest"
  },
  {
   "property": "C07",
   "status": "proved",
   "theorems": [
    "Verif.Mf.C06_C07_find_is_equivalence_closure",
    "Verif.Mf.C07_merge_joins"
   ],
   "note": "equivalence closure of the merged pairs"
  },
  {
   "property": "C08",
   "status": "proved",
   "theorems": [
    "Verif.Mf.C08_union_by_rank_depth"
   ],
   "note": "rank and chain length at most log2 n"
  },
  {
   "property": "C09",
   "status": "proved",
   "theorems": [
    "Verif.Mf.C09_constrained_forest"
   ],
   "note": "candidate entry is uninitialised memory in the model; touching it would fault"
  },
  {
   "property": "C10",
   "status": "proved",
   "theorems": [
    "Verif.Fib.C10_extract_min_returns_minimum",
    "Verif.Fib.C10_contents",
    "Verif.Fib.C10_insert_succeeds"
   ],
   "note": "every history; the statement names the one other outcome, the degree-table overflow of C13, and shows it needs at least 56 nodes"
  },
  {
   "property": "C11",
   "status": "proved",
   "theorems": [
    "Verif.Fib.C11_empty_and_counter",
    "Verif.Fib.C11_drain_sorts"
   ],
   "note": "every history; draining may stop at the C13 overflow when 56 or more nodes are present"
  },
  {
   "property": "C12",
   "status": "proved",
   "theorems": [
    "Verif.Fib.C12_decrease_value"
   ],
   "note": "every reachable heap, node and value"
  },
  {
   "property": "C13",
   "status": "partial",
   "theorems": [
    "Verif.Fib.C13_degree_table_partial",
    "Verif.Fib.C13_fails",
    "Verif.Fib.C13_table_below_fibonacci_bound"
   ],
   "note": "Proved for heaps of at most 55 nodes. The full property is false: C13_fails is a history of inserts, decreases and extractions after which extract_min on a heap of 64 nodes writes outside the table (checked by the kernel). 56 to 63 nodes: open."
  },
  {
   "property": "C14",
   "status": "proved",
   "theorems": [
    "Verif.Sort.C14_sorts"
   ],
   "note": "for every graph with at least one edge; the array is assumed to have one readable cell after the last edge, of arbitrary content (see C16)"
  },
  {
   "property": "C15",
   "status": "proved",
   "theorems": [
    "Verif.Sort.C15_positions_consistent"
   ],
   "note": "same hypotheses as C14"
  },
  {
   "property": "C16",
   "status": "partial",
   "theorems": [
    "Verif.Sort.C16_in_bounds_partial",
    "Verif.Sort.C16_reads_past_the_end",
    "Verif.Sort.C16_empty_graph"
   ],
   "note": "the code violates the property when num_edges = MAX_EDGES_NUM (witness: complete graph on 3 nodes) and when num_edges = 0; proved for 1 <= num_edges < MAX_EDGES_NUM"
  },
  {
   "property": "C17",
   "status": "proved",
   "theorems": [
    "Verif.C17_bookkeeping",
    "Verif.C17_no_overflow"
   ],
   "note": "every sequence of added edges; bounds proved for simple edge sequences"
  },
  {
   "property": "C51",
   "status": "proved",
   "theorems": [
    "Verif.C51_create_graph",
    "Verif.C51_create_graph_simple"
   ],
   "note": "node and edge lists of any length"
  },
  {
   "property": "C52",
   "status": "proved",
   "theorems": [
    "Verif.C52_complete"
   ],
   "note": "any number of nodes up to MAX_VERTEX_NUM; the distance function (rounded Euclidean) is uninterpreted; 16-bit counters: n(n-1)/2 < 65536 is a side condition stated in DESIGN.md, counters are modelled as naturals"
  },
  {
   "property": "C18",
   "status": "proved",
   "theorems": [
    "Verif.C18_spanning"
   ],
   "note": "every stored simple graph with at least one edge whose edge array has one spare readable cell (C16)"
  },
  {
   "property": "C19",
   "status": "proved",
   "theorems": [
    "Verif.C19_minimum"
   ],
   "note": "cut/exchange argument against every spanning tree"
  },
  {
   "property": "C20",
   "status": "proved",
   "theorems": [
    "Verif.C20_spanning"
   ],
   "note": "weights below DBL_MAX; the only other outcome is the heap's table overflow of C13 (needs 56 nodes)"
  },
  {
   "property": "C21",
   "status": "proved",
   "theorems": [
    "Verif.C21_minimum"
   ],
   "note": "cut/exchange argument against every spanning tree"
  },
  {
   "property": "C22",
   "status": "proved",
   "theorems": [
    "Verif.C22_agree"
   ],
   "note": "same validity flag and same cost"
  },
  {
   "property": "C23",
   "status": "proved",
   "theorems": [
    "Verif.C23_constrained_prim"
   ],
   "note": "Domain: CReady (stored simple graph that fits, recorded mandatory edges are graph edges), usable weights below FLT_MAX. Includes the only abnormal outcome, the heap table overflow for >= 57 nodes (C13)."
  },
  {
   "property": "C24",
   "status": "partial",
   "theorems": [
    "Verif.C24_mandatory_partial",
    "Verif.C24_lower_bound",
    "Verif.C24_fails_below_minus_n"
   ],
   "note": "Proved when every non-mandatory usable edge weighs more than -num_nodes; for dual-reweighted graphs with smaller weights the claim is false (witness theorem)."
  },
  {
   "property": "C25",
   "status": "proved",
   "theorems": [
    "Verif.C25_constrained_kruskal"
   ],
   "note": "Domain: CReady and KruskalReady, and no recorded mandatory edge is forbidden in the matrix."
  },
  {
   "property": "C26",
   "status": "proved",
   "theorems": [
    "Verif.C26_candidate_edges"
   ],
   "note": "Exact three-way description. The property's answer for three or more mandatory edges at the candidate is the buffer overflow of C27, stated as the third outcome."
  },
  {
   "property": "C28",
   "status": "proved",
   "theorems": [
    "Verif.C28_lower_bound",
    "Verif.C28_infeasible"
   ],
   "note": "Every stored graph, candidate, constraint description and tour; mandatory edges weigh at least -num_nodes, in particular non-negative weights as the property asks."
  },
  {
   "property": "C29",
   "status": "partial",
   "theorems": [
    "Verif.C29_dual_bound",
    "Verif.C29_fails_below_minus_n"
   ],
   "note": "Proved whenever the reweighted mandatory edges weigh at least -num_nodes; below that the claim is false of the code (witness theorem), because constrained_prim forces mandatory edges by weight -num_nodes."
  },
  {
   "property": "C30",
   "status": "proved",
   "theorems": [
    "Verif.C30_check_hamiltonian"
   ],
   "note": "Every 1-tree stored with symmetric neighbour lists, in any neighbour order; the record of cycle edges is empty at entry, as bound leaves it."
  },
  {
   "property": "C31",
   "status": "proved",
   "theorems": [
    "Verif.C31_dfs_cycle"
   ],
   "note": "Every simple graph stored in the tree structure; termination included (the model's fuel is never exhausted)."
  },
  {
   "property": "C27",
   "status": "partial",
   "theorems": [
    "Verif.C27_in_bounds_partial",
    "Verif.C27_overflow"
   ],
   "note": "The code violates the property: witness with four branchings accepted by infer_constraints on five nodes; proved in bounds whenever the candidate has at most two mandatory edges."
  },
  {
   "property": "C32",
   "status": "proved",
   "theorems": [
    "Verif.C32_loses_no_tour"
   ],
   "note": "Exact: the set of allowed tours does not change; every symmetric matrix, n >= 3, when the call returns (C34 has the overflow)."
  },
  {
   "property": "C33",
   "status": "proved",
   "theorems": [
    "Verif.C33_rejects_infeasible"
   ],
   "note": ""
  },
  {
   "property": "C34",
   "status": "partial",
   "theorems": [
    "Verif.C34_bookkeeping_partial",
    "Verif.C34_copy_partial",
    "Verif.C34_list_overflow"
   ],
   "note": "All clauses proved for every sequence of branchings that does not overflow the list; the clause that the list never overflows is false (witness on four nodes)."
  },
  {
   "property": "C35",
   "status": "proved",
   "theorems": [
    "Verif.C35_branch",
    "Verif.C35_order"
   ],
   "note": "Every subproblem with a symmetric matrix, every branching edge, every open list, both modes."
  },
  {
   "property": "C36",
   "status": "proved",
   "theorems": [
    "Verif.C36_best_first"
   ],
   "note": "Every history of insertions and head removals, both modes, EPSILON >= 0."
  },
  {
   "property": "C37",
   "status": "proved",
   "theorems": [
    "Verif.C37_variable_fixing",
    "Verif.C37_rounding"
   ],
   "note": "Every complete instance, every constraint matrix with its bookkeeping, on the 1-tree bound leaves on the original weights, when the call returns. C37_variable_fixing: exact arithmetic for the tours kept; C37_rounding: any arithmetic with a bounded rounding error, for tours shorter than the best value by more than the errors."
  },
  {
   "property": "C38",
   "status": "partial",
   "theorems": [
    "Verif.C38_bound_partial",
    "Verif.C38_rounding",
    "Verif.C38_fails",
    "Verif.Spec.Gentle.unit_square"
   ],
   "note": "Proved for every complete instance and constraint matrix whose weights are small for n (Gentle; unit-square instances from 14 nodes on meet it); for larger weights the code violates the property (kernel-evaluated witness, five nodes). C38_bound_partial: exact arithmetic; C38_rounding: the same up to (5n+2) rounding errors for any arithmetic with a bounded rounding error."
  },
  {
   "property": "C39",
   "status": "proved",
   "theorems": [
    "Verif.C39_nearest_neighbour"
   ],
   "note": "Every complete instance, start node, memory content, both modes (probabilities above -1); also that the tour is nearest-first, and that the call returns."
  },
  {
   "property": "C46",
   "status": "proved",
   "theorems": [
    "Verif.C46_min_degree",
    "Verif.C46_rejected_no_tour"
   ],
   "note": "Every stored graph."
  },
  {
   "property": "C47",
   "status": "proved",
   "theorems": [
    "Verif.C47_candidate",
    "Verif.C47_returns"
   ],
   "note": "Both modes, against the minimum weight over all 1-trees of each node; when the call returns, which is proved for fewer than 57 nodes (C13 beyond). C43_optimal_partial is for exact arithmetic; C43_rounding_partial bounds the distance from the optimum by (5n+6) rounding errors for any arithmetic with a bounded rounding error."
  },
  {
   "property": "C41",
   "status": "proved",
   "theorems": [
    "Verif.C41_best_matches",
    "Verif.C41_before"
   ],
   "note": "Every complete instance (weights below FLT_MAX, of any size), clock, memory and round of the main loop, both modes; at most 65535 nodes (the code's node counters are 16-bit)."
  },
  {
   "property": "C42",
   "status": "proved",
   "theorems": [
    "Verif.C42_interrupted"
   ],
   "note": "Every complete instance, clock and memory, both modes, whenever the call returns."
  },
  {
   "property": "C43",
   "status": "partial",
   "theorems": [
    "Verif.C43_optimal_partial",
    "Verif.C43_rounding_partial",
    "Verif.C43_small_weights_partial",
    "Verif.C43_unit_square_partial",
    "Verif.C43_fails",
    "Verif.C43_fails_always"
   ],
   "note": "Proved whenever the weights are small for n (Gentle; in particular 14 to 10000 cities in the unit square); for larger weights the code violates the property: kernel-evaluated full run on five nodes that ends with 8945 although a tour of length 8938 exists. C43_optimal_partial is for exact arithmetic; C43_rounding_partial bounds the distance from the optimum by (5n+6) rounding errors for any arithmetic with a bounded rounding error."
  },
  {
   "property": "C45",
   "status": "proved",
   "theorems": [
    "Verif.C45_accounting"
   ],
   "note": "Every complete instance, clock, memory and round of the main loop, both modes."
  },
  {
   "property": "C44",
   "status": "proved",
   "theorems": [
    "Verif.C44_rounds",
    "Verif.C44_terminates"
   ],
   "note": "C44_rounds: every graph (complete or not), clock and memory: at most 3^(n^2) rounds and 1+2*3^(n^2) subproblems. C44_terminates: every complete instance: the whole call, inner loops included, returns or stops at an access outside an array, at one of the four places of C64."
  },
  {
   "property": "C48",
   "status": "partial",
   "theorems": [
    "Verif.C48_csv_partial",
    "Verif.C48_stored",
    "Verif.C48_instance",
    "Verif.C48_fails_from_363"
   ],
   "note": "Proved for every matrix file with at most 362 cities (and MAX_VERTEX_NUM); false from 363 cities on, where the 16-bit edge counter wraps (theorem for every such file)."
  },
  {
   "property": "C49",
   "status": "proved",
   "theorems": [
    "Verif.C49_classic",
    "Verif.C49_hybrid"
   ],
   "note": "Text level, every distance function and every number format that reads back, both modes, at most 362 cities (C48)."
  },
  {
   "property": "C50",
   "status": "partial",
   "theorems": [
    "Verif.C50_exact",
    "Verif.C50_accepts_partial",
    "Verif.C50_fails"
   ],
   "note": "The code violates the property both ways (C50_fails): it continues iff some header line does NOT declare EUC_2D (C50_exact); what holds is acceptance of an EUC_2D header with at least one other line."
  },
  {
   "property": "C56",
   "status": "proved",
   "theorems": [
    "Verif.C56_tsplib"
   ],
   "note": "Every accepted file."
  },
  {
   "property": "C53",
   "status": "proved",
   "theorems": [
    "Verif.C53_print",
    "Verif.C53_closed_walk"
   ],
   "note": "Every recorded cycle through at least three different cities, every orientation of its edges."
  },
  {
   "property": "C57",
   "status": "partial",
   "theorems": [
    "Verif.C57_tour",
    "Verif.C57_classic",
    "Verif.C57_ends",
    "Verif.C57_optimal_partial"
   ],
   "note": "Tour, length and termination proved for every matrix file of 3 to 362 cities; optimality for 14 or more cities with distances at most 3/2 (unit square), since it is false for larger weights (C43_fails). Tour and length hold for every rounding (the cost is the sum of the legs as the machine adds them, see C94); optimality for exact arithmetic (for the machine's: C95)."
  },
  {
   "property": "C40",
   "status": "partial",
   "theorems": [
    "Verif.C40_tour_partial",
    "Verif.C40_fails",
    "Verif.C40_fails_out_of_bounds"
   ],
   "note": "Proved for complete graphs; false for incomplete ones: kernel-evaluated runs from the driver's file for five (four) cities with two at the same place."
  },
  {
   "property": "C54",
   "status": "partial",
   "theorems": [
    "Verif.C54_fold_partial",
    "Verif.C54_max_partial",
    "Verif.C54_dummies",
    "Verif.C54_model_size",
    "Verif.C54_fails_index",
    "Verif.C54_failing_sizes",
    "Verif.C54_fails_order"
   ],
   "note": "Proved when there are at most as many dummies as cities; false otherwise (IndexError for 2-9 and 21-24 cities, theorem for every network output), and false because probabilities are compared as texts (9e-06 beats 0.9)."
  },
  {
   "property": "C55",
   "status": "partial",
   "theorems": [
    "Verif.C55_get_instance_partial",
    "Verif.C55_fails",
    "Verif.C55_range",
    "Verif.C55_single"
   ],
   "note": "Range and selection proved for all files; the error clause is false: the number after the last gives an IndexError and 0 gives the last instance, for every file (C55_fails)."
  },
  {
   "property": "C58",
   "status": "partial",
   "theorems": [
    "Verif.C58_exact",
    "Verif.C58_numbering_partial",
    "Verif.C58_fails"
   ],
   "note": "Proved for instances not larger than the model; for larger ones it holds iff the medoids are the first cities in order (C58_exact), and for every such instance there are medoids for which it is false."
  },
  {
   "property": "C59",
   "status": "proved",
   "theorems": [
    "Verif.C59_clustered"
   ],
   "note": "Every instance of different cities, every duplicate-free list of medoids taken from it, every network output."
  },
  {
   "property": "C60",
   "status": "proved",
   "theorems": [
    "Verif.C60_padded",
    "Verif.C60_clustered"
   ],
   "note": "Text level; at most 362 cities (C48); padded instances with at most as many dummies as cities (C54)."
  },
  {
   "property": "C61",
   "status": "proved",
   "theorems": [
    "Verif.C61_line",
    "Verif.C61_rejects"
   ],
   "note": "Every list of cities, every text after the word output; number texts without white space and the letter o."
  },
  {
   "property": "C62",
   "status": "proved",
   "theorems": [
    "Verif.C62_no_wrap"
   ],
   "note": "Every state of the main loop on every complete instance with at most 361 nodes, also after bound and after variable_fixing."
  },
  {
   "property": "C63",
   "status": "proved",
   "theorems": [
    "Verif.C63_open_list",
    "Verif.C63_dfs_stack"
   ],
   "note": "Simulation between the run on cells (Model/Linked.lean) and the run on sequences; no hypothesis at all. The struct of the iterator (malloc/free in the same round) is not counted."
  },
  {
   "property": "C64",
   "status": "partial",
   "theorems": [
    "Verif.C64_sites_partial",
    "Verif.C64_fails_mandatory",
    "Verif.C64_fails_spokes",
    "Verif.C64_fails_table",
    "Verif.C64_fails_table_always",
    "Verif.C64_fails_mandatory_always"
   ],
   "note": "Proved for every access except four places (list of mandatory edges, two-element arrays of mst_to_one_tree, index -1 in mst_to_one_tree, table of consolidate with 57 nodes or more). The full property is false: runs on 4 cities in the unit square and on 5 cities leave the first two arrays, a run on 259 cities with distances 1 and 2 leaves the table of consolidate in its first call of constrained_prim (the first and the last whatever the memory contained)."
  },
  {
   "property": "C65",
   "status": "proved",
   "theorems": [
    "Verif.C65_branching_edge"
   ],
   "note": "Every complete instance and every subproblem with consistent bookkeeping. Every rounding, but the preference among the free edges for exact arithmetic (the scores are frequencies divided by a count)."
  },
  {
   "property": "C66",
   "status": "proved",
   "theorems": [
    "Verif.C66_solutions",
    "Verif.C66_tours",
    "Verif.C66_optimum",
    "Verif.C66_optimum_exists",
    "Verif.C66_single"
   ],
   "note": "Over every linearly ordered field; CPLEX's tolerances are not modelled."
  },
  {
   "property": "C67",
   "status": "partial",
   "theorems": [
    "Verif.C67_printed_partial",
    "Verif.C67_fails"
   ],
   "note": "Proved when all diagonal costs are positive. False for a zero on the diagonal (every converted file): the diagonal variables are unconstrained, so an optimal solution may print k ---> k."
  },
  {
   "property": "C68",
   "status": "proved",
   "theorems": [
    "Verif.C68_converter",
    "Verif.C68_optimum",
    "Verif.C68_unnumbered"
   ],
   "note": "Number parsing, formatting and the square root are parameters. C68_unnumbered: the two-field format of the repository's example.tsp gives an empty matrix."
  },
  {
   "property": "C69",
   "status": "proved",
   "theorems": [
    "Verif.C69_matrix",
    "Verif.C69_length",
    "Verif.C69_agree",
    "Verif.C69_valid",
    "Verif.C69_fails_two",
    "Verif.C69_fails_one"
   ],
   "note": "C69_fails_two: with two cities W_to_tour_len is half of the length; C69_fails_one: one city raises UnboundLocalError."
  },
  {
   "property": "C70",
   "status": "partial",
   "theorems": [
    "Verif.C70_exact",
    "Verif.C70_mean_partial",
    "Verif.C70_fails"
   ],
   "note": "Proved for tours that start in city 0. For every tour of three or more cities that starts elsewhere there are distances for which the result is wrong: the closing step goes to city 0."
  },
  {
   "property": "C71",
   "status": "proved",
   "theorems": [
    "Verif.C71_round_trip",
    "Verif.C71_fails_driver"
   ],
   "note": "C71_fails_driver: the lines of the driver lack the final field, so their tour loses its last city (only the class weights use it)."
  },
  {
   "property": "C72",
   "status": "proved",
   "theorems": [
    "Verif.C72_batches",
    "Verif.C72_instance",
    "Verif.C72_driver"
   ],
   "note": "The shuffle is an arbitrary permutation."
  },
  {
   "property": "C73",
   "status": "proved",
   "theorems": [
    "Verif.C73_split",
    "Verif.C73_sizes"
   ],
   "note": "Python's slice bounds, including negative ones."
  },
  {
   "property": "C74",
   "status": "partial",
   "theorems": [
    "Verif.C74_tour",
    "Verif.C74_logits_partial",
    "Verif.C74_single",
    "Verif.C74_fails_logits",
    "Verif.C74_fails_zero_score"
   ],
   "note": "Raw probabilities: proved. Logarithms: proved when they lie in a range relative to the mask value 10^20; false outside it (C74_fails_logits: the mask multiplies a zero score, so a node is visited twice). One node raises IndexError."
  },
  {
   "property": "C75",
   "status": "proved",
   "theorems": [
    "Verif.C75_shortest",
    "Verif.sortTopK_ok"
   ],
   "note": "The beam also holds lists that are not tours (C74_fails_zero_score); the function skips them."
  },
  {
   "property": "C76",
   "status": "proved",
   "theorems": [
    "Verif.C76_exact",
    "Verif.C76_narrow"
   ],
   "note": "C76_narrow: a beam of one is not exact."
  },
  {
   "property": "C77",
   "status": "proved",
   "theorems": [
    "Verif.C77_cumulative",
    "Verif.C77_shape",
    "Verif.C77_early"
   ],
   "note": "C77_early: the time of a run in the profile is that of its last improvement, not of the proof of optimality."
  },
  {
   "property": "C78",
   "status": "partial",
   "theorems": [
    "Verif.C78_exact",
    "Verif.C78_better_partial",
    "Verif.C78_fails",
    "Verif.C78_missing"
   ],
   "note": "The first number is proved; the second also counts the instances for which neither solver has a solution yet (inf - inf is not a number), so it is right only from the time on when every instance has one. An instance without a classic run raises KeyError."
  },
  {
   "property": "C79",
   "status": "proved",
   "theorems": [
    "Verif.C79_statistics",
    "Verif.C79_log",
    "Verif.C79_all_interrupted",
    "Verif.C79_profile"
   ],
   "note": "The searches in the text of the files are not modelled; C79_all_interrupted: without an uninterrupted run the function fails with ZeroDivisionError."
  },
  {
   "property": "C80",
   "status": "proved",
   "theorems": [
    "Verif.C80_memory_irrelevant",
    "Verif.C80_instance"
   ],
   "note": "Relational proof over the whole search; any stored graph with MAX_VERTEX_NUM nodes, complete or not, both modes. The Problem structure itself is static, hence zero, in main.c."
  },
  {
   "property": "C81",
   "status": "proved",
   "theorems": [
    "Verif.C81_more_time",
    "Verif.C81_fault"
   ],
   "note": "Every two clocks of which one strikes no earlier, and different memory contents."
  },
  {
   "property": "C82",
   "status": "proved",
   "theorems": [
    "Verif.C82_read_back",
    "Verif.C82_directory",
    "Verif.C82_cost",
    "Verif.C82_fails_crash",
    "Verif.C82_fails_infeasible",
    "Verif.C82_fails_time"
   ],
   "note": "printf and Python's re at character level; C82_cost joins it with C57. Outside of the hypotheses: the text of a crashed run, and of a hybrid run whose uninitialised time is negative, makes read_values fail for the whole directory (C82_fails_crash, C82_fails_time); a run on an infeasible instance is read as solved with cost 0 (C82_fails_infeasible). Every rounding; the cost is the length as the machine adds it up (MachineLength, see C94)."
  },
  {
   "property": "C83",
   "status": "partial",
   "theorems": [
    "Verif.C83_classes_partial",
    "Verif.C83_fails",
    "Verif.C83_fails_reachable",
    "Verif.C83_fails_example"
   ],
   "note": "The two classes of the nearest neighbour are right. The class 1-tree is always empty, because print_subProblem prints CLOSED_SUBGRADIENT for it; C83_fails_reachable is a run on five nodes."
  },
  {
   "property": "C84",
   "status": "proved",
   "theorems": [
    "Verif.Gcn.C84_renumber",
    "Verif.Gcn.C84_loss",
    "Verif.Gcn.C84_cities",
    "Verif.Gcn.C84_cities_complete"
   ],
   "note": "Real numbers, every weight; each instance of a mini-batch may be renumbered on its own."
  },
  {
   "property": "C85",
   "status": "partial",
   "theorems": [
    "Verif.Gcn.C85_undirected_partial",
    "Verif.Gcn.C85_complete_partial",
    "Verif.Gcn.C85_fails",
    "Verif.Gcn.C85_fails_order"
   ],
   "note": "Proved for undirected input graphs, in particular the fully connected one. False for nearest neighbours (the default configuration): C85_fails; so the probability that the solver reads depends on the order of the cities (C85_fails_order)."
  },
  {
   "property": "C86",
   "status": "proved",
   "theorems": [
    "Verif.Gcn.C86_probability",
    "Verif.Gcn.C86_order"
   ],
   "note": "Real numbers; in floating point the softmax can round to 0 or 1."
  },
  {
   "property": "C87",
   "status": "partial",
   "theorems": [
    "Verif.Gcn.C87_order_partial",
    "Verif.Gcn.C87_copies_partial",
    "Verif.Gcn.C87_fails"
   ],
   "note": "The order does not matter, and copies do not; other instances do (C87_fails), because the normalization uses the statistics of the mini-batch in evaluation too. compute_prob uses mini-batches of one instance."
  },
  {
   "property": "C88",
   "status": "proved",
   "theorems": [
    "Verif.Gcn.C88_balanced",
    "Verif.Gcn.C88_weights",
    "Verif.Gcn.C88_positive"
   ],
   "note": "With one class only, the weights have the wrong length and PyTorch raises an error; not modelled."
  },
  {
   "property": "C89",
   "status": "partial",
   "theorems": [
    "Verif.Gcn.C89_tour",
    "Verif.Gcn.C89_tsp",
    "Verif.Gcn.C89_edges_partial",
    "Verif.Gcn.C89_fails",
    "Verif.Gcn.C89_nan",
    "Verif.Gcn.C89_half"
   ],
   "note": "The second and third number and the flags are proved. The first is not the percentage of the connected edges: the diagonal of the input graph is 2, so every node counts as two more (nearly always right) predictions (C89_fails)."
  },
  {
   "property": "C90",
   "status": "proved",
   "theorems": [
    "Verif.C90_results",
    "Verif.C90_raises",
    "Verif.C90_ends",
    "Verif.C90_completes",
    "Verif.C90_other_mode"
   ],
   "note": "File operations as steps; the build, the network and the solver are parameters (the solver may print anything, also when it crashes)."
  },
  {
   "property": "C91",
   "status": "proved",
   "theorems": [
    "Verif.C91_crash",
    "Verif.C91_rerun"
   ],
   "note": "A crash is a run that is not continued; texts reach the disk in pieces of any size. The build is one step."
  },
  {
   "property": "C92",
   "status": "partial",
   "theorems": [
    "Verif.C92_parallel_partial",
    "Verif.C92_fails_hybrid",
    "Verif.C92_fails_size"
   ],
   "note": "Proved for any number of classic drivers of the same size and every schedule. False in hybrid mode (all drivers of a size share the temporary file: an instance can get the solution of another) and for different sizes or modes (they share the build directory)."
  },
  {
   "property": "C93",
   "status": "proved",
   "theorems": [
    "Verif.C93_pipeline",
    "Verif.C93_machine"
   ],
   "note": "Joins C55/C61 (line), C49/C48 (matrix file), C57 (solver), C82 (analyzer) over the run model of C90. The hypothesis on the distances for optimality is that of C57_optimal_partial (the code is not optimal without it, C43). Every rounding, but optimality for exact arithmetic (for the machine's: C95)."
  },
  {
   "property": "C94",
   "status": "proved",
   "theorems": [
    "Verif.C94_cost_error",
    "Verif.C94_accuracy",
    "Verif.C94_nearest"
   ],
   "note": "The model of the solver rounds after every double operation; C94_accuracy shows that the three rounding modes of IEEE 754 (to nearest even, down, up; binary64) meet the hypotheses. Overflow and NaN are not modelled."
  },
  {
   "property": "C95",
   "status": "proved",
   "theorems": [
    "Verif.C95_cost",
    "Verif.C95_tour",
    "Verif.C95_numbers",
    "Verif.C95_nearest",
    "Verif.precise_machine"
   ],
   "note": "Every double operation of the solver is rounded in the model; the bound (6n+6)*5n^2*N*u is derived from C43_rounding_partial with N the number of dual steps at the root. precise_machine shows that the rounding modes of IEEE 754 meet the hypothesis. Overflow cannot occur within the bounds used; NaN is not modelled."
  },
  {
   "property": "C96",
   "status": "proved",
   "theorems": [
    "Verif.C96_hybrid"
   ],
   "note": "The network is a parameter: its matrix is any matrix of texts; folding (main.py:143-155) and the file are modelled. Distances equal up to e are a hypothesis."
  },
  {
   "property": "C97",
   "status": "partial",
   "theorems": [
    "Verif.C97_exact",
    "Verif.C97_tables_partial",
    "Verif.C97_all_filled",
    "Verif.C97_no_tab",
    "Verif.C97_bold_fails",
    "Verif.C97_rounded_fails"
   ],
   "note": "C97_exact describes the tables for all numbers, and no placeholder is left. But where the classic solver is better without significance, the program writes a TAB and extbf{ instead of \\textbf{ (C97_bold_fails: the backslash is not doubled in analyzer.py:406), and the p-value is rounded to two decimals before it is compared with 0.05 (C97_rounded_fails)."
  },
  {
   "property": "C98",
   "status": "proved",
   "theorems": [
    "Verif.C98_same",
    "Verif.C98_succeeds",
    "Verif.C98_order"
   ],
   "note": "Reads the texts of the result files (C79, C82). Means and intervals are exact; the Wilcoxon test is a parameter that may raise an exception; the unused t-test is not modelled."
  },
  {
   "property": "C99",
   "status": "partial",
   "theorems": [
    "Verif.C99_padded_partial",
    "Verif.C99_ends_partial",
    "Verif.C99_fails",
    "Verif.C99_fails_plain"
   ],
   "note": "Proved for coordinates of absolute value at most 3 (as in the unit square), every rounding and every sequence of draws; it ends if every draw comes up again and again. Missing: larger coordinates, where it is false: with whole coordinates of at least 129 the distance added is lost in the rounding and the program draws for ever (C99_fails). It is also false for a line without the word output, which the driver otherwise accepts: the dummies land in the second line of the file (C99_fails_plain)."
  },
  {
   "property": "C100",
   "status": "partial",
   "theorems": [
    "Verif.C100_powers_partial",
    "Verif.C100_fails"
   ],
   "note": "Proved if the number of nodes is a power of ten (10 or more) and the logarithms are not rounded down. For every other number of nodes from 2 to 65535 it is false (C100_fails): the buffer for the destination is one character too short for the numbers of the last nodes, because the zero at the end was forgotten."
  },
  {
   "property": "C101",
   "status": "partial",
   "theorems": [
    "Verif.C101_value_partial",
    "Verif.C101_blind",
    "Verif.C101_fails"
   ],
   "note": "Proved: the cities and the value. False: that the tour is shortest. Concorde is asked for norm GEO (kilometres on the globe, rounded up to whole numbers): cities of the unit square within 3/1000 of each other are all at distance 1, so any tour may be returned (C101_blind); an example reports 18e-4 where 14e-4 is possible (C101_fails)."
  },
  {
   "property": "C102",
   "status": "partial",
   "theorems": [
    "Verif.C102_file",
    "Verif.C102_unsolved",
    "Verif.C102_succeeds",
    "Verif.C102_tables_partial"
   ],
   "note": "C102_file: the text that analyze writes is read row by row as meant, for every layout. The tables: as C97, exactly what the program writes (also where it is wrong), and the right tables if no p-value is between 4.5 % and 5 % and the classic solver is nowhere better without significance (C97_rounded_fails, C97_bold_fails). How pandas prints a number is a parameter: a text of the characters of numbers, or NaN, that Python's float reads."
  },
  {
   "property": "C103",
   "status": "partial",
   "theorems": [
    "Verif.C103_batch_partial",
    "Verif.C103_rounds",
    "Verif.C103_returns",
    "Verif.C103_graph",
    "Verif.C103_fails"
   ],
   "note": "Proved for the first mini-batch. False for the data set: each of the 1000 rounds starts the iterator anew and looks at the first mini-batch only (C103_rounds, C103_fails)."
  },
  {
   "property": "C104",
   "status": "proved",
   "theorems": [
    "Verif.Gcn.C104_edges",
    "Verif.Gcn.C104_tours",
    "Verif.Gcn.C104_two"
   ],
   "note": "Exact arithmetic; equal scores count as not predicted. With two cities the result is half the length of the tour (C104_two). No project code calls the function."
  },
  {
   "property": "C105",
   "status": "partial",
   "theorems": [
    "Verif.C105_settings",
    "Verif.C105_same",
    "Verif.C105_same_first",
    "Verif.C105_smaller_partial",
    "Verif.C105_larger",
    "Verif.C105_fails",
    "Verif.C105_driver"
   ],
   "note": "Settings, weights and cities are the right ones for instances of the size of the network, for smaller ones (cities near the origin and a padding that ends, as in C99), and for larger ones if the network is for 100 cities. For larger instances and every other network size the program ends with an exception (C105_fails: main.py:362 calls fix_instance_size without model_size, whose default is 100). The driver HybridSolver.py never calls the program like this (C105_driver). The clustering, the checkpoint files and number formatting are parameters."
  }
 ]
}