# Formal model of GraphConvolutionalBranchandBound (C solver + Python driver) in Lean 4

Sources: `/repo/src/HybridSolver/main` (C) and its Python drivers.  All paths below are relative to it.

## Layout

* `lean/Verif/Base.lean` – outcomes (`Res`: normal result or fault), arrays as functions, the constants of `problem_settings.h`.
* `lean/Verif/Model/*.lean` – the model, one file per C file, function by function, each definition citing its source lines.
* `lean/Verif/Spec/*.lean` – small independent specifications (sequences, priority maps, connectivity, spanning trees, tours, constraints).
* `lean/Verif/Proofs/*.lean` – helper lemmas.
* `lean/Verif/Props/*.lean` – the property theorems (named in `MANIFEST.json`) with, beside each, an example that meets its hypotheses.

## Modelling conventions

* `double` → `ℚ`. Every finite double is a rational and comparisons of doubles are comparisons of rationals, so all
  comparison-only code (heap, quicksort, nearest neighbour, list ordering) is exact for non-NaN inputs. Every sum,
  difference, product and quotient of the C code is followed by `fl`, the rounding of a class `Rounding` (`Base.lean`): any
  monotone function that leaves the numbers of the format binary64 as they are. Theorems hold for every rounding, unless they have
  the hypothesis `Exact` (C37 and C38 in part, C43, C47, C57_optimal_partial, part of C93 and of C65; the bounds and the optimality with rounding are C37_rounding, C38_rounding, C43_rounding_partial and C95) or name the exact
  instance. The rounding modes of IEEE 754 are instances (`Proofs/Binary64.lean`, C94). Overflow and NaN are not modelled. `DBL_MAX`, `FLT_MAX` are their exact values. `EPSILON` (which involves a
  square root) is a parameter `eps ≥ 0` of the configuration.
* `unsigned short`/`int`/`size_t` counters → `Nat`, except where a property is about wrap-around; then the wrap is modelled.
* C arrays → total functions `Nat → α` plus explicit bound checks where an out-of-bounds access is in question; an
  out-of-bounds access, NULL dereference, `exit(…)` or fuel exhaustion is a distinct outcome (`Res.fault`), never assumed away.
* Pointers → `Option Nat` addresses into a store (linked lists and the Fibonacci heap are modelled at pointer level).
* The global `problem` pointer → an explicit state. `clock()` → an arbitrary oracle (a sequence of Booleans), so theorems
  about runs hold for every clock behaviour.
* `while` loops → structural recursion, with a fuel argument where the C loop has no syntactic bound; running out of fuel is a
  fault and is proved unreachable.

## Plan per property

| id | modelled | method |
|----|----------|--------|
| C01–C04 | `list_functions.c`, `list_iterator.c` over a cell store with head/tail/size | representation predicate (cells form a doubly linked chain), refinement to `List`; C02/C03: negation by a concrete history + partial theorem |
| C05 | `b_and_b_data.c`, same cell store instantiated at subproblem values | same refinement |
| C06–C09 | `mfset.c`: `parent`,`rank` arrays, fuelled `find`, `merge` | invariant: rank strictly increases along parents, 2^rank ≤ class size; refinement to equivalence closure |
| C10–C13 | `fibonacci_heap.c` at pointer level | representation invariant with ghost forest; refinement to a finite map key→value; Fibonacci degree bound; C13: a history of 258 insertions (`Props/TableHistory.lean`) evaluated by the kernel is a witness that the table is left |
| C14–C16 | `kruskal.c` quicksort | loop invariants on index functions, permutation as composition of swaps |
| C17 | `mst.c` | induction over added edges |
| C18–C22 | `kruskal`, `prim` | cut/exchange argument on edge sets |
| C23–C25 | `constrained_prim`, `constrained_kruskal` | same exchange argument with constraints |
| C26–C29 | `mst_to_one_tree`, 1-tree, Lagrangian reweighting | tour = Hamiltonian path on V∖{c} + two edges; weak duality |
| C30–C31 | `dfs`, `check_hamiltonian` | DFS invariant (parents of visited nodes form a path to the start) |
| C32–C35 | `initialize_matrix`, `infer_constraints`, `copy_constraints`, `branch` | every vertex of a tour has exactly two tour neighbours |
| C36 | `compare_subproblems`, insertion loop | invariant over insertions |
| C37 | `variable_fixing`, `max_edge_path_1Tree` (`Model/Fixing.lean`) | exchange on the 1-tree: swapping an edge in costs weight minus path maximum, swapping one out costs the cheapest replacement; every allowed tour using (avoiding) the edge is bounded below (`Proofs/FixTree.lean`) |
| C38 | `bound` (`Model/Bound.lean`) | invariant of the subgradient loop: for every allowed tour shorter than the best value, each dual bound is below its length, the dual variables stay within the sum of the steps, so the reweighted mandatory edges stay above `-n` (`Proofs/Bound2–5.lean`); false for large weights (`C38_fails`) |
| C41–C45 | `branch_and_bound` | invariant over the main loop, measure on unfixed edges |
| C39, C40 | `nearest_prob_neighbour` | loop invariant; C40: complete graphs from C42, negative witness for coincident cities (`Props/Incomplete.lean`) |
| C46, C47 | `check_feasibility`, `find_candidate_node` | direct, scan invariant |
| C48–C50, C56 | `tsp_instance_reader.c` (`Model/Reader.lean`, character level: lines, `strtok`, `sscanf` with the number parser as a parameter) | fold invariants; text-level round trip with the driver's output (`Spec/CsvSpec.lean`); C48 false from 363 cities on; C50 false both ways |
| C51, C52 | `graph.c` | induction over edge list |
| C53, C57 | `print_subProblem`, `main` (`Model/Main.lean`) | induction along the cycle; composition of C48, C42–C44, C53 |
| C54, C55 | `Model/Driver.lean`: `write_adjacency_matrix` (padding), `get_instance`, `hybrid_solver` (range) | invariant of the folding loops; arithmetic; negative witnesses as theorems for all inputs |
| C58–C60 | `Model/Driver.lean`: `write_adjacency_matrix` (clustering, file text), `get_nodes` | invariant of the growing matrix; composition with C48 |
| C61 | `Model/Driver.lean`: `get_instance` (text) | text lemmas |
| C62 | the counters of `SubProblem` and `Problem` along `branch_and_bound` | potential: forbidden counter plus undecided pairs; level plus undecided pairs (`Proofs/Counters.lean`) |
| C63 | `branch`, `branch_and_bound`, `dfs` on the cells of their lists (`Model/Linked.lean`), with the rest of `b_and_b_data.c` | simulation: same fault or related results, through every loop (`Proofs/Linked.lean`) |
| C64 | the fault `oobAt` names four places of the model (`Base.lean`: `Site`) | all other faults excluded function by function (`Proofs/Term2.lean`: `OnlyOob`); full runs checked by the kernel as witnesses for two of the four; for the table of `consolidate` a run on 259 cities, proved to perform the history of C13 (`Props/TableSearch.lean`) |
| C65 | `bound`: scores, retained 1-tree, choice of the edge | trace of the loop (scores are frequencies), folds compute the first optimum (`Proofs/BranchEdge.lean`) |
| C66, C67 | `TSPmtz.mod` (`Model/Mtz.lean`): variables, constraints, objective, printed legs, over an ordered field | the successor function of a feasible solution is one cycle because `u` increases along it (`Proofs/Mtz.lean`); C67 false for a zero diagonal |
| C68 | `converter_tsp_to_dat.py` (`Model/Converter.lean`), character level | text lemmas; composition with C66 |
| C69, C70 | `graph_utils.py` (`Model/TourUtils.lean`) | legs of a tour as consecutive pairs plus the closing one; C70 false for other starts than city 0 |
| C71, C72 | `google_tsp_reader.py`, `generate_tsp_concorde.py` (the line), the driver's lines, `compute_prob`'s search for the instance | split of an intercalated text; fold invariants; the shuffle is any permutation |
| C73 | `split_train_val.py` | Python slices |
| C74–C76 | `beamsearch.py`, `beamsearch_tour_nodes(_shortest)` with any `topk` | invariant: every position with a score above the threshold holds a path of different nodes whose score is its probability; for C76 the beam holds every path once, counted by (n-1)! |
| C77–C79 | `analyzer.py`: `cumulative_profile`, `improvement_profile`, `read_values` on the fields of the result files | counting over lists, sorted times; fold invariant over the files |
| C80 | the whole search, run on two different memories | relation between two runs (same fault, or states that agree on what was set), function by function: heap, spanning tree, 1-tree, dfs, bound, constraints, branching, fixing, main loop |
| C81 | the main loop with two clocks | the best value and the counters are monotone round by round; induction on the rounds; C80 for the memories |
| C82, C83 | `print_problem`, `print_subProblem`, the driver's lines and the searches of `read_values`, at character level (`Model/ResultText.lean`) | the text is a list of segments; a search skips every segment in which the first literal of its pattern cannot start a match; the number after it is read back |
| C84–C88 | `gcn_layers.py`, `gcn_model.py`, `loss_edges`, softmax of `compute_prob` over the real numbers (`Model/Gcn.lean`) | each layer commutes with renumbering (sums over all nodes are reindexed); symmetry is kept by each layer; explicit small networks refute C85, C87 |
| C89 | `edge_error` on the predicted classes (`Model/EdgeError.lean`) | counting; right and wrong predictions make up the mask |
| C90 | the driver, the network process and the solver process as sequences of operations on the disk (`Model/Run.lean`); build, network, solver, clock are relations | invariant over all steps, with a rely/guarantee predicate `Safe`; termination by well-foundedness of the process tree |
| C91 | the same; a crash is a run that is not continued | the invariant at every reachable state; the rerun from it |
| C92 | several drivers, one disk, steps interleaved | `Safe` is stable under the steps of the others if the files are disjoint; two schedules refute the rest |
| C93 | `Model/Run.lean` with the models of the line, matrix file, solver and analyzer | composition of C90, C49, C48, C57 and C82 |
| C94 | `fl` after every operation on doubles in the C models; the rounding modes of IEEE 754 (`Spec/Binary64.lean`) | the cost is a sum of the legs in some order (from C57); error of a sum by induction; composition |
| C95 | the same models; `Spec.Near`, `Spec.Scale`, `Spec.Fits` (`Spec/Near.lean`): a bound on the error of one operation for all numbers that occur | the proofs of C37, C38 and C43 carried out with error terms (`C37_rounding`, `C38_rounding`, `C43_rounding_partial`): every dual bound is too large by at most `(5n+2)ε`, every dual variable drifts by a bounded amount; the bounds for the unit square (`Proofs/Near2.lean`); `u M` bounds the error of `double` operations up to `M` |
| C96 | C93 with `main.py` (folding of the dummy cities, the file) and the network as a parameter | the proof of C93 for any matrix file of the cities (`pipeline_any`); C49_hybrid, C95; a walk of n legs changes by at most n·e |
| C97 | `modify_string`, `create_tables` with the template (`Model/Tables.lean`); `float`, `round`, `str` are parameters | the template is cut into words; a replacement changes exactly the words equal to the placeholder because every word that contains it has been replaced before (a finite check of the template, by the kernel); induction over the lines |
| C98 | `read_values`' dictionaries, `significance_test`, the rows of `analyze` (`Model/Means.lean`); the order of set iteration and the Wilcoxon test are parameters | the dictionaries are the solved runs (induction over the files); the lists are the images of one list of pairs; permutations |
| C99 | `add_dummy_cities` (`Model/Padding.lean`); the random draws are the input, the sums are rounded by any rounding | an invariant over the draws (cities, text, index, number of dummies); two draws give different points because a rounding moves a number at most to the next grid point, so one of the 256 is always new; `nearestEven` for the failure |
| C100 | the loops over the edges in `print_graph`, `print_mst`, `print_mst_original_weight` (`Model/PrintEdges.lean`); the rest of the line is a parameter, `dim` may have an error of 2^-40 | bounds on the number of digits and on the logarithm |
| C101 | `create_instances`, `run` of `pyconcorde_solver.py` (`Model/Reference.lean`); Concorde's tour is an argument, the distance `GEO` is defined over the reals as in the TSPLIB (`Spec/Geo.lean`) | induction over the positions; bounds on cosine and arc cosine for the distance of close cities |
| C102 | the text of `mean_results.txt` (`Model/MeanText.lean`): frame, labels, columns, the lists of unsolved instances; number texts, widths and curves are parameters | composition of C79, C98 and C97: no line but the twelve rows contains a label |
| C103 | `get_max_k` (`Model/MaxK.lean`); the result of `np.argsort` is a parameter | a position in a sorted order is bounded by the number of smaller elements; counterexample with two shortest tours |
| C104 | `mean_tour_len_edges` (`Model/EdgeLen.lean`) over the reals | softmax is monotone; each side of a tour of three or more cities is counted in both directions |
| C105 | `main`, `fix_instance_size`, `get_instance` of main.py and config.py (`Model/NetMain.lean`); the settings files are lists of keys and values | dict lemmas; the three cases through C71, C72, C99; the number of cities the reader returns refutes the rest |

## Trusted base

Lean's kernel; the axioms `propext`, `Classical.choice`, `Quot.sound` only (list below); no `native_decide`, no `bv_decide`, no axioms of
our own. Concrete witnesses (counterexamples and examples) are evaluated by the kernel with `decide`/`decide +kernel`. The faithfulness of the model to
the C and Python text is trusted: it was read by hand, nothing was executed.

Modelled, function by function (each Lean definition cites its lines):

| source | functions |
|--------|-----------|
| `doubly_linked_list/list_functions.c`, `list_iterator.c` | all |
| `b_and_b_data.c` | all |
| `mfset.c` | all but the printing function |
| `fibonacci_heap.c` | all |
| `graph.c` | `create_graph`, `create_euclidean_graph`, the edges of `print_graph` |
| `mst.c` | `create_mst`, `add_edge`, the edges of `print_mst` and `print_mst_original_weight` |
| `kruskal.c`, `prim.c` | all |
| `branch_and_bound.c` | all but `set_problem`, `time_limit_reached` (an oracle); the text of `print_problem`/`print_subProblem` |
| `tsp_instance_reader.c` | `read_tsp_lib_file`, `read_tsp_csv_file` at character level (the C library's number parsers are parameters) |
| `main.c` | the composition of reading, search and printing |
| `HybridSolver.py` | `get_instance`, `get_nodes`, the range of instances, the choice of the network size and the order of all file operations in `hybrid_solver` (creation of directories and console output are not) |
| `TSPmtz.mod` | the whole program (the solver is any procedure that returns an optimal solution) |
| `converter_tsp_to_dat.py` | `convert_custom_euclidean` |
| `graph-convnet-tsp/utils/graph_utils.py` | `tour_nodes_to_W`, `tour_nodes_to_tour_len`, `W_to_tour_len`, `is_valid_tour`, `mean_tour_len_nodes` |
| `graph-convnet-tsp/utils/beamsearch.py`, `model_utils.py` | `Beamsearch`, `beamsearch_tour_nodes`, `beamsearch_tour_nodes_shortest`: one element of the batch, rational numbers, integer division of PyTorch 0.4.1, any `topk`, softmax not modelled |
| `results/AdjacencyMatrix/analyzer.py` | `improvement_profile`, `cumulative_profile`, `read_values` with its regular expressions, `significance_test` and the rows of means (exact arithmetic; the Wilcoxon test is a parameter), the rows and lines of `mean_results.txt` (`analyze`; how pandas prints a number is a parameter), `create_tables` (the plots are not modelled) |
| `graph-convnet-tsp/models/gcn_layers.py`, `gcn_model.py` | all forward passes (real numbers, shapes as types, arbitrary weights); `loss_edges`, `edge_error` of `model_utils.py` |
| `graph-convnet-tsp/utils/google_tsp_reader.py` | `__iter__`, `process_batch` (distances and nearest neighbours are parameters) |
| `graph-convnet-tsp/data/` | the line written by `generate_tsp_concorde.py`, the split of `split_train_val.py` |
| `graph-convnet-tsp/main.py` | `compute_prob`'s search for the sample; `get_instance`, padding (`add_dummy_cities`, with random draws as input) and clustering bookkeeping, `write_adjacency_matrix` (the network, the clustering algorithm and number formatting are parameters); which files are read and written, and when; `main` up to the call of the network, with the settings of `config.py` |

Not modelled: overflow of doubles and NaN/±∞ (rounding is, see above; in the models of the Python code numbers are exact), `malloc` failure, stack exhaustion, failing or partial disk writes without a crash, console output, wrap of the 32-bit counters
(`generatedBBNodes`, `exploredBBNodes`, `num_fixed_edges`, `id`), the training of the network (and floating point in it), what `cmake` and `make` do (one step that replaces the program or fails),
the rest of the analysis script, the code under `test/`. 16-bit counters are unbounded in the search model, which C62 justifies up to 361 cities; in the readers they wrap.

<!-- axioms begin -->
Axioms of each theorem in MANIFEST.json (output of `#print axioms`):

- [propext, Classical.choice, Quot.sound] (256 theorems): `C100_fails`, `C100_powers_partial`, `C101_blind`, `C101_fails`, `C101_value_partial`, `C102_file`, `C102_succeeds`, `C102_tables_partial`, `C102_unsolved`, `C103_batch_partial`, `C103_fails`, `C103_graph`, `C105_driver`, `C105_fails`, `C105_larger`, `C105_same`, `C105_same_first`, `C105_settings`, `C105_smaller_partial`, `C17_bookkeeping`, `C17_no_overflow`, `C18_spanning`, `C19_minimum`, `C20_spanning`, `C21_minimum`, `C22_agree`, `C23_constrained_prim`, `C24_fails_below_minus_n`, `C24_lower_bound`, `C24_mandatory_partial`, `C25_constrained_kruskal`, `C26_candidate_edges`, `C27_in_bounds_partial`, `C27_overflow`, `C28_infeasible`, `C28_lower_bound`, `C29_dual_bound`, `C29_fails_below_minus_n`, `C30_check_hamiltonian`, `C31_dfs_cycle`, `C32_loses_no_tour`, `C33_rejects_infeasible`, `C34_bookkeeping_partial`, `C34_copy_partial`, `C34_list_overflow`, `C35_branch`, `C35_order`, `C36_best_first`, `C37_rounding`, `C37_variable_fixing`, `C38_bound_partial`, `C38_fails`, `C38_rounding`, `C39_nearest_neighbour`, `C40_fails`, `C40_fails_out_of_bounds`, `C40_tour_partial`, `C41_before`, `C41_best_matches`, `C42_interrupted`, `C43_fails`, `C43_fails_always`, `C43_optimal_partial`, `C43_rounding_partial`, `C43_small_weights_partial`, `C43_unit_square_partial`, `C44_rounds`, `C44_terminates`, `C45_accounting`, `C46_min_degree`, `C46_rejected_no_tour`, `C47_candidate`, `C47_returns`, `C48_csv_partial`, `C48_fails_from_363`, `C48_instance`, `C48_stored`, `C49_classic`, `C49_hybrid`, `C50_accepts_partial`, `C50_exact`, `C50_fails`, `C51_create_graph`, `C51_create_graph_simple`, `C52_complete`, `C53_closed_walk`, `C53_print`, `C54_failing_sizes`, `C54_fails_order`, `C54_fold_partial`, `C54_max_partial`, `C55_range`, `C55_single`, `C56_tsplib`, `C57_classic`, `C57_ends`, `C57_optimal_partial`, `C57_tour`, `C58_exact`, `C58_fails`, `C59_clustered`, `C60_clustered`, `C60_padded`, `C61_line`, `C61_rejects`, `C62_no_wrap`, `C63_dfs_stack`, `C63_open_list`, `C64_fails_mandatory`, `C64_fails_mandatory_always`, `C64_fails_spokes`, `C64_fails_table`, `C64_fails_table_always`, `C64_sites_partial`, `C65_branching_edge`, `C66_optimum`, `C66_optimum_exists`, `C66_single`, `C66_solutions`, `C66_tours`, `C67_printed_partial`, `C68_converter`, `C68_optimum`, `C68_unnumbered`, `C69_agree`, `C69_fails_one`, `C69_fails_two`, `C69_length`, `C69_matrix`, `C69_valid`, `C70_exact`, `C70_fails`, `C70_mean_partial`, `C71_fails_driver`, `C71_round_trip`, `C72_batches`, `C72_driver`, `C72_instance`, `C73_sizes`, `C74_fails_logits`, `C74_fails_zero_score`, `C74_logits_partial`, `C74_single`, `C74_tour`, `C75_shortest`, `C76_exact`, `C76_narrow`, `C77_cumulative`, `C77_early`, `C77_shape`, `C78_better_partial`, `C78_exact`, `C78_fails`, `C78_missing`, `C79_all_interrupted`, `C79_log`, `C79_profile`, `C79_statistics`, `C80_instance`, `C80_memory_irrelevant`, `C81_fault`, `C81_more_time`, `C82_cost`, `C82_directory`, `C82_fails_crash`, `C82_fails_infeasible`, `C82_fails_time`, `C82_read_back`, `C83_classes_partial`, `C83_fails`, `C83_fails_example`, `C83_fails_reachable`, `C90_completes`, `C90_ends`, `C90_other_mode`, `C90_raises`, `C90_results`, `C91_crash`, `C91_rerun`, `C92_fails_hybrid`, `C92_fails_size`, `C92_parallel_partial`, `C93_machine`, `C93_pipeline`, `C94_accuracy`, `C94_cost_error`, `C94_nearest`, `C95_cost`, `C95_nearest`, `C95_numbers`, `C95_tour`, `C96_hybrid`, `C97_all_filled`, `C97_bold_fails`, `C97_exact`, `C97_no_tab`, `C97_rounded_fails`, `C97_tables_partial`, `C98_order`, `C98_same`, `C98_succeeds`, `C99_ends_partial`, `C99_fails`, `C99_fails_plain`, `C99_padded_partial`, `Dll.C01_del_list_frees_everything`, `Dll.C01_list_is_sequence`, `Dll.C02_insert_at_size_partial`, `Dll.C03_delete_bottom_partial`, `Dll.C03_delete_single_refuted`, `Dll.C04_iterator_enumerates`, `Dll.C05_open_list_is_sequence`, `Fib.C10_contents`, `Fib.C10_extract_min_returns_minimum`, `Fib.C10_insert_succeeds`, `Fib.C11_drain_sorts`, `Fib.C11_empty_and_counter`, `Fib.C12_decrease_value`, `Fib.C13_degree_table_partial`, `Fib.C13_fails`, `Gcn.C104_edges`, `Gcn.C104_tours`, `Gcn.C104_two`, `Gcn.C84_cities`, `Gcn.C84_cities_complete`, `Gcn.C84_loss`, `Gcn.C84_renumber`, `Gcn.C85_complete_partial`, `Gcn.C85_fails`, `Gcn.C85_fails_order`, `Gcn.C85_undirected_partial`, `Gcn.C86_order`, `Gcn.C86_probability`, `Gcn.C87_copies_partial`, `Gcn.C87_fails`, `Gcn.C87_order_partial`, `Gcn.C88_balanced`, `Gcn.C88_positive`, `Gcn.C88_weights`, `Gcn.C89_edges_partial`, `Gcn.C89_fails`, `Gcn.C89_half`, `Gcn.C89_nan`, `Gcn.C89_tour`, `Gcn.C89_tsp`, `Mf.C06_C07_find_is_equivalence_closure`, `Mf.C07_merge_joins`, `Mf.C08_union_by_rank_depth`, `Mf.C09_constrained_forest`, `Sort.C14_sorts`, `Sort.C15_positions_consistent`, `Sort.C16_empty_graph`, `Sort.C16_in_bounds_partial`, `Spec.Gentle.unit_square`, `precise_machine`, `sortTopK_ok`
- [propext, Quot.sound] (10 theorems): `C103_returns`, `C103_rounds`, `C54_dummies`, `C54_fails_index`, `C54_model_size`, `C55_fails`, `C55_get_instance_partial`, `C58_numbering_partial`, `C67_fails`, `Sort.C16_reads_past_the_end`
- [none] (3 theorems): `C73_split`, `Dll.C02_insert_at_size_refuted`, `Fib.C13_table_below_fibonacci_bound`
<!-- axioms end -->
