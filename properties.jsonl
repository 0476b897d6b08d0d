{"id": "C01", "title": "Generic list behaves as a sequence", "statement": "Starting from new_list, after any sequence of add_elem_list_bottom, add_elem_list_index (at an index below the current size, or at any index of an empty/oversized request) and delete_list_elem_index calls, get_list_elem_index, get_list_size and is_list_empty report exactly what a mathematical sequence subjected to the same append / insert-at / erase-at operations would report, out-of-range requests leave the list unchanged or return NULL, and no NULL or freed cell is ever dereferenced.", "quantifier": "every finite sequence of list operations, every stored value, every index", "why_tests_cant": "the histories are unbounded in length and the memory shapes they reach are unboundedly many; a test fixes one history", "anchors": ["src/HybridSolver/main/data_structures/doubly_linked_list/list_functions.c: new_list, add_elem_list_bottom, add_elem_list_index, delete_list_elem_index, get_list_elem_index, get_list_size, is_list_empty"]}
{"id": "C02", "title": "Inserting at index = size appends and keeps the list usable", "statement": "add_elem_list_index with index equal to the current size (an index the function accepts) appends the element, and the list keeps behaving as a sequence under all later operations.", "quantifier": "every reachable list, every value, every continuation of the history", "why_tests_cant": "the histories are unbounded in length and the memory shapes they reach are unboundedly many; a test fixes one history", "anchors": ["src/HybridSolver/main/data_structures/doubly_linked_list/list_functions.c: add_elem_list_index"]}
{"id": "C03", "title": "Deleting the last element works on every non-empty list", "statement": "delete_list_elem_bottom on any non-empty list removes exactly its last element and does nothing on an empty or NULL list.", "quantifier": "every reachable list, in particular lists of one element", "why_tests_cant": "the histories are unbounded in length and the memory shapes they reach are unboundedly many; a test fixes one history", "anchors": ["src/HybridSolver/main/data_structures/doubly_linked_list/list_functions.c: delete_list_elem_bottom"]}
{"id": "C04", "title": "List iterator enumerates the list once, in order", "statement": "An iterator created on a list returns, by successive list_iterator_get_next calls, every stored element exactly once in list order and NULL on every later call; is_list_iterator_valid is true exactly while elements remain.", "quantifier": "every reachable list, every number of get_next calls", "why_tests_cant": "the histories are unbounded in length and the memory shapes they reach are unboundedly many; a test fixes one history", "anchors": ["src/HybridSolver/main/data_structures/doubly_linked_list/list_iterator.c: create_list_iterator, list_iterator_get_next, list_iterator_next, is_list_iterator_valid"]}
{"id": "C05", "title": "Open-subproblem list behaves as a sequence of copies", "statement": "After any sequence of add_elem_SubProblemList_bottom, add_elem_SubProblemList_index (index < size) and delete_SubProblemList_elem_index calls, the open list's size, elements and iteration order are those of the mathematical sequence of the subproblem values passed in (stored by value), with no NULL dereference.", "quantifier": "every finite sequence of operations as issued by branch() and branch_and_bound(), every subproblem", "why_tests_cant": "the histories are unbounded in length and the memory shapes they reach are unboundedly many; a test fixes one history", "anchors": ["src/HybridSolver/main/data_structures/b_and_b_data.c: add_elem_SubProblemList_bottom, add_elem_SubProblemList_index, delete_SubProblemList_elem_index, get_SubProblemList_elem_index, SubProblemList_iterator_get_next"]}
{"id": "C06", "title": "find returns one representative per set and never changes the partition", "statement": "In a forest built by create_forest and any sequence of merge/find calls, find(x) and find(y) return the same set exactly when x and y are in the same set, repeated find calls return the same representative, and find (with its path compression) changes no set.", "quantifier": "every number of nodes, every sequence of merge and find calls", "why_tests_cant": "the histories are unbounded in length and the memory shapes they reach are unboundedly many; a test fixes one history", "anchors": ["src/HybridSolver/main/data_structures/mfset.c: find, create_forest"]}
{"id": "C07", "title": "merge implements exactly the equivalence closure of the merged pairs", "statement": "After any sequence of merge calls two nodes are in the same set iff they are connected by the merged pairs (so Kruskal's cycle test is exact).", "quantifier": "every number of nodes, every sequence of merges and finds", "why_tests_cant": "the histories are unbounded in length and the memory shapes they reach are unboundedly many; a test fixes one history", "anchors": ["src/HybridSolver/main/data_structures/mfset.c: merge, find, create_forest"]}
{"id": "C08", "title": "Union by rank keeps find logarithmic and the rank counter in range", "statement": "In every reachable forest of n nodes a chain of parent pointers from any node to its root has at most log2(n) links (so find terminates and recurses at most log2 n deep), and no rank exceeds log2 n, hence the unsigned short rank never wraps.", "quantifier": "every n, every sequence of merge and find calls", "why_tests_cant": "the histories are unbounded in length and the memory shapes they reach are unboundedly many; a test fixes one history", "anchors": ["src/HybridSolver/main/data_structures/mfset.c: merge, find", "src/HybridSolver/main/data_structures/mfset.h: Set.rango"]}
{"id": "C09", "title": "Candidate-free forest leaves exactly the other nodes as singletons", "statement": "create_forest_constrained makes every node except the candidate a singleton set, and unions performed on non-candidate nodes never involve the candidate.", "quantifier": "every n, every candidate, every sequence of merges between other nodes", "why_tests_cant": "the histories are unbounded in length and the memory shapes they reach are unboundedly many; a test fixes one history", "anchors": ["src/HybridSolver/main/data_structures/mfset.c: create_forest_constrained"]}
{"id": "C10", "title": "extract_min returns a minimum, for every heap history", "statement": "After any sequence of create_insert_node (fresh node, fresh key), decrease_value (on a node in the heap) and extract_min, extract_min returns the key of a node whose current value is minimal among the nodes in the heap, removes exactly that node, and keeps all other nodes with their values.", "quantifier": "every history of insertions, decreases and extractions, all values", "why_tests_cant": "the pointer structure (circular sibling lists, marks, cascading cuts) depends on the whole history; tests sample a handful", "anchors": ["src/HybridSolver/main/data_structures/fibonacci_heap.c: insert_node, create_node, extract_min, consolidate, link_trees, cut, cascading_cut, decrease_value"]}
{"id": "C11", "title": "Empty heap reports -1, node counter is exact", "statement": "extract_min returns -1 exactly when no node is in the heap, and num_nodes always equals the number of nodes inserted and not yet extracted; extracting until empty therefore returns every inserted key exactly once in non-decreasing value order.", "quantifier": "every history", "why_tests_cant": "the histories are unbounded in length and the memory shapes they reach are unboundedly many; a test fixes one history", "anchors": ["src/HybridSolver/main/data_structures/fibonacci_heap.c: extract_min, insert_node, create_fibonacci_heap"]}
{"id": "C12", "title": "decrease_value changes one value only and rejects increases", "statement": "decrease_value(node, v) with v not greater than the node's value sets exactly that node's value to v and leaves membership and all other values unchanged; with v greater than the current value the program exits with an error.", "quantifier": "every reachable heap, every node in it, every v", "why_tests_cant": "the histories are unbounded in length and the memory shapes they reach are unboundedly many; a test fixes one history", "anchors": ["src/HybridSolver/main/data_structures/fibonacci_heap.c: decrease_value, cut, cascading_cut"]}
{"id": "C13", "title": "consolidate never writes outside its degree table", "statement": "During extract_min the degree of every root is smaller than the size ceil(log2(num_nodes)) + 2 of the stack array degree_list, so consolidate never reads or writes outside it.", "quantifier": "every history, every number of nodes", "why_tests_cant": "the degree of a root depends on an adversarial history of cuts; small or random tests never reach the bad degrees", "anchors": ["src/HybridSolver/main/data_structures/fibonacci_heap.c: consolidate (dimension, degree_list)"]}
{"id": "C14", "title": "wrap_quick_sort sorts the edges and loses none", "statement": "After wrap_quick_sort the graph's edge array is a permutation of the original edges, in non-decreasing weight, and in hybrid mode edges of equal weight are in non-increasing probability; an already ordered graph is left unchanged.", "quantifier": "every graph, every number of edges, every weight/probability assignment, both modes", "why_tests_cant": "partition index arithmetic (ties, extreme pivots, unsigned indices) must be right for every permutation of every length", "anchors": ["src/HybridSolver/main/algorithms/kruskal.c: wrap_quick_sort, quick_sort, pivot_quicksort, swap"]}
{"id": "C15", "title": "Sorting keeps matrix positions and edge array consistent", "statement": "If every edge's adjacency-matrix entry (both orientations) stores that edge's index in the edge array before sorting, it does so after sorting too, with the same endpoints, weight and probability.", "quantifier": "every graph, both modes", "why_tests_cant": "must hold after every interleaving of swaps", "anchors": ["src/HybridSolver/main/algorithms/kruskal.c: swap, wrap_quick_sort"]}
{"id": "C16", "title": "Sorting stays inside the edge array", "statement": "wrap_quick_sort never reads or writes graph->edges outside its MAX_EDGES_NUM entries and is harmless on a graph without edges.", "quantifier": "every graph that fits in the Graph structure, including complete graphs and edgeless ones", "why_tests_cant": "the stray read happens only for particular orders and is invisible to a passing test", "anchors": ["src/HybridSolver/main/algorithms/kruskal.c: pivot_quicksort, wrap_quick_sort"]}
{"id": "C17", "title": "Tree bookkeeping is exact", "statement": "After create_mst and any sequence of add_edge calls, the tree's cost is the sum of the added weights, each node's neighbour list is exactly the multiset of other endpoints of added edges, the edge matrix gives for each joined pair the index of the last edge added between them (and -1 for other pairs), and in hybrid mode the tree's probability is the average of the added edges' probabilities.", "quantifier": "every sequence of edges, both modes", "why_tests_cant": "the histories are unbounded in length and the memory shapes they reach are unboundedly many; a test fixes one history", "anchors": ["src/HybridSolver/main/data_structures/mst.c: create_mst, add_edge"]}
{"id": "C18", "title": "kruskal: validity flag is exact and a valid result is a spanning tree", "statement": "kruskal's result is flagged valid iff the graph is connected; its edges are edges of the graph, contain no cycle, and connect exactly the vertices connected in the graph.", "quantifier": "every graph, every weights, both modes", "why_tests_cant": "quantifies over all graphs", "anchors": ["src/HybridSolver/main/algorithms/kruskal.c: kruskal", "src/HybridSolver/main/data_structures/mfset.c"]}
{"id": "C19", "title": "kruskal: the spanning tree is minimum", "statement": "When kruskal's result is valid its cost is at most the weight of every spanning tree of the graph.", "quantifier": "every graph and every competing spanning tree", "why_tests_cant": "the competitors range over all spanning trees", "anchors": ["src/HybridSolver/main/algorithms/kruskal.c: kruskal, wrap_quick_sort"]}
{"id": "C20", "title": "prim: validity flag is exact and a valid result is a spanning tree", "statement": "prim's result is flagged valid iff the graph is connected, and a valid result's edges are graph edges forming a spanning tree.", "quantifier": "every graph, every weights", "why_tests_cant": "quantifies over all graphs and all heap tie-breaking orders", "anchors": ["src/HybridSolver/main/algorithms/prim.c: prim", "src/HybridSolver/main/data_structures/fibonacci_heap.c"]}
{"id": "C21", "title": "prim: the spanning tree is minimum", "statement": "When prim's result is valid its cost is at most the weight of every spanning tree of the graph (weights below DBL_MAX).", "quantifier": "every graph and every competing spanning tree", "why_tests_cant": "the competitors range over all spanning trees", "anchors": ["src/HybridSolver/main/algorithms/prim.c: prim", "src/HybridSolver/main/data_structures/fibonacci_heap.c"]}
{"id": "C22", "title": "prim and kruskal agree", "statement": "On every connected graph prim and kruskal return trees of the same cost, so the PRIM switch does not change any bound.", "quantifier": "every connected graph", "why_tests_cant": "quantifies over all graphs", "anchors": ["src/HybridSolver/main/algorithms/prim.c: prim", "src/HybridSolver/main/algorithms/kruskal.c: kruskal", "src/HybridSolver/main/problem_settings.h: PRIM"]}
{"id": "C23", "title": "Constrained MST respects forbidden edges and the candidate", "statement": "constrained_prim never puts a forbidden edge or an edge at the candidate node in the tree, and flags it valid iff the other nodes are connected through non-forbidden edges, in which case it is a spanning tree of them.", "quantifier": "every graph, candidate, constraint matrix", "why_tests_cant": "quantifies over all graphs and constraint sets", "anchors": ["src/HybridSolver/main/algorithms/branch_and_bound.c: constrained_prim"]}
{"id": "C24", "title": "Constrained MST contains every mandatory edge", "statement": "When the mandatory edges not at the candidate contain no cycle, the valid tree returned by constrained_prim contains all of them and is cheapest among the spanning trees that do.", "quantifier": "every graph (including the dual-reweighted one), candidate, constraint set", "why_tests_cant": "the weights fed in are dual-reweighted ones of any magnitude; tests use the unit square", "anchors": ["src/HybridSolver/main/algorithms/branch_and_bound.c: constrained_prim (weight = -num_nodes)"]}
{"id": "C25", "title": "constrained_kruskal computes the same constrained minimum", "statement": "constrained_kruskal returns, when valid, a spanning tree of the non-candidate nodes that contains all acyclic mandatory edges, no forbidden edge, and has minimum cost among those.", "quantifier": "every graph, candidate, constraint set, both modes", "why_tests_cant": "quantifies over all graphs and constraint sets", "anchors": ["src/HybridSolver/main/algorithms/branch_and_bound.c: constrained_kruskal"]}
{"id": "C26", "title": "The two candidate edges are the cheapest allowed ones", "statement": "mst_to_one_tree returns OPEN exactly when the candidate has at most two mandatory edges and at least two non-forbidden ones; it then adds all mandatory edges of the candidate and completes them with the cheapest allowed edges to exactly two distinct edges of minimum total weight.", "quantifier": "every graph, candidate, constraint matrix", "why_tests_cant": "quantifies over all graphs and constraint sets", "anchors": ["src/HybridSolver/main/algorithms/branch_and_bound.c: mst_to_one_tree"]}
{"id": "C27", "title": "mst_to_one_tree stays inside its two-element buffers", "statement": "mst_to_one_tree never writes outside the two-element arrays bestEdgesPos / bestEdgesWeight, whatever constraint matrix survived infer_constraints.", "quantifier": "every constraint matrix accepted by infer_constraints", "why_tests_cant": "the overflow needs a particular order of inferences", "anchors": ["src/HybridSolver/main/algorithms/branch_and_bound.c: mst_to_one_tree", "src/HybridSolver/main/algorithms/branch_and_bound.c: infer_constraints"]}
{"id": "C28", "title": "The 1-tree cost is a lower bound on every allowed tour", "statement": "For every subproblem, the cost of the 1-tree (constrained MST plus candidate edges) computed on the problem's graph is at most the cost of every tour that contains all mandatory and no forbidden edges.", "quantifier": "every graph with positive weights, candidate, constraint matrix, tour", "why_tests_cant": "quantifies over all tours", "anchors": ["src/HybridSolver/main/algorithms/branch_and_bound.c: constrained_prim", "src/HybridSolver/main/algorithms/branch_and_bound.c: mst_to_one_tree", "src/HybridSolver/main/algorithms/branch_and_bound.c: bound"]}
{"id": "C29", "title": "The Held-Karp dual value is a lower bound", "statement": "For every multiplier vector pi, the cost of the 1-tree computed on weights w(i,j)+pi_i+pi_j minus twice the sum of pi is at most the cost of every allowed tour, and when that 1-tree is itself a tour, no allowed tour is cheaper.", "quantifier": "every graph, pi, candidate, constraint matrix, tour", "why_tests_cant": "pi is real-valued and history dependent", "anchors": ["src/HybridSolver/main/algorithms/branch_and_bound.c: bound (current_lb, total_pi)"]}
{"id": "C30", "title": "check_hamiltonian is exact on 1-trees", "statement": "check_hamiltonian(sp) is true iff the edges of sp's 1-tree form a Hamiltonian cycle.", "quantifier": "every 1-tree on every number of nodes, every neighbour order", "why_tests_cant": "quantifies over all 1-trees", "anchors": ["src/HybridSolver/main/algorithms/branch_and_bound.c: check_hamiltonian, dfs"]}
{"id": "C31", "title": "dfs reports a genuine cycle through the candidate", "statement": "When dfs records cycle edges they are, in order, the edges of a simple cycle of length at least three through the candidate node using only edges of the subproblem's tree; it terminates on every tree/1-tree.", "quantifier": "every subproblem whose tree has symmetric neighbour lists", "why_tests_cant": "quantifies over all graphs and stack orders", "anchors": ["src/HybridSolver/main/algorithms/branch_and_bound.c: dfs"]}
{"id": "C32", "title": "infer_constraints loses no tour", "statement": "Every tour that contains all mandatory and no forbidden edges before infer_constraints still does afterwards.", "quantifier": "every symmetric constraint matrix on n >= 3 nodes, every tour", "why_tests_cant": "quantifies over all constraint matrices and tours", "anchors": ["src/HybridSolver/main/algorithms/branch_and_bound.c: infer_constraints"]}
{"id": "C33", "title": "infer_constraints rejects only infeasible subproblems", "statement": "When infer_constraints returns false no tour satisfies the subproblem's constraints.", "quantifier": "every symmetric constraint matrix on n >= 3 nodes", "why_tests_cant": "quantifies over all constraint matrices and tours", "anchors": ["src/HybridSolver/main/algorithms/branch_and_bound.c: infer_constraints"]}
{"id": "C34", "title": "Constraint bookkeeping stays consistent and in bounds", "statement": "initialize_matrix, copy_constraints, branch and infer_constraints keep the constraint matrix symmetric with a forbidden diagonal, record every mandatory edge of the matrix in the mandatoryEdges list, and never write more than MAX_VERTEX_NUM entries to that list.", "quantifier": "every sequence of branchings", "why_tests_cant": "depends on the order of inferences over the whole path in the search tree", "anchors": ["src/HybridSolver/main/algorithms/branch_and_bound.c: initialize_matrix, copy_constraints, infer_constraints, branch"]}
{"id": "C35", "title": "branch splits the tours of a subproblem in two", "statement": "Every tour allowed by the branched subproblem is allowed by exactly one of the two children before inference (the one requiring the branching edge if the tour uses it, the one forbidding it otherwise), a child that is dropped allows no tour, and every other child is put in the open list next to its sibling with the father's value, the child made first in front: in classic mode the one requiring the edge, in hybrid mode the one requiring it iff the edge's probability is at least PROB_BRANCH.", "quantifier": "every subproblem, branching edge, tour, open list, both modes", "why_tests_cant": "quantifies over all subproblems and tours", "anchors": ["src/HybridSolver/main/algorithms/branch_and_bound.c: branch"]}
{"id": "C36", "title": "Open list is best-first up to EPSILON", "statement": "In every reachable open list each subproblem's value is at most EPSILON larger than that of any subproblem behind it; in particular the next subproblem taken is within EPSILON of the smallest open value.", "quantifier": "every sequence of insertions and removals of the head, both modes", "why_tests_cant": "the comparison is not transitive, so sortedness must be proved over histories", "anchors": ["src/HybridSolver/main/algorithms/branch_and_bound.c: compare_subproblems, branch, branch_and_bound"]}
{"id": "C37", "title": "variable_fixing never removes an improving tour", "statement": "Every tour allowed before variable_fixing whose cost is below the current best value is still allowed afterwards.", "quantifier": "every subproblem produced by bound, every tour, positive weights", "why_tests_cant": "quantifies over all graphs, constraint sets and tours", "anchors": ["src/HybridSolver/main/algorithms/branch_and_bound.c: variable_fixing, max_edge_path_1Tree"]}
{"id": "C38", "title": "bound closes a subproblem only when it cannot improve by more than EPSILON", "statement": "When bound leaves a subproblem closed, every tour it allows costs at least the best value on return minus EPSILON.", "quantifier": "every subproblem, graph, best value, iteration at which it is closed", "why_tests_cant": "quantifies over all graphs, constraint sets, tours", "anchors": ["src/HybridSolver/main/algorithms/branch_and_bound.c: bound"]}
{"id": "C39", "title": "Nearest neighbour gives a tour on complete graphs", "statement": "On a complete graph with positive weights nearest_prob_neighbour from any start builds a Hamiltonian tour whose recorded value is the sum of its edge weights, and lowers the best value only to such a tour's value (hybrid: the better of the two heuristics).", "quantifier": "every complete graph, start node, both modes", "why_tests_cant": "quantifies over all graphs", "anchors": ["src/HybridSolver/main/algorithms/branch_and_bound.c: nearest_prob_neighbour"]}
{"id": "C40", "title": "The reported solution is a tour on every accepted graph", "statement": "For every graph that check_feasibility accepts and that has a tour, branch_and_bound's bestSolution is a Hamiltonian tour of the graph.", "quantifier": "every accepted graph, including incomplete ones (coincident cities give missing edges)", "why_tests_cant": "needs particular sparse graphs", "anchors": ["src/HybridSolver/main/algorithms/branch_and_bound.c: branch_and_bound, nearest_prob_neighbour, check_feasibility", "src/HybridSolver/main/tsp_instance_reader.c: read_tsp_csv_file (weight > 0)"]}
{"id": "C41", "title": "Best value and best solution always match, and only improve", "statement": "At every point of the run the best value equals the value stored in the best solution and equals the total weight of the recorded tour, and it never increases.", "quantifier": "every run, every interruption point", "why_tests_cant": "quantifies over all runs", "anchors": ["src/HybridSolver/main/algorithms/branch_and_bound.c: bound, nearest_prob_neighbour, branch_and_bound"]}
{"id": "C42", "title": "Interrupted runs still return a tour", "statement": "Whatever the clock does, when branch_and_bound returns on a complete positive graph, bestSolution is a Hamiltonian tour with cost bestValue, not worse than the best nearest-neighbour tour, and interrupted is set iff the time limit was seen at the end.", "quantifier": "every graph, every clock behaviour", "why_tests_cant": "the clock is an adversary", "anchors": ["src/HybridSolver/main/algorithms/branch_and_bound.c: branch_and_bound, time_limit_reached"]}
{"id": "C43", "title": "Uninterrupted runs are optimal up to EPSILON", "statement": "When branch_and_bound ends with an empty open list, the best value is at most EPSILON above the cost of every tour of the graph.", "quantifier": "every complete graph with positive weights (n = MAX_VERTEX_NUM >= 3), both modes", "why_tests_cant": "optimality quantifies over all tours", "anchors": ["src/HybridSolver/main/algorithms/branch_and_bound.c: branch_and_bound, bound, branch, variable_fixing"]}
{"id": "C44", "title": "branch_and_bound terminates", "statement": "The search ends after finitely many subproblems even without a time limit.", "quantifier": "every graph, every clock behaviour", "why_tests_cant": "termination is not testable", "anchors": ["src/HybridSolver/main/algorithms/branch_and_bound.c: branch_and_bound, branch, bound"]}
{"id": "C45", "title": "Search accounting is exact", "statement": "Subproblem ids are distinct, generatedBBNodes equals the number of subproblems created, exploredBBNodes never exceeds it, every child's fatherId is its parent's id and its level one more, and totTreeLevels is the deepest level created.", "quantifier": "every run", "why_tests_cant": "quantifies over all runs", "anchors": ["src/HybridSolver/main/algorithms/branch_and_bound.c: branch, bound, branch_and_bound"]}
{"id": "C46", "title": "check_feasibility accepts exactly the graphs of minimum degree two", "statement": "check_feasibility is true iff every node has at least two neighbours; in particular every graph it rejects has no tour.", "quantifier": "every graph", "why_tests_cant": "quantifies over all graphs", "anchors": ["src/HybridSolver/main/algorithms/branch_and_bound.c: check_feasibility"]}
{"id": "C47", "title": "Candidate node has the best 1-tree bound up to EPSILON", "statement": "find_candidate_node returns a node whose 1-tree cost is within EPSILON of the largest 1-tree cost over all candidate nodes (or node 0 if none exceeds EPSILON), in classic mode.", "quantifier": "every complete graph", "why_tests_cant": "the comparison is tolerance based, so maximality must be proved over the whole scan", "anchors": ["src/HybridSolver/main/algorithms/branch_and_bound.c: find_candidate_node, compare_candidate_node"]}
{"id": "C48", "title": "CSV reader builds the graph of the matrix", "statement": "For every n x n matrix file of (weight, probability) pairs, read_tsp_csv_file yields n nodes, exactly one edge per pair i<j with positive upper-triangle weight, in row-major order with consecutive symbols and positions, symmetric matrix entries, and in row i the neighbours j with positive entry; in classic mode all probabilities are zero.", "quantifier": "every matrix, both modes", "why_tests_cant": "quantifies over all files", "anchors": ["src/HybridSolver/main/tsp_instance_reader.c: read_tsp_csv_file"]}
{"id": "C49", "title": "What the Python driver writes is what the C reader reads", "statement": "Reading the CSV text produced for an instance by the Python driver gives back its number of cities, its coordinates and its distance matrix.", "quantifier": "every instance and every faithful number formatting", "why_tests_cant": "quantifies over all texts", "anchors": ["src/HybridSolver/main/HybridSolver.py: hybrid_solver, adjacency_matrix", "src/HybridSolver/main/tsp_instance_reader.c: read_tsp_csv_file"]}
{"id": "C50", "title": "TSPLIB reader accepts only EUC_2D instances", "statement": "read_tsp_lib_file continues past the header iff the header declares EDGE_WEIGHT_TYPE : EUC_2D.", "quantifier": "every file header", "why_tests_cant": "needs every header", "anchors": ["src/HybridSolver/main/tsp_instance_reader.c: read_tsp_lib_file (check_euc_2d)"]}
{"id": "C51", "title": "create_graph builds symmetric adjacency and exact cost", "statement": "create_graph from a node list and an edge list gives symmetric matrix entries, neighbour lists that contain exactly the other endpoints of the listed edges, edges in list order with positions 0..m-1, and cost equal to the sum of weights.", "quantifier": "every node list and edge list that fit", "why_tests_cant": "quantifies over all inputs", "anchors": ["src/HybridSolver/main/data_structures/graph.c: create_graph"]}
{"id": "C52", "title": "create_euclidean_graph is the complete graph", "statement": "create_euclidean_graph on n nodes gives exactly one edge for each pair of nodes, n(n-1)/2 in total with distinct consecutive symbols, for every n for which the 16-bit counters do not wrap.", "quantifier": "every n and coordinates", "why_tests_cant": "quantifies over all n", "anchors": ["src/HybridSolver/main/data_structures/graph.c: create_euclidean_graph"]}
{"id": "C53", "title": "The printed cycle is a closed walk along the tour", "statement": "For a stored tour of at least three edges print_subProblem prints each cycle edge once, oriented so that every printed edge starts where the previous one ended and the last one ends where the first started.", "quantifier": "every tour, every stored orientation of its edges", "why_tests_cant": "quantifies over all tours and orientations", "anchors": ["src/HybridSolver/main/algorithms/branch_and_bound.c: print_subProblem"]}
{"id": "C54", "title": "Neural-network output is folded onto the right cities", "statement": "When an instance is padded with dummy cities to the model size, write_adjacency_matrix addresses only existing entries of the current row and keeps, for each real pair, the largest probability among the real city and its dummies.", "quantifier": "every num_nodes < model_size used by the driver", "why_tests_cant": "the failing sizes are specific", "anchors": ["src/HybridSolver/main/graph-convnet-tsp/main.py: write_adjacency_matrix, add_dummy_cities", "src/HybridSolver/main/HybridSolver.py: hybrid_solver (model_size)"]}
{"id": "C55", "title": "Instance selection rejects missing instances", "statement": "get_instance raises its 'does not exist' error exactly for instance numbers that are not in the file, and the driver processes exactly the instances of the requested range.", "quantifier": "every file length, every requested range", "why_tests_cant": "boundary instance numbers", "anchors": ["src/HybridSolver/main/HybridSolver.py: get_instance, hybrid_solver"]}
{"id": "C56", "title": "TSPLIB reader keeps the file order", "statement": "For an accepted TSPLIB file, read_tsp_lib_file numbers the cities in the order of their lines, ignores the ids in the file and everything from the line with EOF on, and builds the complete graph on those cities.", "quantifier": "every accepted file with at most MAX_VERTEX_NUM cities", "why_tests_cant": "quantifies over all files", "anchors": ["src/HybridSolver/main/tsp_instance_reader.c: read_tsp_lib_file", "src/HybridSolver/main/data_structures/graph.c: create_euclidean_graph"]}
{"id": "C57", "title": "From the input file to the printed tour", "statement": "When the solver returns on a matrix file with symmetric positive distances, the cycle it prints is a tour of all cities of the file and the cost it prints is its length; if it reports that it was not interrupted, no tour is shorter by more than EPSILON; it always ends.", "quantifier": "every matrix file, both modes, every clock behaviour and memory content", "why_tests_cant": "quantifies over all files and executions", "anchors": ["src/HybridSolver/main/main.c: main", "src/HybridSolver/main/tsp_instance_reader.c: read_tsp_csv_file", "src/HybridSolver/main/algorithms/branch_and_bound.c: branch_and_bound, print_subProblem"]}
{"id": "C58", "title": "City numbers in the result file", "statement": "The numbers of the cities in the printed tour are their numbers in the list of cities of the same result file (and so their positions in the instance line).", "quantifier": "every instance size, every model size, every choice of medoids", "why_tests_cant": "depends on the clustering and only shows on instances larger than the model", "anchors": ["src/HybridSolver/main/HybridSolver.py: get_nodes, hybrid_solver", "src/HybridSolver/main/graph-convnet-tsp/main.py: write_adjacency_matrix"]}
{"id": "C59", "title": "Instances larger than the model keep all cities", "statement": "For an instance larger than the model, the written matrix is square, has every city of the instance exactly once, keeps the network's entries between medoids, and has for every other pair the distance with probability 0 in both directions.", "quantifier": "every instance with different cities, every set of medoids", "why_tests_cant": "quantifies over all instances and medoids", "anchors": ["src/HybridSolver/main/graph-convnet-tsp/main.py: write_adjacency_matrix"]}
{"id": "C60", "title": "Hybrid files are read back as written", "statement": "The file that the network driver writes, padded or clustered, is read by the solver as the complete graph on the cities of the instance with the written distances and probabilities.", "quantifier": "every instance (at most 362 cities), network output and number format that reads back", "why_tests_cant": "quantifies over all instances and texts", "anchors": ["src/HybridSolver/main/graph-convnet-tsp/main.py: write_adjacency_matrix", "src/HybridSolver/main/tsp_instance_reader.c: read_tsp_csv_file"]}
{"id": "C61", "title": "Instance lines are read as their cities", "statement": "A line of an instance file, 'x0 y0 x1 y1 ... output ...', with or without the output part and the newline, is taken as the cities with these coordinates in order; a line with an odd number of coordinates or a text that is not a number is rejected.", "quantifier": "every list of cities and every rest of the line", "why_tests_cant": "quantifies over all lines", "anchors": ["src/HybridSolver/main/HybridSolver.py: get_instance", "src/HybridSolver/main/graph-convnet-tsp/main.py: get_instance"]}
{"id": "C62", "title": "16-bit counters of the search do not wrap", "statement": "At every point of the main loop of branch_and_bound, with at most 361 cities, num_mandatory_edges, num_forbidden_edges and treeLevel of every subproblem and totTreeLevels stay below 65536: at most n mandatory edges, n(n+1)/2+1 forbidden ones and n(n-1)/2+1 levels.", "quantifier": "every complete instance with at most 361 cities, both modes, every clock and memory content, every state of the run", "why_tests_cant": "the bound holds over all search trees; a test sees only the ones it reaches", "anchors": ["src/HybridSolver/main/algorithms/branch_and_bound.c: branch, copy_constraints, infer_constraints, variable_fixing", "src/HybridSolver/main/data_structures/b_and_b_data.h: SubProblem, Problem"]}
{"id": "C63", "title": "The solver's linked lists: no dangling pointer, no leak", "statement": "Run on the actual linked list of open subproblems, branch_and_bound does exactly what it would do on a sequence: best-first insertion, reading and deleting the first element never dereference NULL or freed memory and never lose or reorder an element; when it returns, every cell allocated for the list has been freed. The same holds for the stack of dfs.", "quantifier": "every graph (complete or not), every weight, mode, clock behaviour and memory content, every length of the list", "why_tests_cant": "the list API has histories on which it breaks (C02, C03): that the solver never produces them is a statement about all runs", "anchors": ["src/HybridSolver/main/algorithms/branch_and_bound.c: branch, branch_and_bound, dfs", "src/HybridSolver/main/data_structures/b_and_b_data.c", "src/HybridSolver/main/data_structures/doubly_linked_list/list_functions.c"]}
{"id": "C64", "title": "The search stays inside its arrays", "statement": "A run of branch_and_bound on a complete graph never reads or writes outside an array, never dereferences NULL or freed memory and never uses an uninitialised variable.", "quantifier": "every complete instance, both modes, every clock and memory content", "why_tests_cant": "memory errors depend on the whole history of fixings and inferences in the search tree", "anchors": ["src/HybridSolver/main/algorithms/branch_and_bound.c: branch_and_bound, bound, branch, infer_constraints, variable_fixing, mst_to_one_tree", "src/HybridSolver/main/data_structures/fibonacci_heap.c: consolidate"]}
{"id": "C65", "title": "Rule for the branching edge", "statement": "When bound leaves a subproblem open, the edge to branch on is an undecided edge of the retained 1-tree whose frequency in the last ten 1-trees is closest to one half; in hybrid mode ties go to the larger probability, then to the first edge. The retained 1-tree is the first one, or the one of largest value not above the best lower bound. No edge is chosen only if every edge of the retained 1-tree is decided.", "quantifier": "every complete instance, every subproblem, both modes", "why_tests_cant": "quantifies over all sequences of 1-trees the subgradient loop can produce", "anchors": ["src/HybridSolver/main/algorithms/branch_and_bound.c: bound"]}
{"id": "C66", "title": "The CPLEX program is a correct TSP formulation", "statement": "For two or more cities the feasible solutions of TSPmtz.mod are exactly the tours of all the cities (no subtours), every tour is feasible with its length as objective, an optimal solution exists, and when no diagonal cost is negative the optimal value is the length of a shortest tour; a single city is infeasible.", "quantifier": "every number of cities, every (possibly asymmetric) cost matrix over any ordered field, every feasible assignment", "why_tests_cant": "quantifies over all cost matrices and all feasible real-valued assignments", "anchors": ["src/CplexSolver/TSPmtz.mod"]}
{"id": "C67", "title": "What the CPLEX program prints is a shortest tour", "statement": "The lines 'i ---> j' printed after an optimal run of TSPmtz.mod are the legs of a shortest tour, each once.", "quantifier": "every cost matrix, every optimal solution the solver may return", "why_tests_cant": "CPLEX may return any of the optimal solutions; a run shows one", "anchors": ["src/CplexSolver/TSPmtz.mod"]}
{"id": "C68", "title": "Converted instances are faithful", "statement": "For a .tsp file with header lines, NODE_COORD_SECTION, lines 'number x y' and a trailer, the converter writes the number of cities and the square matrix of the distances in the order of the file; the matrix is symmetric with zero diagonal, so the CPLEX optimum on it is the length of a shortest tour of the cities.", "quantifier": "every such file, every white space between fields", "why_tests_cant": "quantifies over all files", "anchors": ["src/CplexSolver/Data/converter_tsp_to_dat.py: convert_custom_euclidean", "src/CplexSolver/TSPmtz.mod"]}
{"id": "C69", "title": "Tour helpers: matrix, length and validity agree", "statement": "For every tour, tour_nodes_to_W returns the adjacency matrix of its edges and tour_nodes_to_tour_len its length (two or more cities); for three or more cities W_to_tour_len of that matrix is the same length; is_valid_tour accepts exactly the tours of all the cities.", "quantifier": "every tour, every symmetric distance matrix, every list of nodes", "why_tests_cant": "quantifies over all tours and matrices", "anchors": ["src/HybridSolver/main/graph-convnet-tsp/utils/graph_utils.py: tour_nodes_to_W, tour_nodes_to_tour_len, W_to_tour_len, is_valid_tour"]}
{"id": "C70", "title": "Mean tour length of a batch", "statement": "mean_tour_len_nodes returns the mean of the lengths of the tours of a batch.", "quantifier": "every non-empty batch of tours and distance matrices", "why_tests_cant": "quantifies over all batches and starting cities", "anchors": ["src/HybridSolver/main/graph-convnet-tsp/utils/graph_utils.py: mean_tour_len_nodes"]}
{"id": "C71", "title": "Data lines are read back as generated", "statement": "A line that the data generator writes for a set of cities and a tour is read by GoogleTSPReader as exactly these cities, this tour, the adjacency matrix of its edges, the position of each city in it, its length and the neighbour graph with 2 on the diagonal; of a line that the driver writes the cities are read exactly.", "quantifier": "every list of cities, every tour, every number format that reads back, every neighbour graph", "why_tests_cant": "quantifies over all instances and tours", "anchors": ["src/HybridSolver/main/graph-convnet-tsp/utils/google_tsp_reader.py: process_batch", "src/HybridSolver/main/graph-convnet-tsp/data/generate_tsp_concorde.py", "src/HybridSolver/main/graph-convnet-tsp/main.py: add_dummy_cities, fix_instance_size"]}
{"id": "C72", "title": "The network is run on the requested instance", "statement": "Mini-batches have the requested size and are, together, the shuffled lines in order except for fewer lines than one mini-batch; whatever the shuffle does, compute_prob runs the network on the cities of the first line of the file.", "quantifier": "every file, every permutation of its lines, every batch size", "why_tests_cant": "the reader shuffles with a random order on every run", "anchors": ["src/HybridSolver/main/graph-convnet-tsp/utils/google_tsp_reader.py: __iter__", "src/HybridSolver/main/graph-convnet-tsp/main.py: compute_prob"]}
{"id": "C73", "title": "The train/validation split is a partition", "statement": "split_train_val writes every line of the data set to exactly one of the two files, in order, for every value of val_size, and the validation file has val_size lines when there are that many.", "quantifier": "every data set and every integer val_size", "why_tests_cant": "quantifies over all files and sizes", "anchors": ["src/HybridSolver/main/graph-convnet-tsp/data/split_train_val.py"]}
{"id": "C74", "title": "Beam search returns tours", "statement": "For every matrix of positive edge probabilities, every beam width and all starting nodes, beamsearch_tour_nodes returns a tour that visits every node once and starts at the first starting node.", "quantifier": "every number of nodes from two, every beam width, every probability matrix (raw or logarithmic), every implementation of topk", "why_tests_cant": "the result depends on the ties that topk breaks in any way; tests see one", "anchors": ["src/HybridSolver/main/graph-convnet-tsp/utils/beamsearch.py: Beamsearch.advance, update_mask, get_hypothesis", "src/HybridSolver/main/graph-convnet-tsp/utils/model_utils.py: beamsearch_tour_nodes"]}
{"id": "C75", "title": "The shortest hypothesis is the best tour of the beam", "statement": "beamsearch_tour_nodes_shortest returns a tour of all the nodes that is no longer than the one beamsearch_tour_nodes returns, and no longer than any other tour held by the beam.", "quantifier": "every number of nodes from two, every beam width, every positive probability matrix, every distance matrix", "why_tests_cant": "the beam also holds lists that are no tours, which the function must skip", "anchors": ["src/HybridSolver/main/graph-convnet-tsp/utils/model_utils.py: beamsearch_tour_nodes_shortest", "src/HybridSolver/main/graph-convnet-tsp/utils/graph_utils.py: is_valid_tour, tour_nodes_to_tour_len"]}
{"id": "C76", "title": "A wide beam is exact", "statement": "With a beam of at least (n-1)! positions beamsearch_tour_nodes returns a most probable order of the nodes from its starting node.", "quantifier": "every number of nodes from two, every positive probability matrix, every implementation of topk", "why_tests_cant": "quantifies over all orders of the nodes", "anchors": ["src/HybridSolver/main/graph-convnet-tsp/utils/beamsearch.py: Beamsearch.advance", "src/HybridSolver/main/graph-convnet-tsp/utils/model_utils.py: beamsearch_tour_nodes"]}
{"id": "C77", "title": "The cumulative profile is a cumulative distribution", "statement": "The table of cumulative_profile has one row for each time at which the last best value of a resolved run of a common instance was found, in increasing order; its numbers are the fractions of the common instances resolved with a last best value found by then, never decrease, lie in [0, 1] and end at the fractions of resolved instances.", "quantifier": "every two sets of runs with a common instance", "why_tests_cant": "quantifies over all logs; plots are judged by eye", "anchors": ["src/HybridSolver/results/AdjacencyMatrix/analyzer.py: cumulative_profile"]}
{"id": "C78", "title": "The improvement profile compares the two solvers", "statement": "In each row of improvement_profile the first number is the fraction of instances on which the hybrid solver has a better solution at that time, the second the fraction on which the classic solver has a better one.", "quantifier": "every two sets of runs, every time", "why_tests_cant": "quantifies over all logs and times; the early times need values that do not exist", "anchors": ["src/HybridSolver/results/AdjacencyMatrix/analyzer.py: improvement_profile"]}
{"id": "C79", "title": "Statistics of the result files", "statement": "read_values reports the fraction of uninterrupted runs and, among them, the fraction of each type of solution (which sum to 1), lists the interrupted instances, and gives every instance a log with at least one partial solution, so that the cumulative profile is computed without an exception.", "quantifier": "every directory of result files with an uninterrupted run", "why_tests_cant": "quantifies over all directories", "anchors": ["src/HybridSolver/results/AdjacencyMatrix/analyzer.py: read_values, cumulative_profile"]}
{"id": "C80", "title": "The result does not depend on uninitialised memory", "statement": "Two runs of branch_and_bound on the same problem with the same clock end with the same fault or with the same solution, best value, counters and open subproblems, whatever the memory of their local variables and heap contained before.", "quantifier": "every stored graph with MAX_VERTEX_NUM nodes, every clock, every two contents of the memory", "why_tests_cant": "uninitialised contents cannot be enumerated; a test sees one", "anchors": ["src/HybridSolver/main/algorithms/branch_and_bound.c: branch_and_bound, find_candidate_node, bound, branch, variable_fixing, constrained_prim", "src/HybridSolver/main/data_structures/fibonacci_heap.c", "src/HybridSolver/main/data_structures/mst.c: create_mst"]}
{"id": "C81", "title": "More time never gives a worse answer", "statement": "If a second run of branch_and_bound on the same problem is stopped by the clock no earlier than the first, its reported length is at most that of the first and its counters are at least as large; if the first run had exhausted the open list, both report the same solution and counters; a fault of the first run is a fault of the second.", "quantifier": "every stored graph with MAX_VERTEX_NUM nodes, every two clocks of which one strikes no earlier, every memory contents", "why_tests_cant": "quantifies over all interruption points", "anchors": ["src/HybridSolver/main/algorithms/branch_and_bound.c: branch_and_bound, time_limit_reached, bound, branch"]}
{"id": "C82", "title": "The analyzer reads back what the solver prints", "statement": "For every run that ends with a solution, the searches of the analyzer in the result file that the solver and the driver wrote find the instance, whether the run was interrupted, the cost, the three times and all the improvements in order, and for an uninterrupted run the counters and the level, probability and number of the solution: real numbers with six decimals, the others exact. On a directory of such files and others, read_values succeeds if one run was not interrupted, reports the fraction of uninterrupted runs and lists the interrupted instances.", "quantifier": "every ended run with non-negative lengths and times, whatever the numbers; every directory", "why_tests_cant": "quantifies over all the numbers that can be printed; a pattern may match in another place of the text", "anchors": ["src/HybridSolver/main/algorithms/branch_and_bound.c: print_subProblem, print_problem", "src/HybridSolver/main/HybridSolver.py: hybrid_solver", "src/HybridSolver/results/AdjacencyMatrix/analyzer.py: read_values"]}
{"id": "C83", "title": "The classes of solutions in the statistics are right", "statement": "Among the uninterrupted runs, the analyzer counts each solution in the class (nearest neighbour, hybrid nearest neighbour, 1-tree, subgradient) in which the solver found it.", "quantifier": "every directory of result files", "why_tests_cant": "quantifies over all directories and all kinds of solutions", "anchors": ["src/HybridSolver/main/algorithms/branch_and_bound.c: print_subProblem", "src/HybridSolver/results/AdjacencyMatrix/analyzer.py: read_values"]}
{"id": "C84", "title": "Renumbering the cities renumbers the predictions", "statement": "If the cities of an instance are given in another order, the network predicts for every pair of cities the same probability as before, and the loss does not change; starting from the cities themselves, when no two cities are at the same distance from a third or the input graph is fully connected.", "quantifier": "every network (any weights, number of layers, aggregation), every instance, every permutation, every way to break the choice of neighbours", "why_tests_cant": "quantifies over all weights and permutations", "anchors": ["src/HybridSolver/main/graph-convnet-tsp/models/gcn_layers.py", "src/HybridSolver/main/graph-convnet-tsp/models/gcn_model.py: forward", "src/HybridSolver/main/graph-convnet-tsp/utils/model_utils.py: loss_edges", "src/HybridSolver/main/graph-convnet-tsp/utils/google_tsp_reader.py: process_batch"]}
{"id": "C85", "title": "The probability of an edge has no direction", "statement": "The network gives the pairs (i, j) and (j, i) the same probability, so that it does not matter which of the two the solver reads from the matrix file.", "quantifier": "every network and every instance", "why_tests_cant": "quantifies over all weights and instances", "anchors": ["src/HybridSolver/main/graph-convnet-tsp/models/gcn_layers.py: EdgeFeatures", "src/HybridSolver/main/graph-convnet-tsp/models/gcn_model.py: forward", "src/HybridSolver/main/graph-convnet-tsp/utils/google_tsp_reader.py: process_batch"]}
{"id": "C86", "title": "Predictions are probabilities", "statement": "For all weights and inputs the value written for an edge is greater than 0 and less than 1, the two classes sum to 1, and edges are ordered by it as by the scores of the network.", "quantifier": "every network and every instance (real numbers)", "why_tests_cant": "quantifies over all weights", "anchors": ["src/HybridSolver/main/graph-convnet-tsp/models/gcn_model.py: forward", "src/HybridSolver/main/graph-convnet-tsp/main.py: compute_prob"]}
{"id": "C87", "title": "Predictions do not depend on the other instances of the mini-batch", "statement": "The network predicts the same for an instance in every mini-batch that contains it.", "quantifier": "every network, every mini-batch", "why_tests_cant": "quantifies over all weights and mini-batches", "anchors": ["src/HybridSolver/main/graph-convnet-tsp/models/gcn_layers.py: BatchNormNode, BatchNormEdge"]}
{"id": "C88", "title": "The balanced loss weighs the two classes equally", "statement": "With the class weights of compute_class_weight the loss is the mean over the two classes of the mean of -log(probability of the right class) over the labels of the class, and it is positive.", "quantifier": "all predictions and all labels in which both classes occur", "why_tests_cant": "quantifies over all predictions", "anchors": ["src/HybridSolver/main/graph-convnet-tsp/utils/model_utils.py: loss_edges", "src/HybridSolver/main/graph-convnet-tsp/main.py: compute_prob"]}
{"id": "C89", "title": "The error metrics are the percentages of wrong predictions", "statement": "edge_error returns the mean percentages of wrong predictions among the connected edges, among the edges of the tours, and among the edges that are in the tour or predicted; the last is 0 exactly if everything is right, and the flags mark exactly the instances with an error; an edge is predicted if its probability exceeds one half.", "quantifier": "all predictions, targets and input graphs", "why_tests_cant": "quantifies over all predictions", "anchors": ["src/HybridSolver/main/graph-convnet-tsp/utils/model_utils.py: edge_error, _edge_error"]}
{"id": "C90", "title": "Every result file is about its own instance", "statement": "When a run of the driver over a range ends normally, for every instance of the range the matrix file is a matrix of the cities of that instance and the result file is the output of the program built for this size and mode on this matrix, followed by the cities of the instance and the time; the temporary file is gone and no other file has changed. The run ends always, and it ends with an exception only if the build or the network failed or an instance of the range is missing or malformed.", "quantifier": "every range of instances, both modes, every behaviour of the network and the solver (also crashes), every disk before the run, every division of writes into pieces", "why_tests_cant": "quantifies over all interleavings of disk operations and all old contents of the disk", "anchors": ["src/HybridSolver/main/HybridSolver.py: hybrid_solver, get_instance, build_c_program", "src/HybridSolver/main/graph-convnet-tsp/main.py", "src/HybridSolver/main/src/main.c: main"]}
{"id": "C91", "title": "A run that is stopped at any moment does no harm and can be repeated", "statement": "If the driver is killed at any moment, some first instances of the range are solved as in a run that ended, the result file of the next is the old one or the beginning of the right new one, the others are untouched and no other file than the matrix and temporary files has changed; a run repeated afterwards, with any range and in either mode, leaves what a first run would leave.", "quantifier": "every crash point (also within a write), every range, both modes", "why_tests_cant": "quantifies over all crash points", "anchors": ["src/HybridSolver/main/HybridSolver.py: hybrid_solver", "src/HybridSolver/main/graph-convnet-tsp/main.py"]}
{"id": "C92", "title": "Drivers for different instances can run at the same time", "statement": "Drivers started in the same checkout for different instances (any size, either mode) do not disturb one another: each leaves what it would leave alone.", "quantifier": "every number of drivers, every schedule of their disk operations", "why_tests_cant": "quantifies over all schedules", "anchors": ["src/HybridSolver/main/HybridSolver.py: hybrid_solver, build_c_program", "src/HybridSolver/main/graph-convnet-tsp/main.py"]}
{"id": "C93", "title": "From the file of instances to the numbers of the analyzer", "statement": "When a classic run of the driver has ended and the solver did not crash, the analyzer reads from the result file of an instance its number, the length (to six decimals) of a tour of the cities of that line of the file of instances, which the legs printed in the file describe, and whether the run was interrupted; if it was not, no tour is shorter by more than EPSILON (14 or more cities at distances of at most 3/2).", "quantifier": "every file of instances, every range, every instance of 3 to 362 different cities", "why_tests_cant": "an end-to-end property over all instances; it crosses two languages and three file formats", "anchors": ["src/HybridSolver/main/HybridSolver.py: hybrid_solver", "src/HybridSolver/main/src/main.c: main", "src/HybridSolver/main/algorithms/branch_and_bound.c: branch_and_bound, print_problem", "src/HybridSolver/results/AdjacencyMatrix/analyzer.py: read_values"]}
{"id": "C94", "title": "The printed cost is the length of the printed tour up to rounding", "statement": "Whatever rounding the machine's arithmetic uses (monotone, exact on the numbers of the format, relative error at most u), the cost printed for n cities differs from the exact length of the printed tour by at most (1+u)^n - 1 times that length; with rounding to the nearest and up to 362 cities by less than one part in 10^13.", "quantifier": "every rounding, every matrix file of 3 to 362 cities, both modes, interrupted or not", "why_tests_cant": "quantifies over all instances and roundings; tests see one machine", "anchors": ["src/HybridSolver/main/src/main.c: main", "src/HybridSolver/main/algorithms/branch_and_bound.c: branch_and_bound, print_problem", "src/HybridSolver/main/algorithms/mst.c: add_edge"]}
{"id": "C95", "title": "Optimality survives the rounding of the machine", "statement": "When the program reports that it was not interrupted, the tour it prints is at most EPSILON plus an explicit bound on all rounding errors longer than any other tour: with rounding to the nearest, EPSILON + 0.0005 for 14 to 362 cities with distances of at most 3/2 (such as cities in the unit square), EPSILON + 0.000002 for up to 100 cities.", "quantifier": "every such matrix file whose distances are doubles, every rounding with relative error at most 2^-52, both modes, every clock that does not run backwards", "why_tests_cant": "quantifies over all instances and roundings, and over the errors of every step of the dual ascent; a test cannot know the optimum to this accuracy", "anchors": ["src/HybridSolver/main/src/main.c: main", "src/HybridSolver/main/algorithms/branch_and_bound.c: branch_and_bound, bound, dual_procedure, variable_fixing, constrained_prim"]}
{"id": "C96", "title": "From the file of instances to the analyzer, in hybrid mode and on a machine", "statement": "When a hybrid run of the driver has ended, the solver did not crash and the network's file contains the distances of the cities up to e, the analyzer reads from the result file of an instance its number, the length (to six decimals) of a tour of the cities of that line of the file of instances, which the legs printed in the file describe, and whether it was interrupted; if it was not, no tour is shorter by more than EPSILON plus the explicit rounding loss (plus what e makes of 2n distances). The same holds for classic runs with the rounding of the machine.", "quantifier": "every file of instances, every range, every network and probabilities, every rounding with relative error at most 2^-52", "why_tests_cant": "an end-to-end property over all instances, all outputs of the network and all roundings", "anchors": ["src/HybridSolver/main/HybridSolver.py: hybrid_solver", "src/HybridSolver/main/graph-convnet-tsp/main.py: compute_prob, write_adjacency_matrix", "src/HybridSolver/main/src/main.c: main", "src/HybridSolver/main/algorithms/branch_and_bound.c: branch_and_bound", "src/HybridSolver/results/AdjacencyMatrix/analyzer.py: read_values"]}
{"id": "C97", "title": "The tables show the numbers of the right row, size and solver", "statement": "create_tables writes two tables in which every placeholder is replaced by the value for its row, its size and its solver, with two decimals; the smaller mean is in bold, and underlined if the p-value is below 5 %; no placeholder is left and no placeholder is replaced inside another one.", "quantifier": "all files of means with all rows, whatever their numbers and spacing", "why_tests_cant": "quantifies over all numbers and layouts; whether a name of a placeholder occurs in another one shows only in the finished table", "anchors": ["src/HybridSolver/results/AdjacencyMatrix/analyzer.py: create_tables, modify_string"]}
{"id": "C98", "title": "The means compare the two solvers on the same instances", "statement": "Every row of the file of means is about exactly the instances that both solvers solved without interruption, each once: means and confidence intervals of both solvers are those of the values in the result files of these instances, and the test gets the values of an instance at the same position. Neither the order in which Python iterates over a set nor the order in which the files are listed changes a row.", "quantifier": "all directories of result files, every iteration order of the sets, every listing order of the files", "why_tests_cant": "quantifies over iteration orders, which a test cannot control, and over all directories", "anchors": ["src/HybridSolver/results/AdjacencyMatrix/analyzer.py: read_values, significance_test, analyze"]}
{"id": "C99", "title": "Padding with dummy cities keeps the instance and ends", "statement": "When an instance is smaller than the network, the driver gives the network the cities of the instance, unchanged and in their order, and then copies of them in turn, moved by at most 9e-15 in each coordinate, each different from every city before it; the reader of the network gets exactly these cities from the file; and the padding ends.", "quantifier": "every instance of 3 or more cities and every size of the network up to 256, every sequence of random draws, every rounding", "why_tests_cant": "quantifies over all random draws, and termination of a rejection loop cannot be tested", "anchors": ["src/HybridSolver/main/graph-convnet-tsp/main.py: add_dummy_cities, get_instance", "src/HybridSolver/main/graph-convnet-tsp/utils/google_tsp_reader.py: process_batch"]}
{"id": "C100", "title": "Printing a graph or a tree stays within its buffers", "statement": "print_graph, print_mst and print_mst_original_weight print every edge as `src <--> dest`, in order, and write to no memory outside their buffers, whatever the number of nodes.", "quantifier": "every number of nodes, every list of edges, every error of the logarithms", "why_tests_cant": "quantifies over all sizes; a write one character past a local array usually goes unnoticed in a test", "anchors": ["src/HybridSolver/main/data_structures/graph.c: print_graph", "src/HybridSolver/main/data_structures/mst.c: print_mst, print_mst_original_weight"]}
{"id": "C101", "title": "The reference tours are shortest tours, and the reported value is the tour's length", "statement": "The reference values that the project compares its solvers with come from Concorde: for every line in the format of the data sets, the reference solver reads exactly its cities, the tour it takes is a shortest tour of these cities (for the Euclidean distance, which the network and the branch-and-bound use), and the value it reports is the Euclidean length of this tour.", "quantifier": "every list of cities, every text of them, every tour that Concorde may return for the distance it is given", "why_tests_cant": "a test compares with another solver on a few random instances; that a tour is shortest must hold for every instance, and the distance given to Concorde decides it", "anchors": ["src/HybridSolver/main/graph-convnet-tsp/data/pyconcorde_solver.py: create_instances, run", "src/HybridSolver/main/graph-convnet-tsp/data/generate_tsp_concorde.py"]}
{"id": "C102", "title": "From the result files to the tables", "statement": "If the files of means of the six sizes were written by analyze from directories of result files of hybrid and classic runs, every line of them is read back as the row and the columns that were meant, and create_tables writes two tables in which every placeholder shows, for its row, its size and its solver, the percentage of all runs or the mean and the interval over the instances of that size that both solvers solved.", "quantifier": "all directories of result files, every layout and number format of the printed frames (widths, decimals) made of the characters of numbers, every iteration order", "why_tests_cant": "an end-to-end property of two programs that communicate by a text file that is searched for substrings, over all its contents", "anchors": ["src/HybridSolver/results/AdjacencyMatrix/analyzer.py: analyze, create_tables, modify_string"]}
{"id": "C103", "title": "The number of neighbours that keeps all tours", "statement": "get_max_k returns the least number of neighbours for which every edge of every given tour of the data set joins a city to one of its nearest cities: a graph built with this number of neighbours contains all the tours.", "quantifier": "every data set, every mini-batch size and number of rounds, every order of equal distances", "why_tests_cant": "quantifies over all data sets; a test on a file of one mini-batch cannot show that the others are ignored", "anchors": ["src/HybridSolver/main/graph-convnet-tsp/utils/graph_utils.py: get_max_k", "src/HybridSolver/main/graph-convnet-tsp/utils/google_tsp_reader.py: __iter__"]}
{"id": "C104", "title": "The length of predicted edges", "statement": "mean_tour_len_edges returns the mean over the mini-batch of half the sum of the distances over the predicted directed edges; if the predicted edges of every instance are those of a tour of three or more cities, this is the mean of the lengths of the tours.", "quantifier": "every mini-batch, every distances, all scores of the network", "why_tests_cant": "quantifies over all scores and sizes; a test with one symmetric example does not show which edges are counted", "anchors": ["src/HybridSolver/main/graph-convnet-tsp/utils/graph_utils.py: mean_tour_len_edges"]}
{"id": "C105", "title": "The network is run on a set of cities of its own size, with its own settings", "statement": "For an instance of n cities and a network for m cities, the network program runs the network on m cities: the cities of the instance, followed by dummies if there are fewer than m, or medoids if there are more. It uses the weights of the experiment that the settings of this network name, the number of neighbours of these settings, and for every other setting the value in the network's own file, or the default if the file does not have the setting.", "quantifier": "all instances, networks, settings files (also with settings that are missing or given twice), results of the clustering, random draws and orders of the lines in the reader", "why_tests_cant": "The tests run no Python code; a wrong size or setting shows only for some combinations of n and m, or as worse predictions.", "anchors": ["src/HybridSolver/main/graph-convnet-tsp/main.py: main, fix_instance_size, cluster_nodes, get_instance, compute_prob", "src/HybridSolver/main/graph-convnet-tsp/config.py: Settings, get_default_config, get_config"]}
