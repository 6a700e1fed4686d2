{"id": "C01", "title": "Undirected reachability with forbidden nodes is exact", "statement": "UndirectedGraph.is_reachable(start, end, forbidden) always terminates and returns True exactly when start = end or there is a path of edges from start to end all of whose nodes after start (end included) lie outside the forbidden set.", "quantifier": "every undirected graph, every start/end node, every forbidden set, every order in which Python iterates over sets", "why_tests_cant": "The search passes a growing visited-set through a loop of recursive calls; whether a path is lost depends on graph shape and on set iteration order, an unbounded space.", "anchors": [{"file": "graphical_models/undirected_graph.py", "symbols": ["UndirectedGraph.is_reachable"]}]}
{"id": "C02", "title": "Ancestor query is exact on every directed graph", "statement": "DAG.is_ancestor(descendant, tested) always terminates (even if the edges contain cycles) and returns True exactly when there is a directed path of length zero or more from tested to descendant.", "quantifier": "every directed graph (cyclic or not) built through the API, every node pair, every set iteration order", "why_tests_cant": "Requires all graphs and all stack/iteration orders; termination on cyclic input cannot be observed by finitely many runs.", "anchors": [{"file": "graphical_models/dag.py", "symbols": ["DAG.is_ancestor"]}]}
{"id": "C03", "title": "Recursive and iterative ancestor queries agree on acyclic graphs", "statement": "On every acyclic graph DAG.is_ancestor_recursive terminates and returns the same answer as DAG.is_ancestor (the documented functional equivalence). On a cyclic graph the equivalence fails: there is a graph on which the recursive version never returns while the iterative one does.", "quantifier": "every acyclic graph, every node pair, every set iteration order (and one cyclic witness for the negative part)", "why_tests_cant": "Equivalence of two implementations over all graphs; the failure is a non-termination, which a test cannot observe.", "anchors": [{"file": "graphical_models/dag.py", "symbols": ["DAG.is_ancestor_recursive", "DAG.is_ancestor"]}]}
{"id": "C04", "title": "Acyclicity test is exact", "statement": "DAG.is_acyclic() returns True exactly when no node has a directed path of positive length back to itself (self loops included).", "quantifier": "every directed graph, every set iteration order", "why_tests_cant": "Universal over graphs; cycles may have any length.", "anchors": [{"file": "graphical_models/dag.py", "symbols": ["DAG.is_acyclic", "DAG.is_ancestor"]}]}
{"id": "C05", "title": "get_ancestors returns exactly the reflexive ancestors", "statement": "DAG.get_ancestors(node) terminates and returns exactly the set of nodes with a directed path of length zero or more to node, although every recursive call searches in a candidate set from which sibling parents were removed.", "quantifier": "every directed graph (cyclic or not), every node, every set iteration order", "why_tests_cant": "The shrinking candidate set could lose ancestors only on particular graph shapes.", "anchors": [{"file": "graphical_models/dag.py", "symbols": ["DAG.get_ancestors"]}]}
{"id": "C06", "title": "d-separation query equals path-based d-separation", "statement": "For every acyclic graph and distinct nodes i, j outside Z, DAG.dsep(i, j, Z) returns True exactly when every simple path between i and j is blocked by Z: some interior non-collider of the path is in Z, or some interior collider has no descendant (reflexively) in Z.", "quantifier": "every DAG, every pair of distinct nodes, every conditioning set not containing them, every set iteration order", "why_tests_cant": "The code decides by moralised ancestral graphs; its agreement with the path definition is a theorem over all graphs.", "anchors": [{"file": "graphical_models/dag.py", "symbols": ["DAG.dsep", "DAG.get_ancestors"]}, {"file": "graphical_models/undirected_graph.py", "symbols": ["UndirectedGraph.is_reachable"]}]}
{"id": "C07", "title": "d-separation query is symmetric; conditioning on an endpoint breaks symmetry", "statement": "For i, j outside Z, dsep(i,j,Z) = dsep(j,i,Z). If an endpoint may be in Z this fails: there is a DAG and Z containing i with dsep(i,j,Z) different from dsep(j,i,Z).", "quantifier": "every DAG, i, j, Z with i, j not in Z, and every pair of iteration orders; one witness for the negative part", "why_tests_cant": "Universal over graphs.", "anchors": [{"file": "graphical_models/dag.py", "symbols": ["DAG.dsep"]}, {"file": "causal_discovery_utils/cond_indep_tests.py", "symbols": ["DSep.cond_indep", "CacheCI"]}]}
{"id": "C08", "title": "d-separation agrees with adjacency (pairwise and local Markov)", "statement": "In every acyclic graph: adjacent nodes are never reported d-separated by any set not containing them; and every non-adjacent pair (i,j) with j not a descendant of i is reported d-separated by the parents of i.", "quantifier": "every DAG, every pair of nodes, every conditioning set", "why_tests_cant": "Needed for constraint-based discovery to be possible at all; universal over graphs and sets.", "anchors": [{"file": "graphical_models/dag.py", "symbols": ["DAG.dsep", "DAG.parents", "DAG.is_connected"]}]}
{"id": "C09", "title": "Topological order groups are correct, and the assertion fails exactly on cycles", "statement": "On every acyclic graph DAG.find_topological_order_groups() terminates without assertion error and returns disjoint non-empty groups covering all nodes such that each edge goes from a strictly earlier group to a later one; on a cyclic graph it raises AssertionError.", "quantifier": "every directed graph, every set iteration order", "why_tests_cant": "Universal over graphs.", "anchors": [{"file": "graphical_models/dag.py", "symbols": ["DAG.find_topological_order", "DAG.find_topological_order_groups"]}]}
{"id": "C10", "title": "DAG connectivity test is exact", "statement": "DAG.is_graph_connected(nodes) terminates and returns True exactly when the induced subgraph on nodes is connected ignoring directions, for every node set of size at least two (it raises AssertionError on smaller sets).", "quantifier": "every directed graph, every subset of at least two nodes, every pop order", "why_tests_cant": "Source has a ToDo asking to check correctness; depends on arbitrary pop order.", "anchors": [{"file": "graphical_models/dag.py", "symbols": ["DAG.is_graph_connected"]}]}
{"id": "C11", "title": "DAG adjacency matrix round trip and partial node lists", "statement": "get_adj_mat followed by init_from_adj_mat with the same node order reproduces the graph, and entry [a,b] is 1 exactly if a is a parent of b. The documented use with a partial node list fails: it raises KeyError exactly if a listed node has an unlisted parent.", "quantifier": "every directed graph, every duplicate-free node order", "why_tests_cant": "Universal over graphs and orders.", "anchors": [{"file": "graphical_models/dag.py", "symbols": ["DAG.get_adj_mat", "DAG.init_from_adj_mat", "DAG.add_edges"]}]}
{"id": "C12", "title": "disconnect_node raises on every node that has a neighbour", "statement": "UndirectedGraph.disconnect_node(v) is meant to remove every edge at v. It does so without error only if v is already isolated; for every node with at least one neighbour it raises RuntimeError (set changed size during iteration) after removing exactly one edge.", "quantifier": "every undirected graph, every node", "why_tests_cant": "Shows the failure is for all inputs, not for a sampled one.", "anchors": [{"file": "graphical_models/undirected_graph.py", "symbols": ["UndirectedGraph.disconnect_node"]}]}
{"id": "C13", "title": "DAG to CPDAG keeps skeleton and v-structures", "statement": "DAG.convert_to_cpdag raises ValueError exactly on cyclic graphs; on acyclic ones it terminates and the resulting PDAG has the DAG's adjacencies, its unshielded colliders are exactly those of the DAG, and every directed edge agrees with the DAG.", "quantifier": "every DAG, every set iteration order", "why_tests_cant": "Universal over graphs; rule application order is unbounded.", "anchors": [{"file": "graphical_models/dag.py", "symbols": ["DAG.convert_to_cpdag"]}, {"file": "graphical_models/partially_dag.py", "symbols": ["PDAG.maximally_orient_pattern", "PDAG.orient_edge"]}]}
{"id": "C14", "title": "The CPDAG is exactly the essential graph (rules R1-R3 sound and complete)", "statement": "An edge is directed x->y in the output of DAG.convert_to_cpdag if and only if x->y in every DAG with the same adjacencies and the same unshielded colliders as the input.", "quantifier": "every DAG, every set iteration order, every member of its equivalence class", "why_tests_cant": "Quantifies over all members of an equivalence class of exponential size and over all graphs.", "anchors": [{"file": "graphical_models/dag.py", "symbols": ["DAG.convert_to_cpdag"]}, {"file": "graphical_models/partially_dag.py", "symbols": ["PDAG.orient_by_rule_1", "PDAG.orient_by_rule_2", "PDAG.orient_by_rule_3"]}]}
{"id": "C15", "title": "CPDAG is canonical and independent of iteration order", "statement": "Two DAGs over the same nodes yield the same CPDAG (whatever the set iteration orders of both runs) if and only if they have the same adjacencies and unshielded colliders.", "quantifier": "every pair of DAGs on the same nodes, every pair of iteration orders", "why_tests_cant": "Confluence over all rule schedules.", "anchors": [{"file": "graphical_models/dag.py", "symbols": ["DAG.convert_to_cpdag"]}, {"file": "graphical_models/partially_dag.py", "symbols": ["PDAG.maximally_orient_pattern"]}]}
{"id": "C16", "title": "Maximal orientation of a PDAG terminates at a fixpoint and only orients undirected edges", "statement": "PDAG.maximally_orient_pattern(rules) terminates on every well-formed PDAG for every set of rules; adjacencies and already directed edges are unchanged, every undirected edge stays or becomes directed, and afterwards no selected rule pattern is present.", "quantifier": "every well-formed PDAG, every subset of rules 1-4, every set iteration order", "why_tests_cant": "Termination and fixpoint quantify over all graphs and schedules.", "anchors": [{"file": "graphical_models/partially_dag.py", "symbols": ["PDAG.maximally_orient_pattern", "PDAG.orient_by_rule_1", "PDAG.orient_by_rule_2", "PDAG.orient_by_rule_3", "PDAG.orient_by_rule_4"]}]}
{"id": "C17", "title": "PDAG rule 4 is sound only with the documented non-adjacency condition", "statement": "Rule 4's documentation requires W and Y to be disconnected. With that condition every edge it orients is forced in every consistent DAG without new v-structures; the code does not check it, and there is a PDAG and a consistent DAG whose edge the code orients the other way.", "quantifier": "every PDAG and every consistent DAG (soundness under the condition); one witness (without)", "why_tests_cant": "Soundness quantifies over all consistent DAGs.", "anchors": [{"file": "graphical_models/partially_dag.py", "symbols": ["PDAG.orient_by_rule_4"]}]}
{"id": "C18", "title": "PDAG to DAG extension is sound", "statement": "If PDAG.convert_to_dag(dag) returns True (dag initially empty), the filled graph is acyclic, has exactly the PDAG's adjacencies, keeps every directed edge, and has no unshielded collider that was not already in the PDAG.", "quantifier": "every well-formed PDAG, every set iteration order", "why_tests_cant": "Universal over graphs.", "anchors": [{"file": "graphical_models/partially_dag.py", "symbols": ["PDAG.convert_to_dag"]}]}
{"id": "C19", "title": "PDAG to DAG extension is complete", "statement": "If a PDAG admits a consistent DAG extension (acyclic, same adjacencies, same directed edges, no new unshielded collider), PDAG.convert_to_dag returns True; it returns False only when no such DAG exists, and it always terminates.", "quantifier": "every well-formed PDAG, every set iteration order", "why_tests_cant": "A False answer claims non-existence over exponentially many DAGs.", "anchors": [{"file": "graphical_models/partially_dag.py", "symbols": ["PDAG.convert_to_dag"]}]}
{"id": "C20", "title": "Partial topological order partitions the nodes", "statement": "PDAG.find_partial_topological_order(nodes) terminates, returns pairwise disjoint sets whose union is nodes, and every directed edge between different groups goes from a later-listed group to an earlier-listed one (the list runs from descendants to ancestors).", "quantifier": "every PDAG (bi-directed and cyclic included), every node subset, every iteration order", "why_tests_cant": "RAI recursion relies on it for all graphs.", "anchors": [{"file": "graphical_models/partially_dag.py", "symbols": ["PDAG.find_partial_topological_order"]}, {"file": "causal_discovery_algs/rai.py", "symbols": ["LearnStructRAI"]}]}
{"id": "C21", "title": "PC removes an edge only with a recorded witness", "statement": "After LearnStructPC.learn_skeleton with any CI test: it terminates, every removed pair has a recorded separation set, not containing the pair, for which the CI test answered independent, and every kept pair is undirected.", "quantifier": "every node set, every (arbitrary, possibly wrong) CI test, every set iteration order", "why_tests_cant": "Quantifies over all CI tests and schedules.", "anchors": [{"file": "causal_discovery_algs/pc.py", "symbols": ["LearnStructPC.learn_skeleton", "LearnStructPC._exit_cond"]}, {"file": "causal_discovery_utils/constraint_based.py", "symbols": ["SeparationSet", "unique_element_iterator"]}]}
{"id": "C22", "title": "PC with a perfect oracle recovers the exact skeleton and v-structures", "statement": "If the CI test answers d-separation in a DAG over the same nodes, PC's learned adjacencies are exactly the DAG's and its unshielded colliders exactly the DAG's, with no bi-directed conflict.", "quantifier": "every DAG, every set iteration order", "why_tests_cant": "Correctness of the algorithm over all ground truths.", "anchors": [{"file": "causal_discovery_algs/pc.py", "symbols": ["LearnStructPC.learn_structure", "LearnStructPC.learn_skeleton", "LearnStructPC.orient_v_structures"]}, {"file": "causal_discovery_utils/cond_indep_tests.py", "symbols": ["DSep.cond_indep"]}]}
{"id": "C23", "title": "PC with a perfect oracle returns the true CPDAG, independent of order", "statement": "If the CI test answers d-separation in a DAG, LearnStructPC.learn_structure returns exactly the graph DAG.convert_to_cpdag produces for it: an edge is directed iff all Markov-equivalent DAGs agree on it.", "quantifier": "every DAG, every set iteration order in both computations", "why_tests_cant": "End-to-end correctness over all ground truths and schedules.", "anchors": [{"file": "causal_discovery_algs/pc.py", "symbols": ["LearnStructPC.learn_structure"]}, {"file": "graphical_models/dag.py", "symbols": ["DAG.convert_to_cpdag"]}]}
{"id": "C24", "title": "Edge-mark editing keeps mixed graphs well-formed and is local", "statement": "Starting from an empty or complete graph, every sequence of add_edge, delete_edge, replace_edge_mark on adjacent nodes, and reset_orientations keeps: no self-edges, at most one mark per edge end, a mark at one end iff a mark at the other. Each call changes only the named pair(s).", "quantifier": "every node set, every finite sequence of successful calls", "why_tests_cant": "Invariant over all histories.", "anchors": [{"file": "graphical_models/basic_equivalance_class_graph.py", "symbols": ["MixedGraph.add_edge", "MixedGraph.delete_edge", "MixedGraph.replace_edge_mark", "MixedGraph.reset_orientations", "MixedGraph.is_connected", "MixedGraph.get_edge_mark"]}]}
{"id": "C25", "title": "Iterative and recursive reachable-set search are equivalent and exact", "statement": "MixedGraph.find_reachable_set and find_reachable_set_recursive terminate and both return exactly the nodes reachable from the anchor by a path of length at least one through allowed edge types whose nodes after the anchor are in the pool.", "quantifier": "every mixed graph, anchor, pool, list of edge types, every iteration order", "why_tests_cant": "Equivalence of two implementations with mutated pools over all graphs.", "anchors": [{"file": "graphical_models/basic_equivalance_class_graph.py", "symbols": ["MixedGraph.find_reachable_set", "MixedGraph.find_reachable_set_recursive", "MixedGraph.find_adjacent_nodes"]}]}
{"id": "C26", "title": "Connected components of a mixed graph", "statement": "On a symmetric (well-formed) graph, find_unconnected_subgraphs returns disjoint sets covering the given nodes, two nodes being together iff joined by a path inside the given nodes (of any edges, or of edges with the given mark at both ends); is_graph_connected is True iff there is a single component. On PDAGs with directed edges, where only the child stores the edge, both answers can be wrong and depend on which node is popped first.", "quantifier": "every well-formed mixed graph, node subset, pop order; witness for the PDAG failure", "why_tests_cant": "Universal over graphs and pop orders.", "anchors": [{"file": "graphical_models/basic_equivalance_class_graph.py", "symbols": ["MixedGraph.find_unconnected_subgraphs", "MixedGraph.is_graph_connected"]}, {"file": "causal_discovery_algs/rai.py", "symbols": ["LearnStructRAI"]}]}
{"id": "C27", "title": "Edge counting", "statement": "number_of_edges(return_missing=True) returns (e, m) with e the number of unordered adjacent pairs and e + m = n(n-1)/2, independent of iteration order; PDAG.get_num_edges equals it on PDAGs without bi-directed edges; get_skeleton_mat is the 0/1 adjacency of is_connected.", "quantifier": "every graph on n nodes, every iteration order", "why_tests_cant": "Universal over graphs.", "anchors": [{"file": "graphical_models/basic_graph.py", "symbols": ["Graph.number_of_edges"]}, {"file": "graphical_models/basic_equivalance_class_graph.py", "symbols": ["MixedGraph.number_of_edges", "MixedGraph.get_skeleton_mat"]}, {"file": "graphical_models/partially_dag.py", "symbols": ["PDAG.get_num_edges"]}]}
{"id": "C28", "title": "PAG adjacency matrix round trip", "statement": "For every well-formed PAG, get_adj_mat has the documented codes as entries and init_from_adj_mat of the result reproduces all edge marks; for every matrix with entries 0..3, init followed by get returns the matrix; entries above 3 or an order of the wrong length are rejected.", "quantifier": "every PAG, every matrix with entries 0..3", "why_tests_cant": "Universal over graphs.", "anchors": [{"file": "graphical_models/partial_ancestral_graph.py", "symbols": ["PAG.init_from_adj_mat", "PAG.get_adj_mat"]}]}
{"id": "C29", "title": "Possible-ancestor query is exact", "statement": "PAG.is_possible_ancestor(x, y, allowed) terminates and returns True exactly when there is a path x=v0,...,vk=y, k>=1, of distinct nodes after x inside allowed such that no edge has an arrowhead at v_i or a tail at v_{i+1}; find_possible_ancestors adds y itself.", "quantifier": "every PAG, node pair, allowed set, iteration order", "why_tests_cant": "Search with a shrinking node set over all graphs.", "anchors": [{"file": "graphical_models/partial_ancestral_graph.py", "symbols": ["PAG.is_possible_ancestor", "PAG.find_possible_ancestors", "PAG.is_possible_parent", "PAG.find_possible_children"]}]}
{"id": "C30", "title": "m-separation query equals path-based m-separation on directed mixed graphs", "statement": "On every well-formed PAG object whose edges are all --> or <->, for distinct x, y outside Z, is_m_separated(x, y, Z) is True exactly when every simple path between x and y is blocked by Z (m-separation).", "quantifier": "every directed mixed graph, x, y, Z, iteration order", "why_tests_cant": "Moralisation/augmentation versus path definition, over all graphs.", "anchors": [{"file": "graphical_models/partial_ancestral_graph.py", "symbols": ["PAG.is_m_separated", "PAG.find_definite_c_components", "PAG.find_possible_ancestors"]}]}
{"id": "C31", "title": "PAG orientation terminates, preserves adjacencies and reaches a fixpoint", "statement": "PAG.maximally_orient_pattern(rules) terminates on every PAG and every subset of rules 1-10; adjacencies never change, no circle is ever created, and on exit no selected rule reports a change.", "quantifier": "every well-formed PAG, every rule subset, every sepset content, every iteration order", "why_tests_cant": "Termination and invariants over all graphs and schedules.", "anchors": [{"file": "graphical_models/partial_ancestral_graph.py", "symbols": ["PAG.maximally_orient_pattern", "PAG.orient_by_rule_1", "PAG.orient_by_rule_2", "PAG.orient_by_rule_3", "PAG.orient_by_rule_4", "PAG.orient_by_rule_5", "PAG.orient_by_rule_6", "PAG.orient_by_rule_7", "PAG.orient_by_rule_8", "PAG.orient_by_rule_9", "PAG.orient_by_rule_10"]}]}
{"id": "C32", "title": "PAG rules R1-R9 are sound for every ancestral graph", "statement": "If all marks of a PAG hold in a MAG with the same adjacencies and unshielded colliders (all of them oriented in the PAG), and the stored separating sets m-separate in the MAG, then all marks after maximally_orient_pattern with any list of rules 1..9 hold in that MAG.", "quantifier": "every MAG, every consistent PAG, every iteration order", "why_tests_cant": "Quantifies over all MAGs represented by the PAG.", "anchors": [{"file": "graphical_models/partial_ancestral_graph.py", "symbols": ["PAG.maximally_orient_pattern", "PAG.orient_by_rule_1", "PAG.orient_by_rule_2", "PAG.orient_by_rule_3", "PAG.orient_by_rule_4", "PAG.orient_by_rule_5", "PAG.orient_by_rule_6", "PAG.orient_by_rule_7", "PAG.orient_by_rule_8", "PAG.orient_by_rule_9"]}]}
{"id": "C33", "title": "Discriminating-path search is exact in both implementations", "statement": "find_discriminating_path_to_triplet terminates and returns a node D iff there is a discriminating path <D,...,A,B,C> for B as documented (D not adjacent to C, every node strictly between D and B a collider on the path and a parent of C); the recursive version returns None on exactly the same inputs.", "quantifier": "every well-formed PAG, every triplet, every iteration order", "why_tests_cant": "Two searches with different pruning over all graphs.", "anchors": [{"file": "graphical_models/partial_ancestral_graph.py", "symbols": ["PAG.find_discriminating_path_to_triplet", "PAG.find_discriminating_path_to_triplet_recursive"]}]}
{"id": "C34", "title": "Uncovered-path search returns only, and finds all, uncovered paths", "statement": "find_uncovered_path returns a path that is uncovered with every edge satisfying the edge condition; if it returns None no such path exists in the allowed nodes.", "quantifier": "every PAG, end points, edge condition, iteration order", "why_tests_cant": "Existence over all simple paths.", "anchors": [{"file": "graphical_models/partial_ancestral_graph.py", "symbols": ["PAG.find_uncovered_path"]}]}
{"id": "C35", "title": "PAG rule 10 fires without a possibly-directed path", "statement": "Rule 10 is documented to require two uncovered possibly-directed paths. The code searches the paths without the direction condition: there is a PAG with no possibly-directed path whose edge A o-> C is still turned into A --> C.", "quantifier": "exists a PAG (counterexample); for every PAG, the orientation is licensed if all edges on the found paths are possibly directed", "why_tests_cant": "The shipped test only covers a case in which both readings agree.", "anchors": [{"file": "graphical_models/partial_ancestral_graph.py", "symbols": ["PAG.orient_by_rule_10", "PAG.find_uncovered_path"]}]}
{"id": "C36", "title": "Possible c-component union depends on iteration order", "statement": "PAG.find_union_pc_components_for_node should depend only on the graph. It tests visibility against the last node of an earlier loop, so there is a PAG for which two set iteration orders give different results; the result is the documented set when visibility does not depend on that choice, and order independent with at most one invisible child.", "quantifier": "exists a PAG and two iteration orders; for every PAG in which each node has at most one invisible child of interest the result is order independent", "why_tests_cant": "CPython iterates small ints in a fixed order, so tests never see the other order.", "anchors": [{"file": "graphical_models/partial_ancestral_graph.py", "symbols": ["PAG.find_union_pc_components_for_node"]}]}
{"id": "C37", "title": "Bucket ordering can loop forever", "statement": "PAG.get_ordered_buckets returns exactly when the buckets can be topologically ordered, and then returns a partition of the nodes into buckets in an order compatible with all edges; otherwise it raises an assertion error when no bucket can be last, and loops forever in all other cases.", "quantifier": "every well-formed PAG, node subset, iteration order; a witness PAG for non-termination", "why_tests_cant": "Non-termination cannot be observed by a test.", "anchors": [{"file": "graphical_models/partial_ancestral_graph.py", "symbols": ["PAG.get_ordered_buckets", "PAG.find_buckets_list"]}]}
{"id": "C38", "title": "SeparationSet is a symmetric finite map", "statement": "get_sepset(a,b) = get_sepset(b,a) always; after set_sepset(a,b,S) it is S for that unordered pair and unchanged for all others; copy yields equal values and later writes to one side never show on the other; erase empties all.", "quantifier": "every node set, every sequence of operations", "why_tests_cant": "Law over all histories.", "anchors": [{"file": "causal_discovery_utils/constraint_based.py", "symbols": ["SeparationSet"]}]}
{"id": "C39", "title": "Caching is transparent", "statement": "For a CI statistic that is symmetric in (x,y) and invariant to permutation of the conditioning tuple, any history of cond_indep queries answered with the cache enabled gives the same answers as without the cache.", "quantifier": "every symmetric test, every history of queries and cache deletions over nodes 0..n-1", "why_tests_cant": "All histories; a stale or mis-keyed entry shows only after a specific sequence.", "anchors": [{"file": "causal_discovery_utils/cond_indep_tests.py", "symbols": ["CacheCI", "DSep", "StatCondIndep", "CondIndepParCorr", "CondIndepCMI"]}]}
{"id": "C40", "title": "Cache rejects node labels outside 0..n-1", "statement": "CacheCI works for nodes 0..n-1 only: storing a result for any pair that is not inside this range raises KeyError, so a d-separation test with caching on a graph with other labels fails on its first query.", "quantifier": "every n, every node pair outside the range", "why_tests_cant": "All labels.", "anchors": [{"file": "causal_discovery_utils/cond_indep_tests.py", "symbols": ["CacheCI.set_cache_result", "CacheCI.__init__", "DSep.__init__"]}]}
{"id": "C41", "title": "Retained edges are never removed - violated by the CMI test", "statement": "A CI test constructed with retained edges must never report a retained pair as independent. It holds for the p-value based test; the conditional-mutual-information test negates the base answer and reports every retained pair as independent.", "quantifier": "every data set, threshold and retained pair", "why_tests_cant": "The failure is for all inputs of the feature.", "anchors": [{"file": "causal_discovery_utils/cond_indep_tests.py", "symbols": ["StatCondIndep.cond_indep", "CondIndepCMI.cond_indep", "GraphCondIndep"]}]}
{"id": "C42", "title": "Contingency counting is exact", "statement": "calc_stats with given variable sizes returns, for every combination of values, the number (or total weight) of records having that combination; the flat index of a combination is unique.", "quantifier": "every data matrix with values inside the variable sizes, every list of variables", "why_tests_cant": "All data.", "anchors": [{"file": "causal_discovery_utils/data_utils.py", "symbols": ["calc_stats", "get_var_size"]}]}
{"id": "C43", "title": "Empirical conditional mutual information is non-negative, symmetric and zero under independence", "statement": "Over exact reals, the statistic computed from counts is >= 0, symmetric in x and y, and 0 iff the empirical distribution factorises.", "quantifier": "every non-negative count table with positive total", "why_tests_cant": "All count tables.", "anchors": [{"file": "causal_discovery_utils/cond_indep_tests.py", "symbols": ["CondIndepCMI.calc_statistic", "CondIndepCMI._calc_cmi_from_counts"]}]}
{"id": "C44", "title": "Partial-correlation special cases agree with the general formula", "statement": "Over exact reals, the closed formulas used for zero and one conditioning variables equal the general inverse-matrix formula; the statistic is symmetric in x and y.", "quantifier": "every correlation matrix with invertible submatrix", "why_tests_cant": "All reals.", "anchors": [{"file": "causal_discovery_utils/cond_indep_tests.py", "symbols": ["CondIndepParCorr.calc_statistic"]}]}
{"id": "C45", "title": "Covariance to correlation", "statement": "Over exact reals cov_to_corr of a symmetric positive semi-definite matrix with positive diagonal is symmetric with unit diagonal and entries in [-1,1].", "quantifier": "every such matrix", "why_tests_cant": "All reals.", "anchors": [{"file": "causal_discovery_utils/stat_utils.py", "symbols": ["cov_to_corr"]}]}
{"id": "C46", "title": "Unrolling of temporal data", "statement": "unroll_temporal_data places variable v at window offset k of row i equal to the original sample at time i*step + k (or window-1-k when reversed), with node index lists naming exactly these columns; with order reversed and only part of the variables observed, the unobserved columns are overwritten by zero.", "quantifier": "every data matrix, window length, step, observed list", "why_tests_cant": "All shapes and data.", "anchors": [{"file": "causal_discovery_utils/data_utils.py", "symbols": ["unroll_temporal_data"]}]}
{"id": "C47", "title": "PDS tree queries", "statement": "On every tree: get_minimal_distance returns the least depth at which a node occurs (infinity if absent), is_legal_cond_set holds iff every node of the set is reached from the root by a branch inside the set, and get_subsets_list enumerates exactly the legal subsets of the requested size.", "quantifier": "every PDS tree, every node, subset and size", "why_tests_cant": "All trees.", "anchors": [{"file": "graphical_models/possible_dsep_tree.py", "symbols": ["PDSTree.get_minimal_distance", "PDSTree.is_legal_cond_set", "PDSTree.is_reachable", "PDSTree.get_subsets_list"]}]}
{"id": "C48", "title": "PDS tree construction terminates and is sound but not complete", "statement": "create_pds_tree terminates on every PAG and every node in the tree lies at the end of a possible-d-sep path from the root (each interior node a collider or in a triangle). It is not complete: because a traversed edge is removed in both directions, there is a PAG in which a node of the possible-d-sep set is missing, and whether it is missing depends on set iteration order.", "quantifier": "every PAG, root and depth bound; one witness and two orders for incompleteness", "why_tests_cant": "All graphs; iteration order is fixed in CPython for small ints so tests cannot reveal it.", "anchors": [{"file": "causal_discovery_algs/icd.py", "symbols": ["create_pds_tree"]}, {"file": "causal_discovery_algs/fci.py", "symbols": ["LearnStructFCI"]}]}
{"id": "C49", "title": "FCI and ICD remove edges only with a witness", "statement": "After FCI, or any sequence of ICD learn_structure_iteration / learn_structure calls, with any CI test: no exception, the graph is a well-formed PAG, adjacency only shrinks, each non-adjacent pair has a recorded separation set for which the CI test answered independent, and each remaining pair was tested dependent on the candidate sets (FCI: all subsets of a set containing the PC neighbours; ICD iteration r: all sets of r neighbours that are possible ancestors). With a perfect oracle no true adjacency is lost and, if the skeleton is right, all arrowheads are right; FCI with a d-separation oracle for a DAG finds the skeleton and only right marks.", "quantifier": "every node set, every CI test, every iteration order", "why_tests_cant": "All CI tests and schedules.", "anchors": [{"file": "causal_discovery_algs/fci.py", "symbols": ["LearnStructFCI.learn_structure"]}, {"file": "causal_discovery_algs/icd.py", "symbols": ["LearnStructICD.learn_structure", "LearnStructICD.learn_structure_iteration"]}]}
{"id": "C50", "title": "ICD terminates and refuses to iterate after completion", "statement": "LearnStructICD.learn_structure terminates after at most max(2, n) iterations from any reachable state, without exception; learn_structure_iteration raises RuntimeError exactly if the previous iteration reported completion; completion is reported only if no edge has a candidate set of the current size made of neighbours, and always once the size exceeds the number of other nodes.", "quantifier": "every node set, CI test, iteration order", "why_tests_cant": "Termination over all CI tests.", "anchors": [{"file": "causal_discovery_algs/icd.py", "symbols": ["LearnStructICD.learn_structure", "LearnStructICD.learn_structure_iteration"]}]}
{"id": "C51", "title": "Ordered ICD respects the given causal order", "statement": "For every order of the nodes, after any sequence of calls of learn_structure (local or global) and orient_graph: no exception; every edge has an arrowhead at the later node; every non-adjacent pair has a recorded set of nodes before the later one for which the test answered independent; for every remaining edge the tests without conditioning and with one earlier neighbour answered dependent. With a perfect test no adjacency of the true graph is lost, and if none is superfluous all arrowheads are right.", "quantifier": "every order, CI test, iteration order", "why_tests_cant": "All orders, CI tests (also inconsistent ones), iteration orders and call sequences; a unit test runs one data set.", "anchors": [{"file": "causal_discovery_algs/ordered_icd.py", "symbols": ["LearnStructOrderedICD"]}]}
{"id": "C52", "title": "TS-ICD never restores a deleted edge - violated", "statement": "Orientation must not change adjacency. In TS-ICD the homology step writes marks on homologous pairs without checking adjacency: there is an input on which a pair removed by a CI test is adjacent again after the run, and an input with an exact d-separation test on which the run ends with an AssertionError. Without homology no removal of an edge with a lag shorter than the longest lag can last. With homology, if no positive CI test conditions on a node earlier than both tested nodes, the run succeeds and removed edges stay removed.", "quantifier": "exists an input (counterexamples); for every window, set order, option and CI test (statements without and with homology)", "why_tests_cant": "Needs a particular combination of window, removal and orientation.", "anchors": [{"file": "causal_discovery_algs/ts_icd.py", "symbols": ["LearnStructTSICD"]}]}
{"id": "C53", "title": "B-RAI uncertainty samples are aliased", "statement": "calc_graph_uncertainty must count each sampled CPDAG once. Because the sampler refills the previously appended graph object, the first sample is not counted and the last one is counted twice.", "quantifier": "every number of samples >= 2 and every sampling outcome", "why_tests_cant": "Random sampling hides it.", "anchors": [{"file": "causal_discovery_algs/brai.py", "symbols": ["LearnStructBRAI"]}]}
{"id": "C54", "title": "Structural Hamming distance", "statement": "SHD between well-formed PDAGs is zero iff the graphs are equal, exchanging the graphs swaps missing and extra edges, and the total is the sum of the parts.", "quantifier": "every pair of PDAGs on the same nodes", "why_tests_cant": "All pairs of graphs.", "anchors": [{"file": "causal_discovery_utils/performance_measures.py", "symbols": ["structural_hamming_distance_cpdag"]}]}
{"id": "C55", "title": "CLEANN explanations are valid and minimal", "statement": "Every explanation returned passes the user's test, is a legal subset of the search tree, and no smaller legal set passes it; the search terminates.", "quantifier": "every PAG, tester function and class of interest", "why_tests_cant": "All testers.", "anchors": [{"file": "causal_reasoning/cleann_explainer.py", "symbols": ["CLEANN.explain"]}, {"file": "experiment_utils/explanation.py", "symbols": ["exhaustive_search_explanation"]}]}
{"id": "C56", "title": "Random graph generator invariants", "statement": "Every graph created by the random DAG generator is acyclic and respects the maximal fan-in, for all random draws; the connected variant returns a connected graph or gives up after the allowed number of trials.", "quantifier": "every sequence of random draws and parameters", "why_tests_cant": "All random seeds.", "anchors": [{"file": "experiment_utils/synthetic_graphs.py", "symbols": ["create_random_dag_max_fan", "create_random_dag", "create_random_connected_dag"]}]}
{"id": "C57", "title": "Threshold search returns a best threshold", "statement": "search_threshold_bdeu returns a threshold from the list whose score is maximal among all tested thresholds, the last one among ties.", "quantifier": "every list of thresholds and every scoring outcome", "why_tests_cant": "All score sequences.", "anchors": [{"file": "experiment_utils/threshold_select_ci_test.py", "symbols": ["search_threshold_bdeu"]}]}
{"id": "C58", "title": "Visible edges are exactly the edges of the graphical criterion", "statement": "After find_visible_edges, PAG.is_edge_visible(a, b) holds exactly when the edge is a -> b and there is a node c not adjacent to b with an edge into a, or joined to a by a collider path into a all of whose inner nodes are parents of b.", "quantifier": "every well-formed PAG, node pair, iteration order", "why_tests_cant": "Path search over all graphs and iteration orders.", "anchors": [{"file": "graphical_models/partial_ancestral_graph.py", "symbols": ["PAG.find_visible_edges", "PAG.is_edge_visible"]}]}
{"id": "C59", "title": "Possible c-components of a set and regions", "statement": "find_union_pc_components_for_set is the union of the possible c-components of the nodes of the set; find_region is the union of the buckets that meet it; both fail if visible edges were not computed.", "quantifier": "every well-formed PAG, visible edge set, node set, sub-graph, iteration order", "why_tests_cant": "Universal over graphs and iteration orders.", "anchors": [{"file": "graphical_models/partial_ancestral_graph.py", "symbols": ["PAG.find_union_pc_components_for_set", "PAG.find_region", "PAG.find_buckets_list"]}]}
{"id": "C60", "title": "Ordered ICD: max_cond_size bounds the conditioning sets", "statement": "With max_cond_size = m the learned graph does not depend on the answers of CI tests with more than m conditioning variables, and recorded separating sets have at most m elements; without it the bound is the number of nodes minus two.", "quantifier": "every order, pair of CI tests that agree up to the bound, iteration order, local and global variant", "why_tests_cant": "Independence from unused answers is a relation between all pairs of CI tests.", "anchors": [{"file": "causal_discovery_algs/ordered_icd.py", "symbols": ["LearnStructOrderedICD", "learn_structure_local", "learn_structure_global"]}]}
{"id": "C61", "title": "Skeleton and orientation accuracy", "statement": "calc_skeleton_accuracy returns precision, recall, F1, FPR and FNR of the adjacencies of the tested graph as fractions of node pairs (all in [0,1], F1 = 1 iff the skeletons agree), and raises ZeroDivisionError exactly when the graphs share no adjacency or the true graph is complete; calc_structural_accuracy_pag's orientation value is the fraction of the true graph's edge marks that the tested graph has.", "quantifier": "every pair of graphs of any class on the nodes of the true graph, every iteration order", "why_tests_cant": "All pairs of graphs; a test fixes a few graphs.", "anchors": [{"file": "causal_discovery_utils/performance_measures.py", "symbols": ["calc_skeleton_accuracy", "calc_structural_accuracy_pag", "calc_skeleton_fnr_fpr"]}]}
{"id": "C62", "title": "BDeu score: formula and score equivalence", "statement": "score_bdeu returns the BDeu score with equivalent sample size 1 (the sum over nodes and parent configurations of the Dirichlet terms), independent of the iteration order of the parents; Markov equivalent DAGs get the same score; the score is a sum of local terms.", "quantifier": "every data set with values below the node sizes, every DAG over columns of the data, every pair of Markov equivalent DAGs, every set iteration order", "why_tests_cant": "All data sets and all pairs of equivalent DAGs; a wrong reshape order or prior only shows for unequal sizes.", "anchors": [{"file": "causal_discovery_utils/performance_measures.py", "symbols": ["score_bdeu", "score_family_dirichlet"]}]}
{"id": "C63", "title": "Synthetic data solve the structural equations", "statement": "sample_data_from_dag returns data in which, in every record, each variable equals its noise plus the weighted sum of its parents' values, with one weight per edge whose absolute value comes from the requested range and whose sign is drawn; each edge has its own draw; a cyclic graph raises AssertionError and labels that are not column numbers raise IndexError.", "quantifier": "every acyclic graph over 0..n-1, every number of records, every noise and every sequence of random draws, every set iteration order", "why_tests_cant": "All graphs, draws and iteration orders; a wrong processing order only shows for some labellings.", "anchors": [{"file": "experiment_utils/synthetic_graphs.py", "symbols": ["sample_data_from_dag"]}]}
{"id": "C64", "title": "Latent variable selection", "statement": "select_latent_variables returns exactly the parentless nodes with at least two children; create_random_dag_with_latents returns a connected DAG and a partition of its nodes into observed and latent ones, the latent ones being half of the potential latents.", "quantifier": "every graph, every sequence of random draws", "why_tests_cant": "All graphs and seeds; the behaviour depends on the Python version.", "anchors": [{"file": "experiment_utils/synthetic_graphs.py", "symbols": ["select_latent_variables", "create_random_dag_with_latents"]}]}
{"id": "C65", "title": "RAI returns an accountable graph", "statement": "LearnStructRAI.learn_structure terminates without an exception and returns a graph over the given nodes without self-edges or bi-directed edges; every missing edge has a recorded separation set that the CI test accepted for that pair, every present edge was found dependent; each level of the recursion only removes edges and tests every remaining edge of its nodes with every potential-parent set of the current size; the division into sub-graphs partitions the nodes and no directed edge leads from the descendant part to the ancestor part; all directions of the result follow from unshielded colliders by the three orientation rules and no rule is left applicable.", "quantifier": "every node set, every CI test (also inconsistent ones), both settings of overwrite_starting_graph, every set iteration order", "why_tests_cant": "The recursion depends on answers of all CI tests and on iteration orders; a test suite fixes a few data sets.", "anchors": [{"file": "causal_discovery_algs/rai.py", "symbols": ["LearnStructRAI.learn_structure", "LearnStructRAI._learn_recursively", "LearnStructRAI._refine_and_orient", "LearnStructRAI._split_ancestors_descendant", "LearnStructRAI._re_orient_skeleton", "LearnStructRAI.orient_v_structures"]}]}
{"id": "C66", "title": "RAI with perfect independence information finds the equivalence class", "statement": "If the CI test answers d-separation in a DAG, LearnStructRAI.learn_structure returns the CPDAG of the DAG.", "quantifier": "every DAG, every set iteration order", "why_tests_cant": "All DAGs; the smallest counterexample has five nodes and the error depends on the order of the nodes.", "anchors": [{"file": "causal_discovery_algs/rai.py", "symbols": ["LearnStructRAI.learn_structure"]}]}
{"id": "C67", "title": "TS-ICD homology maps are exact", "statement": "get_edge_homology of a present node and another node returns exactly the pairs obtained by moving both back by the same positive number of time steps inside the window. get_ci_homology returns exactly the triples obtained by moving both nodes and every conditioning node back by the same positive number of steps, in order. The pairs on which an orientation is written are exactly the pairs of the same two variables with the same lag. A first node of the past gives an AssertionError, an empty conditioning tuple a ValueError, an unknown node a KeyError.", "quantifier": "for every window (any number of time steps and variables), all nodes and conditioning tuples", "why_tests_cant": "The index arithmetic depends on the window length, lag and conditioning set; off-by-one errors show only at the border of windows of particular sizes.", "anchors": [{"file": "causal_discovery_algs/ts_icd.py", "symbols": ["LearnStructTSICD.get_edge_homology", "LearnStructTSICD.get_ci_homology", "LearnStructTSICD._fill_orientation_homology"]}]}
{"id": "C68", "title": "TS-ICD accounts for every removed edge", "statement": "In every successful run, an edge of the initial graph that is missing in the result has a recorded separating set, and this set is a CI test of the run with a positive result moved back in time: the same number of steps for both nodes and for every conditioning node (zero steps if homology is off). If no CI test reports independence no edge is lost.", "quantifier": "for every window, initial graph, set order, option and CI test behaviour", "why_tests_cant": "Quantifies over all runs and all CI test outcomes.", "anchors": [{"file": "causal_discovery_algs/ts_icd.py", "symbols": ["LearnStructTSICD"]}]}
{"id": "C69", "title": "TS-ICD result respects time order and is stationary", "statement": "In the result of every successful run each edge between different times has an arrowhead at the later node (for the default initial graph, or any initial graph with that property), and arrowheads and tails are the same on every pair of the same variables with the same lag.", "quantifier": "for every window, initial graph, set order, option and CI test behaviour", "why_tests_cant": "Needs an invariant through ten orientation rules, repeated resets and homology filling; quantifies over all runs.", "anchors": [{"file": "causal_discovery_algs/ts_icd.py", "symbols": ["LearnStructTSICD"]}]}
{"id": "C70", "title": "B-RAI learns a well-formed generating tree", "statement": "For a non-empty node set, a positive number of hypotheses, scoring data and a scoring function that returns floats (BDeu does), LearnStructBRAI.learn_structure returns; each inner node of the tree has exactly num_of_hyp hypotheses, each hypothesis divides the endogenous nodes into a descendant set and disjoint ancestor sets, every leaf graph is a PDAG without bi-directed edges whose missing edges have an accepted CI test and whose remaining edges were found dependent, and the leaf score is that of a consistent extension of the leaf sub-graph or -inf. Documented use without scoring data or with a custom scoring function must work as well.", "quantifier": "every CI test (answers may change between hypotheses), node set, iteration order, number of hypotheses and scoring function", "why_tests_cant": "The tree depends on bootstrap samples and on set order; tests see single trees.", "anchors": [{"file": "causal_discovery_algs/brai.py", "symbols": ["LearnStructBRAI", "MultiHypNode", "CookieNode"]}]}
{"id": "C71", "title": "B-RAI samples are made of the selected leaves", "statement": "sample_cpdag returns a PDAG without bi-directed edges on all nodes whose edges are those of the leaves selected in the tree, each node being endogenous in exactly one selected leaf; the arrows are v-structures of the selected graph and consequences of Meek's rules. Each missing edge of the sample has an accepted CI test, and the separation sets belong to the sampled graph.", "quantifier": "every learned tree, temperature and random draw", "why_tests_cant": "A lost edge looks like an accepted test; samples are random.", "anchors": [{"file": "causal_discovery_algs/brai.py", "symbols": ["LearnStructBRAI", "MultiHypNode", "CookieNode"]}]}
{"id": "C72", "title": "B-RAI selects by score", "statement": "With temperature 0 the sampled (MAP) graph has the largest total score of all selections of leaves in the tree and the returned score is this total; with positive temperature hypotheses are drawn with Boltzmann probabilities, and graphs without consistent extension are never drawn if they can be avoided.", "quantifier": "every learned tree, every scoring function, every temperature", "why_tests_cant": "Enumerating all selections of a tree is infeasible in tests.", "anchors": [{"file": "causal_discovery_algs/brai.py", "symbols": ["LearnStructBRAI", "MultiHypNode", "CookieNode"]}]}
{"id": "C73", "title": "Undirected reachability in a PDAG is exact", "statement": "PDAG.is_reachable_undirected terminates and returns True exactly if there is a walk of at least one undirected edge from the source to the target whose nodes strictly between are all allowed; is_reachable_any_undirected is the disjunction over the target set; the answers do not depend on the iteration order and are symmetric in source and target; a node is reachable from itself exactly if it has an allowed undirected neighbour.", "quantifier": "every PDAG, every pair of nodes, every target set, every set of allowed nodes, every set-iteration order", "why_tests_cant": "The search removes already tried neighbours from the allowed nodes; that no path is lost that way is a statement about all graphs.", "anchors": [{"file": "graphical_models/partially_dag.py", "symbols": ["PDAG.is_reachable_undirected", "PDAG.is_reachable_any_undirected"]}]}
{"id": "C74", "title": "find_true_pag returns the PAG of the DAG; each ICD iteration returns an r-representing PAG", "statement": "For a true DAG and a set of observed nodes (the other nodes are latent), find_true_pag terminates without exception and returns a well-formed PAG on the observed nodes. Two nodes are adjacent in it exactly if no set of other observed nodes d-separates them in the DAG. An arrowhead at b on the edge with a means that b is not an ancestor of a in the DAG, a tail means that it is. After the ICD iteration that reports r with a perfect oracle, two nodes are adjacent exactly if no set of at most r other observed nodes d-separates them.", "quantifier": "every DAG, every set of observed nodes, every set-iteration order, every number of iterations", "why_tests_cant": "The result is used as the ground truth in evaluations, so there is nothing to compare it with; the smallest failure found needs a DAG with eight nodes, out of more than 10^11.", "anchors": [{"file": "causal_discovery_utils/performance_measures.py", "symbols": ["find_true_pag"]}, {"file": "causal_discovery_algs/icd.py", "symbols": ["LearnStructICD"]}]}
{"id": "C75", "title": "m-separation in the maximal ancestral graph is d-separation in the DAG with latent variables", "statement": "Take a DAG and a set of observed nodes, and the mixed graph over the observed nodes in which nodes are adjacent that no set of other observed nodes d-separates, with a tail at ancestors of the other end and an arrowhead otherwise. For two observed nodes and a set of other observed nodes, PAG.is_m_separated on this graph and DAG.dsep on the DAG return the same answer.", "quantifier": "every DAG, every set of observed nodes, every pair and conditioning set of observed nodes, every set-iteration order", "why_tests_cant": "The agreement of two different algorithms on two different graphs for all queries; a test compares a few queries.", "anchors": [{"file": "graphical_models/partial_ancestral_graph.py", "symbols": ["PAG.is_m_separated"]}, {"file": "graphical_models/dag.py", "symbols": ["DAG.dsep"]}]}
{"id": "C76", "title": "FCI with a perfect oracle in the presence of latent variables", "statement": "LearnStructFCI on a subset of the nodes of a DAG, with a CI test that answers d-separation in the DAG, keeps exactly the edges between pairs that no set of other observed nodes d-separates; every arrowhead is at a node that is not an ancestor of the other end, every tail at an ancestor of the other end, and all unshielded colliders are found.", "quantifier": "every DAG, every set of observed nodes, every set-iteration order, every option", "why_tests_cant": "Soundness over all DAGs with any number of latent variables; tests use a few small graphs.", "anchors": [{"file": "causal_discovery_algs/fci.py", "symbols": ["LearnStructFCI"]}]}
{"id": "C77", "title": "Layouts place every node inside the window", "statement": "calc_layout of the circular, column and force-directed layouts returns a position inside the given window for every node, for any window, starting positions and node lists that list every node once. The circular and column layouts place the nodes at different positions in the order of the lists. A step of the force-directed layout moves a node by at most the current step size.", "quantifier": "every node set, window, node lists, adjacency relation, generator state, number of rounds and set-iteration order", "why_tests_cant": "Statement about all windows, graphs and random starting positions; division by a zero distance and degenerate groups are met only by special inputs.", "anchors": [{"file": "plot_utils/graph_layout.py", "symbols": ["BaseLayout", "CircleLayout", "ColumnLayout", "ForceDirectedLayout"]}]}
{"id": "C78", "title": "Drawings show exactly the graph", "statement": "draw_graph and draw_temporal_graph of a PAG or DAG draw every node once with its own label inside the canvas, draw exactly one edge for each adjacent pair, between the discs of the two nodes, with an arrowhead, circle or nothing at each end exactly as in the graph; latent and selection nodes of a DAG are shown as such.", "quantifier": "every well-formed graph, drawing options, generator, set-iteration order and, for temporal graphs, node lists", "why_tests_cant": "A drawing is not an assertable value: unit tests do not inspect figures, and all combinations of marks, orders of endpoints and options would be needed.", "anchors": [{"file": "plot_utils/draw_graph.py", "symbols": ["draw_graph", "draw_temporal_graph", "draw_edge", "draw_node"]}]}
{"id": "C79", "title": "Drawings of possible-d-sep trees show the tree", "statement": "draw_pds_tree draws every node of the tree, at a distance from the centre equal to its depth, no two at the same place, all inside of the canvas; edges join each node with its children and carry the marks of the PAG at the corresponding ends; marked nodes are highlighted.", "quantifier": "every tree, PAG, labels, radius and plot shape", "why_tests_cant": "Non-overlap and the depth of all nodes are claims about trees of any size; figures are not inspected by tests.", "anchors": [{"file": "plot_utils/draw_graph.py", "symbols": ["draw_pds_tree"]}]}
{"id": "C80", "title": "Drawing does not disturb the random-number generator", "statement": "Drawing a graph twice gives the same figure, and drawing leaves the state of numpy's global random generator as it was.", "quantifier": "every graph, layout, options, generator and generator state", "why_tests_cant": "The effect on a global generator is visible only through later unrelated calls.", "anchors": [{"file": "plot_utils/draw_graph.py", "symbols": ["draw_graph", "draw_temporal_graph"]}, {"file": "plot_utils/graph_layout.py", "symbols": ["BaseLayout.__init__", "ForceDirectedLayout.__init__"]}]}
{"id": "C81", "title": "Ordered ICD with a perfect test and a causal order", "statement": "Ordered ICD with a CI test that answers d-separation in a DAG, some of whose nodes are latent, and a list of the observed nodes in which ancestors come first, returns a graph with exactly the edges between observed nodes that no set of observed nodes separates; its arrowheads, tails and unshielded colliders are those of the DAG.", "quantifier": "every DAG, every set of observed nodes, every causal order, both variants, all options, every set iteration order", "why_tests_cant": "The result depends on the whole graph and on the order of the tests; a wrong edge shows up only for rare combinations of latent nodes.", "anchors": [{"file": "causal_discovery_algs/ordered_icd.py", "symbols": ["LearnStructOrderedICD.learn_structure", "LearnStructOrderedICD.learn_structure_local", "LearnStructOrderedICD.learn_structure_global"]}]}
{"id": "C82", "title": "Test counters count the computed tests", "statement": "With count_tests, after any sequence of queries and cache deletions, test_counter[k] is the number of queries with k conditioning variables (static ones included) whose result had to be computed: all queries without cache; with cache those not asked before in any order of the arguments, or deleted since. Queries for retained edges are not counted. With cache and without deletions the counter is at most C(n,2)*C(n-2,k).", "quantifier": "every number of variables, every criterion or statistic, every sequence of valid queries and deletions, every static conditioning set and retained graph, with and without cache", "why_tests_cant": "The counter depends on the whole history of calls; argument-order and deletion effects show only in particular interleavings.", "anchors": [{"file": "causal_discovery_utils/cond_indep_tests.py", "symbols": ["DSep.cond_indep", "GraphCondIndep.cond_indep", "StatCondIndep.cond_indep", "StatCondIndep._debug_process", "CacheCI"]}]}
{"id": "C83", "title": "The partial-correlation test depends only on the data up to units and record order", "statement": "The partial-correlation test built from a data set uses a correlation matrix; its answers do not change if variables are given in other units (scaled by a nonzero factor and shifted) or if records are reordered; columns without sample covariance are reported independent.", "quantifier": "every data set with at least two records and columns that vary, every change of units, every order of records, every history of queries and deletions, every nonnegative threshold", "why_tests_cant": "Invariance under all changes of units and orders quantifies over infinitely many data sets.", "anchors": [{"file": "causal_discovery_utils/cond_indep_tests.py", "symbols": ["CondIndepParCorr.__init__", "CondIndepParCorr.calc_statistic"]}]}
{"id": "C84", "title": "The mutual-information test does not depend on how categories are coded", "statement": "The answers of the mutual-information test do not change if the categories of each variable are coded by other nonnegative integers, if the records (with their weights) are reordered, or if every record is repeated. If all weights are multiplied by a positive factor, so is the statistic.", "quantifier": "every data set, every injective recoding of every column, every order, every positive factor, every history of queries and deletions", "why_tests_cant": "The claim quantifies over all codings; the code computes flat indices from the largest codes, which could overflow into other cells only for particular codes.", "anchors": [{"file": "causal_discovery_utils/cond_indep_tests.py", "symbols": ["CondIndepCMI.calc_statistic", "CondIndepCMI.cond_indep"]}, {"file": "causal_discovery_utils/data_utils.py", "symbols": ["calc_stats", "get_var_size"]}]}
{"id": "C85", "title": "Interrupted learning only makes true causal claims", "statement": "Take the graph over the observed variables in which two nodes are adjacent iff no set of at most r observed variables separates them, with a smallest separating set recorded for each other pair. Orienting it (unshielded colliders, then rules 1 to 9) only places arrowheads at nodes that are not ancestors of the other end, and only places tails at nodes that are; a node between two nonadjacent ones gets both arrowheads iff it is an ancestor of neither. In particular every mark ICD reports after its iterations with conditioning-set sizes 0 and 1 is true, although its graph still has edges between separable nodes; the tails after size 1 with the tail rules off. The same holds for the graphs of ordered ICD with a maximal conditioning-set size of 0 or 1.", "quantifier": "every DAG, every set of latent nodes, every r, every graph with the stated adjacencies and recorded sets, every order of iteration over sets", "why_tests_cant": "The guarantee is about all graphs with surplus edges; the usual soundness proofs of the orientation rules assume exact adjacencies, and tests compare final graphs only.", "anchors": [{"file": "graphical_models/partial_ancestral_graph.py", "symbols": ["PAG.orient_v_structures", "PAG.maximally_orient_pattern"]}, {"file": "causal_discovery_algs/icd.py", "symbols": ["LearnStructICD.learn_structure_iteration", "LearnStructICD._learn_struct_base_step_0", "LearnStructICD._learn_struct_base_step_1"]}, {"file": "causal_discovery_algs/fci.py", "symbols": ["LearnStructFCI.learn_structure"]}, {"file": "causal_discovery_algs/ordered_icd.py", "symbols": ["LearnStructOrderedICD.learn_structure"]}]}
{"id": "C86", "title": "Tests reject unsupported arguments when they are constructed, and constructed tests answer", "statement": "A statistical test is constructed exactly if the numbers of records and variables are known: from a rectangular data set with at least one record, or, without data, as positive numbers; inconsistent numbers raise AssertionError, unusable data ValueError, weights for the partial-correlation test an exception. A graph-based test accepts exactly DAGs and PAGs, with no static conditioning or a tuple. A constructed test starts without cached results and with zero counts, retains the given edges or none, and answers every valid query by its criterion: d-separation or m-separation given the queried and the static variables together, or the decision for the statistic of the data. Two traps are part of the statement: the partial-correlation test can be constructed without data and then raises TypeError for every pair that is not retained; and if the graph of retained edges lacks a variable, all queries about it raise KeyError.", "quantifier": "all constructor arguments, all data sets, all DAGs and mixed graphs with nodes 0..n-1, every history of valid queries and deletions", "why_tests_cant": "The constructors have many combinations of optional arguments, and that a constructed object never fails later quantifies over all histories of calls.", "anchors": [{"file": "causal_discovery_utils/cond_indep_tests.py", "symbols": ["StatCondIndep.__init__", "CondIndepParCorr.__init__", "CondIndepCMI.__init__", "GraphCondIndep.__init__", "DSep.__init__", "StatCondIndep.calc_statistic"]}]}
{"id": "C87", "title": "Graph objects are independent of each other", "statement": "Graphs are mutable objects made of mutable sets, but they can be used like values: whatever sequence of constructions, copies, edge additions, deletions and re-orientations a program performs on any number of graphs, each graph shows exactly the edges that its own operations give, with the same exceptions. In particular a copy equals the original when it is made, later changes of either one are not seen in the other, and a graph built on the node set of another one shares no edges with it. The sets that the readers return are the graph's own: a caller who changes such a set changes exactly that entry of that graph.", "quantifier": "every number of graphs in memory, every program of operations on nodes of the graphs, every order of iteration over sets", "why_tests_cant": "Aliasing errors show up only in particular interleavings of operations on several objects; a test can only try a few.", "anchors": [{"file": "graphical_models/partially_dag.py", "symbols": ["PDAG.copy", "PDAG.orient_edge", "PDAG.delete_edge", "PDAG.delete_directed_edge", "PDAG.delete_undirected_edge", "PDAG.add_edges"]}, {"file": "graphical_models/basic_equivalance_class_graph.py", "symbols": ["MixedGraph.__init__", "MixedGraph.create_empty_graph", "MixedGraph.create_complete_graph", "MixedGraph.delete_edge", "MixedGraph.replace_edge_mark", "MixedGraph.add_edge", "MixedGraph.is_connected"]}]}
{"id": "C88", "title": "Rebuilding part of a graph leaves whole edges", "statement": "If every edge of a graph has a mark at both ends, then this is still so after the edges among some of its nodes were cleared with create_empty_graph(nodes) or replaced with create_complete_graph(mark, nodes).", "quantifier": "every graph, every subset of its nodes, every mark type, every order of iteration over sets", "why_tests_cant": "It is a claim about all graphs and subsets; the library and its tests only use the methods for all nodes, where the problem cannot occur.", "anchors": [{"file": "graphical_models/basic_equivalance_class_graph.py", "symbols": ["MixedGraph.create_empty_graph", "MixedGraph.create_complete_graph"]}]}
{"id": "C89", "title": "The nodes of a graph are fixed by its constructor", "statement": "Changing the set object that was handed to the constructor of a graph, or the node set of a copy of the graph, after the call changes neither the nodes nor the edges of the graph.", "quantifier": "every graph, every later content of the set object", "why_tests_cant": "The effect depends on object identity across calls, far from the place where the set is changed.", "anchors": [{"file": "graphical_models/basic_equivalance_class_graph.py", "symbols": ["MixedGraph.__init__"]}, {"file": "graphical_models/partially_dag.py", "symbols": ["PDAG.copy"]}]}
{"id": "C90", "title": "Without latent variables FCI and ICD orient exactly the compelled edges", "statement": "If the CI test answers d-separation in a DAG over the same variables, then FCI returns the adjacencies of the DAG and puts an arrowhead at b on the edge between a and b if and only if a-->b is in every DAG that is Markov equivalent to the true one. So its arrowheads are the directed edges returned by PC, and adjacencies and arrowheads are the same for all DAGs of the equivalence class, all option values and all iteration orders. The same holds for the arrowheads of ICD whenever it ends with the adjacencies of the DAG, in particular for ICD and find_true_pag if no node has more than two parents.", "quantifier": "every DAG, every CI test that answers d-separation in it, every option value, every order of iteration over sets", "why_tests_cant": "Completeness of the orientation rules is a statement about all Markov equivalent DAGs of all DAGs; tests compare the results with expected graphs for a few examples.", "anchors": [{"file": "causal_discovery_algs/fci.py", "symbols": ["LearnStructFCI.learn_structure"]}, {"file": "causal_discovery_algs/icd.py", "symbols": ["LearnStructICD.learn_structure"]}, {"file": "graphical_models/partial_ancestral_graph.py", "symbols": ["PAG.maximally_orient_pattern", "PAG.orient_v_structures"]}, {"file": "causal_discovery_utils/performance_measures.py", "symbols": ["find_true_pag"]}]}
{"id": "C91", "title": "d-separation queries tell DAGs apart exactly up to Markov equivalence", "statement": "Two DAGs over the same nodes with the same adjacencies and the same unshielded colliders give the same result of dsep for all arguments, including arguments that raise an exception. Conversely, DAGs over the same nodes whose results agree for all pairs of different nodes and all sets of other nodes have the same adjacencies and unshielded colliders, and convert_to_cpdag returns the same graph for them. Therefore the d-separation tests built from equivalent DAGs are interchangeable, and find_true_pag returns the same graph for equivalent DAGs and every set of observed nodes.", "quantifier": "every pair of DAGs over the same nodes, all arguments of dsep, every order of iteration over sets", "why_tests_cant": "It compares the results of all queries on all pairs of equivalent DAGs; it is a theorem of graph theory (Verma and Pearl) that the code has to inherit.", "anchors": [{"file": "graphical_models/dag.py", "symbols": ["DAG.dsep", "DAG.convert_to_cpdag"]}, {"file": "causal_discovery_utils/cond_indep_tests.py", "symbols": ["DSep.cond_indep"]}, {"file": "causal_discovery_utils/performance_measures.py", "symbols": ["find_true_pag"]}]}
{"id": "C92", "title": "Hidden variables do not mislead if there are no unshielded colliders", "statement": "If in the true DAG any two parents of a common child are adjacent, then for every set of observed variables and every CI test that answers d-separation among them, PC, RAI, FCI, ICD and find_true_pag return exactly the edges between observed variables that no set of observed variables separates, and no direction: PC and RAI return undirected edges only and the PAG learners put a circle at both ends of every edge. In particular all these learners agree, although PC and RAI assume that there are no hidden variables. Ordered ICD with a list of the observed variables in which ancestors come first finds the same edges, and all its arrowheads are at the later ends.", "quantifier": "every DAG in which parents of a common child are adjacent, every set of observed nodes, every CI test that answers d-separation, all options, every order of iteration over sets", "why_tests_cant": "It quantifies over all graphs and all choices of hidden variables, and compares learners that take different routes to their results.", "anchors": [{"file": "causal_discovery_algs/pc.py", "symbols": ["LearnStructPC.learn_structure"]}, {"file": "causal_discovery_algs/rai.py", "symbols": ["LearnStructRAI.learn_structure"]}, {"file": "causal_discovery_algs/fci.py", "symbols": ["LearnStructFCI.learn_structure"]}, {"file": "causal_discovery_algs/icd.py", "symbols": ["LearnStructICD.learn_structure"]}, {"file": "causal_discovery_utils/performance_measures.py", "symbols": ["find_true_pag"]}, {"file": "causal_discovery_algs/ordered_icd.py", "symbols": ["LearnStructOrderedICD.learn_structure"]}]}
{"id": "C93", "title": "overwrite_starting_graph = False removes the dependence on the sequence of the CI tests", "statement": "As the comments in the code say, with overwrite_starting_graph = False the graph returned by PC and RAI does not depend on the sequence in which the CI tests are done, that is, on the order of iteration over sets of nodes, for every CI test whose answer depends only on the pair and the conditioning set.", "quantifier": "every set of nodes, every deterministic symmetric CI test (faithful or not), every pair of iteration orders", "why_tests_cant": "A test run sees one iteration order of the interpreter; the claim compares all orders for all possible answers of the CI test.", "anchors": [{"file": "causal_discovery_algs/pc.py", "symbols": ["LearnStructPC.learn_skeleton", "LearnStructPC.learn_structure"]}, {"file": "causal_discovery_algs/rai.py", "symbols": ["LearnStructRAI.learn_structure"]}]}
{"id": "C94", "title": "PC does few tests with small conditioning sets if the true graph is sparse", "statement": "If no node of the true DAG has more than k parents or more than k + 1 neighbours, then PC with a test that answers d-separation for at most k conditioning variables returns the CPDAG, whatever the test answers for more conditioning variables, and asks for at most n^(k+2) tests, n being the number of nodes.", "quantifier": "every DAG, every k, every CI test that is right for small conditioning sets, both values of overwrite_starting_graph, every iteration order", "why_tests_cant": "The number and the kind of the queries depend on the whole graph and on the iteration order; the bound is about all of them.", "anchors": [{"file": "causal_discovery_algs/pc.py", "symbols": ["LearnStructPC.learn_structure", "LearnStructPC.learn_skeleton", "LearnStructPC._exit_cond"]}]}
{"id": "C95", "title": "Recorded separating sets are minimal", "statement": "The separating set that PC (with the default overwrite_starting_graph = True), FCI or RAI (with both values of overwrite_starting_graph) records for a pair that is not adjacent in the result is minimal: the test answered 'independent' for it and 'dependent' for every proper subset of it. Hence, with perfect independence information and any number of latent variables, every member of a recorded set is a cause (ancestor), in the true DAG, of one of the two variables. For PC with overwrite_starting_graph = False this is not so.", "quantifier": "every CI test (also inconsistent ones; for the second part every test that answers d-separation in a DAG on the observed nodes), every set of nodes, every iteration order, both FCI options", "why_tests_cant": "Whether a proper subset was tried before depends on all deletions before; for data with many variables the subsets are too many to enumerate, and minimality has to hold for tests that are not consistent with any graph.", "anchors": [{"file": "causal_discovery_algs/fci.py", "symbols": ["LearnStructFCI._test_ci_increasing", "LearnStructFCI._learn_pc_skeleton", "LearnStructFCI._refine_pc_skeleton", "LearnStructFCI.learn_structure"]}, {"file": "causal_discovery_algs/pc.py", "symbols": ["LearnStructPC.learn_skeleton", "LearnStructPC.learn_structure"]}, {"file": "causal_discovery_algs/rai.py", "symbols": ["LearnStructRAI.learn_structure"]}]}
{"id": "C96", "title": "The measures of the library judge a learned graph rightly", "statement": "The structural Hamming distance between the CPDAGs of two DAGs over the same variables is zero exactly when the DAGs answer every d-separation query alike; so is the distance between the graph that PC learns with perfect independence information about one DAG and the CPDAG of the other. A learned graph at distance zero from the CPDAG of the true DAG has exactly the DAGs that are equivalent to the true one (and keep its directed edges) as consistent extensions. The perfect result of PC, or of FCI when all variables are observed, gets precision = recall = F1 = 1 and FPR = FNR = 0, except that a ZeroDivisionError is raised when the true graph is empty or complete. convert_to_dag turns PC's perfect result into a DAG that answers every d-separation query as the true DAG does and has the same BDeu score on every data set; the threshold search over PC never returns a threshold with a lower score than that of the true DAG if one of its thresholds led to perfect results. A PAG gets F1 = 1 and orientation correctness 1 from calc_structural_accuracy_pag exactly when it has the same edges and marks as the true PAG (which must have an edge and a nonadjacent pair).", "quantifier": "every pair of DAGs over the same nodes, every test that answers d-separation in the DAG, every iteration order of the sets, every data set within the state sizes and every function in the place of gammaln", "why_tests_cant": "The claim is an equivalence between a number and the answers to all (exponentially many) d-separation queries, for all graphs; a test with a few graphs cannot exclude that two inequivalent graphs are at distance zero.", "anchors": [{"file": "causal_discovery_utils/performance_measures.py", "symbols": ["structural_hamming_distance_cpdag", "calc_skeleton_accuracy", "score_bdeu", "calc_structural_accuracy_pag"]}, {"file": "causal_discovery_algs/pc.py", "symbols": ["LearnStructPC.learn_structure"]}, {"file": "causal_discovery_algs/fci.py", "symbols": ["LearnStructFCI.learn_structure"]}, {"file": "graphical_models/partially_dag.py", "symbols": ["PDAG.convert_to_dag"]}, {"file": "graphical_models/dag.py", "symbols": ["DAG.convert_to_cpdag", "DAG.dsep"]}, {"file": "experiment_utils/threshold_select_ci_test.py", "symbols": ["search_threshold_bdeu"]}]}
{"id": "C97", "title": "The names and the order of the variables do not matter, with perfect independence information and in the measures", "statement": "Let the nodes of a DAG be renamed by a one-to-one map, to names that may be ordered differently. Then dsep gives the same answer to the renamed query; convert_to_cpdag gives the renamed CPDAG; PC with tests that answer d-separation learns the renamed graph, with the same directed and undirected edges; FCI with all variables observed, and find_true_pag for DAGs with at most two parents per node, give the same edges and the same arrowheads. None of this depends on the iteration order of the sets, on the options (overwrite_starting_graph, selection bias, tails) or on the kind of names. The measures do not depend on the names either: the structural Hamming distance with all its parts and the skeleton accuracy (including its ZeroDivisionError) are the same for renamed graphs, and the BDeu score of the renamed DAG is the same on data with the columns renamed accordingly and the records in any order.", "quantifier": "every DAG, every one-to-one renaming of its nodes into any ordered type, every pair of iteration orders, every pair of tests that answer d-separation in the two DAGs, every value of the options; every pair of PDAGs; every data set within the state sizes and every function in the place of gammaln", "why_tests_cant": "The code sorts nodes, iterates over sets and stops at the first separating set, so the names do influence the sequence of tests and the recorded sets (see C93); a test compares a few of the n! renamings of a few graphs.", "anchors": [{"file": "graphical_models/dag.py", "symbols": ["DAG.dsep", "DAG.convert_to_cpdag"]}, {"file": "causal_discovery_algs/pc.py", "symbols": ["LearnStructPC.learn_structure"]}, {"file": "causal_discovery_algs/fci.py", "symbols": ["LearnStructFCI.learn_structure"]}, {"file": "causal_discovery_utils/performance_measures.py", "symbols": ["find_true_pag", "structural_hamming_distance_cpdag", "calc_skeleton_accuracy", "score_bdeu"]}]}
{"id": "C98", "title": "PC with the test objects of the library: caching, counting, units and coding do not influence the result, and no exception of its own is raised", "statement": "PC run with a test object that has a state (cache, counter) and may raise: the graph, the separating sets and the number of tests, or the exception with which it ends, depend only on the answers of the object to valid queries. Hence use_cache and count_tests have no influence; changing the units of continuous variables, the order of the records or the coding of categories has no influence; PC with a DSep object on a DAG returns the CPDAG; PC with the mutual-information test on categorical data always ends normally; PC with the partial-correlation test on data without constant columns ends normally or with a LinAlgError, the latter only if the correlation matrix of four or more variables is singular. PC itself raises nothing: every exception comes from a query about two different nodes and a duplicate-free tuple of other nodes.", "quantifier": "every set of nodes, every test object and initial state, every iteration order, both values of overwrite_starting_graph, every data set, threshold, retained graph and option of the tests", "why_tests_cant": "The sequence of queries depends on the answers, so a difference between cached and computed answers could show in any of exponentially many histories; tests run a few data sets with one setting of the options.", "anchors": [{"file": "causal_discovery_algs/pc.py", "symbols": ["LearnStructPC.learn_structure", "LearnStructPC.learn_skeleton"]}, {"file": "causal_discovery_utils/cond_indep_tests.py", "symbols": ["DSep.cond_indep", "StatCondIndep.cond_indep", "CondIndepParCorr.calc_statistic", "CondIndepCMI.cond_indep", "CacheCI"]}]}
{"id": "C99", "title": "FCI with the test objects of the library: caching, counting and units do not influence the result, and no exception is raised or swallowed", "statement": "FCI run with a test object that has a state (cache, counter) and may raise: the graph, the separating sets, the number of tests and the returned flag, or the exception with which it ends, depend only on the answers of the object to valid queries. Hence use_cache and count_tests have no influence, nor have the units of continuous variables. With a DSep object on a DAG whose nodes are all observed it finds the skeleton and places an arrowhead exactly where every Markov equivalent DAG has one; with latent nodes no inseparable pair loses its edge. With the mutual-information test on categorical data it always ends normally; with the partial-correlation test on data without constant columns it ends normally or with a LinAlgError, the latter only if the correlation matrix of four or more variables is singular. FCI itself raises nothing: every exception comes from a query about two different nodes and a duplicate-free tuple of other nodes; and if FCI returns, no query has raised.", "quantifier": "every set of nodes, every test object and initial state, every iteration order, both values of the two options for orientation, every data set, threshold, retained graph and option of the tests", "why_tests_cant": "The queries of the second stage depend on the orientations after the first, which depend on the answers: the number of histories is exponential, and the validity of each query (nodes distinct, tuple without the end points) must hold in all of them.", "anchors": [{"file": "causal_discovery_algs/fci.py", "symbols": ["LearnStructFCI.learn_structure", "LearnStructFCI._refine_pc_skeleton", "LearnStructFCI._test_ci_increasing"]}, {"file": "causal_discovery_utils/cond_indep_tests.py", "symbols": ["DSep.cond_indep", "StatCondIndep.cond_indep", "CondIndepParCorr.calc_statistic", "CondIndepCMI.cond_indep", "CacheCI"]}]}
{"id": "C100", "title": "ICD with the test objects of the library: caching, counting and units do not influence the result, and no exception is raised or swallowed", "statement": "ICD run with a test object that has a state (cache, counter) and may raise: the graph, the separating sets and the number of tests, or the exception with which it ends, depend only on the answers of the object to valid queries. Hence use_cache and count_tests have no influence, nor have the units of continuous variables. With a DSep object on a DAG it does not raise, and no inseparable pair of observed nodes loses its edge; if all nodes are observed and have at most two parents each, it finds the skeleton and places an arrowhead exactly where every Markov equivalent DAG has one. The graph of find_true_pag is the one learned with such an object, whatever the options of the object. With the mutual-information test on categorical data ICD always ends normally; with the partial-correlation test on data without constant columns it ends normally or with a LinAlgError, the latter only if the correlation matrix of four or more variables is singular. ICD itself raises nothing: every exception comes from a query about two different nodes and a duplicate-free tuple of other nodes; and if ICD returns, no query has raised.", "quantifier": "every set of nodes, every test object and initial state, every iteration order, every combination of the options of ICD, every data set, threshold, retained graph and option of the tests", "why_tests_cant": "The conditioning sets that ICD proposes depend on the orientations of the previous iteration, which depend on the answers: the number of histories is exponential, and the validity of each query must hold in all of them.", "anchors": [{"file": "causal_discovery_algs/icd.py", "symbols": ["LearnStructICD.learn_structure", "LearnStructICD._learn_struct_base_step_0", "LearnStructICD._learn_struct_base_step_1", "LearnStructICD._learn_struct_incremental_step"]}, {"file": "causal_discovery_utils/performance_measures.py", "symbols": ["find_true_pag"]}, {"file": "causal_discovery_utils/cond_indep_tests.py", "symbols": ["DSep.cond_indep", "StatCondIndep.cond_indep", "CondIndepParCorr.calc_statistic", "CondIndepCMI.cond_indep", "CacheCI"]}]}
{"id": "C101", "title": "RAI with the test objects of the library: caching, counting and units do not influence the result, and no exception is raised or swallowed", "statement": "RAI run with a test object that has a state (cache, counter) and may raise: the graph, the separating sets and the number of tests, or the exception with which it ends, depend only on the answers of the object to valid queries. Hence use_cache and count_tests have no influence, nor have the units of continuous variables. With a DSep object on a DAG (some nodes may be unobserved) it does not raise, and each recorded set separates its pair, is minimal and consists of ancestors of the pair; with all nodes observed no edge of the DAG is lost, and if parents of a common child are always adjacent the result is the CPDAG. With the mutual-information test on categorical data RAI always ends normally; with the partial-correlation test on data without constant columns it ends normally or with a LinAlgError, the latter only if the correlation matrix of four or more variables is singular. RAI itself raises nothing: every exception comes from a query about two different nodes and a duplicate-free tuple of other nodes; and if RAI returns, no query has raised.", "quantifier": "every set of nodes, every test object and initial state, every iteration order, both values of overwrite_starting_graph, every data set, threshold, retained graph and option of the tests", "why_tests_cant": "RAI splits the nodes recursively according to the orientations so far, which depend on the answers: the number of histories is exponential, and in each of them every query must be about two different nodes and other nodes.", "anchors": [{"file": "causal_discovery_algs/rai.py", "symbols": ["LearnStructRAI.learn_structure", "LearnStructRAI._learn_recursively", "LearnStructRAI._refine_exogenous_effect", "LearnStructRAI._refine_endogenous"]}, {"file": "causal_discovery_utils/cond_indep_tests.py", "symbols": ["DSep.cond_indep", "StatCondIndep.cond_indep", "CondIndepParCorr.calc_statistic", "CondIndepCMI.cond_indep", "CacheCI"]}]}
{"id": "C102", "title": "Ordered ICD with the test objects of the library: caching, counting and units do not influence the result, and no exception is raised or swallowed", "statement": "Ordered ICD (local or global variant), given an order that lists every node once and run with a test object that has a state (cache, counter) and may raise: the graph, the separating sets and the number of tests, or the exception with which it ends, depend only on the answers of the object to valid queries. Hence use_cache and count_tests have no influence, nor have the units of continuous variables. With a DSep object on a DAG and a causal order it does not raise; if all nodes are observed and have at most three parents (local variant) or two (global variant), and at most max_cond_size, the skeleton is that of the DAG and an arrowhead stands exactly where the DAG has one; with unobserved nodes no pair that cannot be separated loses its edge, and if no separable pair is left adjacent, the arrowheads and the unshielded colliders are right. With the mutual-information test on categorical data it always ends normally; with the partial-correlation test on data without constant columns it ends normally or with a LinAlgError, the latter only if the correlation matrix of four or more variables is singular. The learner itself raises nothing: every exception comes from a query about two different nodes and a duplicate-free tuple of other nodes; and if it returns, no query has raised.", "quantifier": "every set of nodes, every order of it, both variants, every max_cond_size, every test object and initial state, every iteration order of sets, every data set, threshold, retained graph and option of the tests", "why_tests_cant": "The conditioning sets tried depend on the possible-d-separation trees of the graph so far, hence on all earlier answers; the property quantifies over all objects and all their histories.", "anchors": [{"file": "causal_discovery_algs/ordered_icd.py", "symbols": ["LearnStructOrderedICD.learn_structure", "LearnStructOrderedICD.learn_structure_local", "LearnStructOrderedICD.learn_structure_global", "LearnStructOrderedICD._learn_node_connection", "LearnStructOrderedICD._learn_r_connectivity_node"]}, {"file": "causal_discovery_utils/cond_indep_tests.py", "symbols": ["DSep.cond_indep", "StatCondIndep.cond_indep", "CondIndepParCorr.calc_statistic", "CondIndepCMI.cond_indep", "CacheCI"]}]}
{"id": "C103", "title": "What the learners learn from data depends only on what the data say", "statement": "PC, FCI, ICD, RAI and ordered ICD (each with any options), run with a test object of the library on data, end with the same graph, separating sets and number of tests, or with the same exception, if the data are presented differently: with the mutual-information test, if the categories are coded by other numbers, if the records are given in another order (with their weights), if every record is given twice, or if all weights and the threshold are multiplied by the same positive number; with the partial-correlation test, if the records are reordered and the variables are measured in other units (scale, also negative, and zero point). Options for caching and counting may differ as well.", "quantifier": "every data set (without constant columns in the continuous case), every injective recoding of each variable, every permutation of the records, every positive factor, every threshold, retained graph, set of nodes and option of learner and test", "why_tests_cant": "Invariance under all recodings, permutations and rescalings of all data sets, for runs in which one changed answer may change everything that follows; a test compares two runs.", "anchors": [{"file": "causal_discovery_utils/cond_indep_tests.py", "symbols": ["CondIndepParCorr", "CondIndepCMI", "StatCondIndep.cond_indep", "CacheCI"]}, {"file": "causal_discovery_utils/data_utils.py", "symbols": ["get_var_size"]}, {"file": "causal_discovery_algs/pc.py", "symbols": ["LearnStructPC.learn_structure"]}, {"file": "causal_discovery_algs/fci.py", "symbols": ["LearnStructFCI.learn_structure"]}, {"file": "causal_discovery_algs/icd.py", "symbols": ["LearnStructICD.learn_structure"]}, {"file": "causal_discovery_algs/rai.py", "symbols": ["LearnStructRAI.learn_structure"]}, {"file": "causal_discovery_algs/ordered_icd.py", "symbols": ["LearnStructOrderedICD.learn_structure"]}]}
{"id": "C104", "title": "The learners agree with each other on a perfect test", "statement": "With d-separation test objects on a DAG all of whose nodes are observed: PC and FCI find the same adjacencies, and FCI places an arrowhead exactly where PC directs the edge; ICD finds the same adjacencies and arrowheads as FCI if no node has more than two parents; ordered ICD, given a causal order, finds the same adjacencies, keeps every arrow of PC and directs each edge of PC one way (for at most two parents, three in the local variant, and at most max_cond_size); RAI keeps every adjacency of PC and returns the same graph if parents of a common child are always adjacent. FCI on two DAGs over the same nodes finds the same adjacencies and arrowheads exactly if the DAGs are Markov equivalent. Options of the learners and of the test objects may differ between the two runs.", "quantifier": "every DAG (with the bounds on parents stated) over columns 0..m-1, every pair of DAGs over the same nodes, every iteration order of sets, every option of learner and test", "why_tests_cant": "Compares two different programs on all DAGs; the agreement of their answers follows only from each being correct, and a test compares them on chosen graphs.", "anchors": [{"file": "causal_discovery_algs/pc.py", "symbols": ["LearnStructPC.learn_structure"]}, {"file": "causal_discovery_algs/fci.py", "symbols": ["LearnStructFCI.learn_structure"]}, {"file": "causal_discovery_algs/icd.py", "symbols": ["LearnStructICD.learn_structure"]}, {"file": "causal_discovery_algs/rai.py", "symbols": ["LearnStructRAI.learn_structure"]}, {"file": "causal_discovery_algs/ordered_icd.py", "symbols": ["LearnStructOrderedICD.learn_structure"]}, {"file": "causal_discovery_utils/cond_indep_tests.py", "symbols": ["DSep"]}]}
{"id": "C105", "title": "Conversions and local queries of graphs do what they say", "statement": "max_parents of a DAG is the largest number of parents of a node. fan_in of a PAG counts the neighbours with an arrowhead or circle at the node, fan_in of a PDAG those that are parents or joined by an undirected edge. is_any_edge_mark tells whether there is an edge, from either end. which_reachable_any_edgemark returns the sources other than the target connected with it by a path inside the given nodes. After find_visible_edges, is_edge_visible answers visibility (Zhang's definition); before it, it fails (its documentation says that it would compute visibility first). convert_to_undirected makes exactly the directed and bi-directed edges between the given nodes undirected. delete_edges_not_present_in removes exactly the edges between given nodes that are not adjacent in the other graph. None of them raises an exception otherwise.", "quantifier": "every DAG, well-formed PDAG and well-formed mixed graph, every set of nodes, every iteration order of sets", "why_tests_cant": "Holds for all graphs and node subsets, including bi-directed edges and edges leaving the subset; the unit tests cover few of these functions.", "anchors": [{"file": "graphical_models/dag.py", "symbols": ["DAG.max_parents"]}, {"file": "graphical_models/partial_ancestral_graph.py", "symbols": ["PAG.fan_in", "PAG.is_edge_visible", "PAG.find_visible_edges", "PAG.which_reachable_any_edgemark"]}, {"file": "graphical_models/partially_dag.py", "symbols": ["PDAG.fan_in", "PDAG.convert_to_undirected", "PDAG.delete_edges_not_present_in"]}, {"file": "graphical_models/basic_equivalance_class_graph.py", "symbols": ["MixedGraph.is_any_edge_mark"]}]}
