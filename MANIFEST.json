{
 "claims": [
  {
   "property": "C01",
   "status": "proved",
   "theorems": [
    "Verif.C01_is_reachable_exact",
    "Verif.UGraph.Built.wf"
   ],
   "note": "Termination and exactness for every well-formed undirected graph; every graph built through the API is well-formed."
  },
  {
   "property": "C02",
   "status": "proved",
   "theorems": [
    "Verif.C02_is_ancestor_exact",
    "Verif.C02_is_ancestor_keyError",
    "Verif.Dag.Built.wf"
   ],
   "note": "Also on cyclic graphs."
  },
  {
   "property": "C03",
   "status": "proved",
   "theorems": [
    "Verif.C03_recursive_agrees",
    "Verif.C03_recursive_diverges_on_cycle"
   ],
   "note": "Agreement on acyclic graphs; divergence for every budget on a 2-cycle."
  },
  {
   "property": "C04",
   "status": "proved",
   "theorems": [
    "Verif.C04_is_acyclic_exact"
   ],
   "note": ""
  },
  {
   "property": "C05",
   "status": "proved",
   "theorems": [
    "Verif.C05_get_ancestors_exact"
   ],
   "note": ""
  },
  {
   "property": "C06",
   "status": "proved",
   "theorems": [
    "Verif.C06_dsep_exact"
   ],
   "note": "Ancestral moral graph test equals path-based d-separation."
  },
  {
   "property": "C07",
   "status": "proved",
   "theorems": [
    "Verif.C07_dsep_symmetric",
    "Verif.C07_dsep_true_of_second_conditioned",
    "Verif.C07_dsep_asymmetric_witness"
   ],
   "note": "Symmetry for unconditioned end points; asymmetry otherwise."
  },
  {
   "property": "C08",
   "status": "proved",
   "theorems": [
    "Verif.C08_adjacent_never_separated",
    "Verif.C08_parents_separate",
    "Verif.C08_separable_iff_nonadjacent"
   ],
   "note": ""
  },
  {
   "property": "C09",
   "status": "proved",
   "theorems": [
    "Verif.C09_topological_groups",
    "Verif.C09_assertion_on_cycle",
    "Verif.C09_acyclicIn_nodes",
    "Verif.C09_topological_order"
   ],
   "note": ""
  },
  {
   "property": "C10",
   "status": "proved",
   "theorems": [
    "Verif.C10_is_graph_connected_exact",
    "Verif.C10_assertion_on_small"
   ],
   "note": ""
  },
  {
   "property": "C100",
   "status": "proved",
   "theorems": [
    "Verif.C100_objects",
    "Verif.C100_answers",
    "Verif.C100_cache",
    "Verif.C100_true_pag",
    "Verif.C100_dsep",
    "Verif.C100_latent",
    "Verif.C100_units",
    "Verif.C100_cmi",
    "Verif.C100_exceptions",
    "Verif.C100_swallowed",
    "Verif.C100_singular"
   ],
   "note": "ICD with stateful test objects that may raise"
  },
  {
   "property": "C101",
   "status": "proved",
   "theorems": [
    "Verif.C101_objects",
    "Verif.C101_answers",
    "Verif.C101_cache",
    "Verif.C101_dsep",
    "Verif.C101_all",
    "Verif.C101_units",
    "Verif.C101_cmi",
    "Verif.C101_exceptions",
    "Verif.C101_swallowed",
    "Verif.C101_singular"
   ],
   "note": "RAI with stateful test objects that may raise"
  },
  {
   "property": "C102",
   "status": "proved",
   "theorems": [
    "Verif.C102_objects",
    "Verif.C102_answers",
    "Verif.C102_cache",
    "Verif.C102_dsep",
    "Verif.C102_latent",
    "Verif.C102_units",
    "Verif.C102_cmi",
    "Verif.C102_exceptions",
    "Verif.C102_swallowed",
    "Verif.C102_singular"
   ],
   "note": "ordered ICD with stateful test objects that may raise"
  },
  {
   "property": "C103",
   "status": "proved",
   "theorems": [
    "Verif.C103_objects",
    "Verif.C103_coding",
    "Verif.C103_records",
    "Verif.C103_shuffle",
    "Verif.C103_twice",
    "Verif.C103_scale",
    "Verif.C103_units"
   ],
   "note": "five learners with the test objects of the library; exact real arithmetic"
  },
  {
   "property": "C104",
   "status": "proved",
   "theorems": [
    "Verif.C104_pc_fci",
    "Verif.C104_fci_icd",
    "Verif.C104_pc_ordered",
    "Verif.C104_pc_rai",
    "Verif.C104_fci_apart"
   ],
   "note": "Pairs of learners with DSep objects on a fully observed DAG; bounds on parents for ICD and ordered ICD as in C100 and C102; RAI keeps PC's adjacencies, and gives the same graph when parents of a common child are adjacent."
  },
  {
   "property": "C105",
   "status": "proved",
   "theorems": [
    "Verif.Dag.C105_max_parents",
    "Verif.MG.C105_visible",
    "Verif.MG.C105_visible_not_computed",
    "Verif.MG.C105_fan_in",
    "Verif.MG.C105_pdag_fan_in",
    "Verif.MG.C105_any_mark",
    "Verif.MG.C105_which_reachable",
    "Verif.MG.C105_undirected",
    "Verif.MG.C105_undirected_all",
    "Verif.MG.C105_delete_absent"
   ],
   "note": "Functions of the graph classes not covered by other properties; is_edge_visible before find_visible_edges fails, contrary to its documentation."
  },
  {
   "property": "C11",
   "status": "proved",
   "theorems": [
    "Verif.C11_adj_mat_entries",
    "Verif.C11_round_trip",
    "Verif.C11_round_trip_matrix",
    "Verif.C11_partial_list_keyError"
   ],
   "note": ""
  },
  {
   "property": "C12",
   "status": "proved",
   "theorems": [
    "Verif.C12_isolated_ok",
    "Verif.C12_disconnect_raises"
   ],
   "note": "The intended effect is violated whenever the node has a neighbour."
  },
  {
   "property": "C13",
   "status": "proved",
   "theorems": [
    "Verif.C13_cyclic",
    "Verif.C13_cpdag"
   ],
   "note": "ValueError exactly on cyclic graphs; otherwise same nodes, adjacencies, unshielded colliders, no bi-directed edge, directed edges agree with the DAG."
  },
  {
   "property": "C14",
   "status": "proved",
   "theorems": [
    "Verif.C14_essential"
   ],
   "note": "Meek's rules R1-R3 proved sound and complete (chordality of the undirected part, explicit construction of a Markov equivalent DAG for either orientation). Markov equivalence is stated as same adjacencies and unshielded colliders."
  },
  {
   "property": "C15",
   "status": "proved",
   "theorems": [
    "Verif.C15_canonical"
   ],
   "note": "For any two iteration orders and rule orders."
  },
  {
   "property": "C16",
   "status": "proved",
   "theorems": [
    "Verif.C16_fixpoint",
    "Verif.C16_keyError"
   ],
   "note": "Any selection of rules 1-4, any set of nodes of interest; other rule indices raise KeyError."
  },
  {
   "property": "C17",
   "status": "proved",
   "theorems": [
    "Verif.C17_rules_sound",
    "Verif.C17_extension_kept",
    "Verif.C17_rule4_unsound"
   ],
   "note": "The code's rule 4 lacks the documented non-adjacency test: witness graph with a consistent extension having the opposite edge. Soundness of R1-R3, and of R4 under the documented condition."
  },
  {
   "property": "C18",
   "status": "proved",
   "theorems": [
    "Verif.C18_sound"
   ],
   "note": ""
  },
  {
   "property": "C19",
   "status": "proved",
   "theorems": [
    "Verif.C19_complete"
   ],
   "note": "Success is reported exactly if a consistent extension exists (Dor-Tarsi), for any well-formed PDAG including bi-directed or cyclic ones."
  },
  {
   "property": "C20",
   "status": "proved",
   "theorems": [
    "Verif.C20_partial_order",
    "Verif.C20_first_group"
   ],
   "note": "Any graph."
  },
  {
   "property": "C21",
   "status": "proved",
   "theorems": [
    "Verif.C21_skeleton",
    "Verif.C21_structure"
   ],
   "note": "any CI test (may depend on the number of the call), any iteration order, both values of overwrite_starting_graph; also proves that kept pairs were tested with every set of remaining neighbours, and the same for learn_structure"
  },
  {
   "property": "C22",
   "status": "proved",
   "theorems": [
    "Verif.C22_skeleton",
    "Verif.C22_vstructures",
    "Verif.C22_dsep_oracle"
   ],
   "note": "the oracle hypothesis is met by the library's d-separation test"
  },
  {
   "property": "C23",
   "status": "proved",
   "theorems": [
    "Verif.C23_pc_cpdag",
    "Verif.C23_essential"
   ],
   "note": "same edges as DAG.convert_to_cpdag, for all pairs of iteration orders"
  },
  {
   "property": "C24",
   "status": "proved",
   "theorems": [
    "Verif.C24_invariant",
    "Verif.C24_addEdge",
    "Verif.C24_deleteEdge",
    "Verif.C24_replaceEdgeMark",
    "Verif.C24_replace_nonadjacent",
    "Verif.C24_resetOrientations"
   ],
   "note": "C24_replace_nonadjacent shows why the adjacency condition is needed"
  },
  {
   "property": "C25",
   "status": "proved",
   "theorems": [
    "Verif.C25_reachable"
   ],
   "note": ""
  },
  {
   "property": "C26",
   "status": "proved",
   "theorems": [
    "Verif.C26_components",
    "Verif.C26_components_mark",
    "Verif.C26_connected",
    "Verif.C26_pdag_order_dependent"
   ],
   "note": "includes the witness for the PDAG failure"
  },
  {
   "property": "C27",
   "status": "partial",
   "theorems": [
    "Verif.C27_undirected",
    "Verif.C27_dag",
    "Verif.C27_mixed",
    "Verif.C27_getNumEdges",
    "Verif.C27_getNumEdges_bidirected",
    "Verif.C27_skeleton_mat_partial",
    "Verif.C27_skeleton_mat_pdag",
    "Verif.C27_skeleton_graph"
   ],
   "note": "the get_skeleton_mat part is false for PDAGs with directed edges (C27_skeleton_mat_pdag is the witness); it is proved for graphs with marks at both ends; all other parts are proved in full"
  },
  {
   "property": "C28",
   "status": "proved",
   "theorems": [
    "Verif.C28_round_trip",
    "Verif.C28_matrix",
    "Verif.C28_errors"
   ],
   "note": "Both directions of the round trip, with default and explicit node order, and the error branches."
  },
  {
   "property": "C29",
   "status": "proved",
   "theorems": [
    "Verif.C29_possible_ancestor",
    "Verif.C29_find_possible_ancestors"
   ],
   "note": "Exact characterisation by possibly-directed paths, every iteration order; termination included."
  },
  {
   "property": "C30",
   "status": "proved",
   "theorems": [
    "Verif.C30_m_separation",
    "Verif.C30_undirected_wrong"
   ],
   "note": "m-separation is exact on mixed graphs without undirected edges; with undirected edges the answer can be wrong (witness)."
  },
  {
   "property": "C31",
   "status": "proved",
   "theorems": [
    "Verif.C31_orientation",
    "Verif.C31_unknown_rule"
   ],
   "note": "Termination, adjacency preservation, no new circles, fixpoint; unknown rule numbers are an error."
  },
  {
   "property": "C32",
   "status": "proved",
   "theorems": [
    "Verif.C32_sound"
   ],
   "note": "Rules 1-9 in any combination, against every ancestral graph compatible with the input."
  },
  {
   "property": "C33",
   "status": "proved",
   "theorems": [
    "Verif.C33_discriminating"
   ],
   "note": "Exact: a path is returned iff there is one."
  },
  {
   "property": "C34",
   "status": "proved",
   "theorems": [
    "Verif.C34_uncovered_path",
    "Verif.C34_same_node"
   ],
   "note": "Exact: returned paths are valid, none means there is none."
  },
  {
   "property": "C35",
   "status": "partial",
   "theorems": [
    "Verif.C35_rule10_coded",
    "Verif.C35_rule10_partial",
    "Verif.C35_rule10_unsound"
   ],
   "note": "Rule 10 as coded omits the possibly-directed condition: proved unsound by a witness (full orientation pipeline); sound when the documented condition holds."
  },
  {
   "property": "C36",
   "status": "partial",
   "theorems": [
    "Verif.C36_as_coded",
    "Verif.C36_documented_partial",
    "Verif.C36_order_independent_partial",
    "Verif.C36_order_dependent"
   ],
   "note": "The code depends on iteration order (witness); exact description of what it computes, and conditions under which it equals the documented set."
  },
  {
   "property": "C37",
   "status": "proved",
   "theorems": [
    "Verif.C37_ordered_buckets",
    "Verif.C37_no_return"
   ],
   "note": "Exact decision logic of return, assertion error and non-termination, with a non-terminating witness."
  },
  {
   "property": "C38",
   "status": "proved",
   "theorems": [
    "Verif.C38_symm",
    "Verif.C38_get_set",
    "Verif.C38_init",
    "Verif.C38_erase",
    "Verif.C38_histories",
    "Verif.C38_copy",
    "Verif.C38_copy_into"
   ],
   "note": "value-level laws and a memory model with object identities for aliasing"
  },
  {
   "property": "C39",
   "status": "proved",
   "theorems": [
    "Verif.C39_criterion",
    "Verif.C39_static",
    "Verif.C39_statistic",
    "Verif.C39_dsep"
   ],
   "note": "Histories of queries and cache deletions. Stated for the oracle test, the known-graph test, the p-value test and d-separation."
  },
  {
   "property": "C40",
   "status": "proved",
   "theorems": [
    "Verif.C40_key_error",
    "Verif.C40_set"
   ],
   "note": ""
  },
  {
   "property": "C41",
   "status": "partial",
   "theorems": [
    "Verif.C41_retained",
    "Verif.C41_cmi_inverted",
    "Verif.C41_cmi_partial"
   ],
   "note": "Holds for the p-value test. Violated by the mutual-information test: C41_cmi_inverted proves that every retained pair is reported independent; C41_cmi_partial covers pairs that are not retained."
  },
  {
   "property": "C42",
   "status": "proved",
   "theorems": [
    "Verif.C42_index",
    "Verif.C42_counts",
    "Verif.C42_weights",
    "Verif.C42_errors",
    "Verif.C42_var_size",
    "Verif.C42_var_size_empty"
   ],
   "note": ""
  },
  {
   "property": "C43",
   "status": "proved",
   "theorems": [
    "Verif.C43_table",
    "Verif.C43_data",
    "Verif.C43_cached"
   ],
   "note": "Exact reals instead of floats. C43_data ties the statistic to the records through counting and reshaping."
  },
  {
   "property": "C44",
   "status": "proved",
   "theorems": [
    "Verif.C44_residual",
    "Verif.C44_pvalue",
    "Verif.C44_monotone",
    "Verif.C44_symm",
    "Verif.C44_cached"
   ],
   "note": "Exact reals instead of floats; NaN and infinities of division and square root are modelled, and the singular-matrix exception."
  },
  {
   "property": "C45",
   "status": "proved",
   "theorems": [
    "Verif.C45_cov_to_corr"
   ],
   "note": ""
  },
  {
   "property": "C46",
   "status": "proved",
   "theorems": [
    "Verif.C46_unroll",
    "Verif.C46_errors"
   ],
   "note": "Includes the zeroing of unobserved columns in reversed order."
  },
  {
   "property": "C47",
   "status": "proved",
   "theorems": [
    "Verif.C47_add_branch",
    "Verif.C47_get_child",
    "Verif.C47_min_distance",
    "Verif.C47_max_depth",
    "Verif.C47_reachable",
    "Verif.C47_legal",
    "Verif.C47_pds_path",
    "Verif.C47_subsets"
   ],
   "note": "Trees built with add_branch (well-formedness is shown to be preserved); tree objects inside of a tree are addressed by the list of origins on the way from the root."
  },
  {
   "property": "C48",
   "status": "proved",
   "theorems": [
    "Verif.C48_assert",
    "Verif.C48_tree",
    "Verif.C48_set",
    "Verif.C48_incomplete",
    "Verif.C48_revisit"
   ],
   "note": "Termination, no exceptions and soundness for every proper mixed graph, order, root and depth; exact for graphs without triangles (FCI's set); the witnesses show incompleteness/order dependence with triangles, and a node that is reached only by walks that revisit a node."
  },
  {
   "property": "C49",
   "status": "proved",
   "theorems": [
    "Verif.C49_fci",
    "Verif.C49_fci_tested",
    "Verif.C49_fci_oracle",
    "Verif.C49_fci_dag",
    "Verif.C49_icd",
    "Verif.C49_icd_shrinks",
    "Verif.C49_icd_tested",
    "Verif.C49_icd_candidates",
    "Verif.C49_icd_oracle",
    "Verif.C49_icd_tails_unsound"
   ],
   "note": "FCI and ICD for every CI test and iteration order; soundness of all marks needs tail rules off or no bidirected edges (rule 10 as coded is unsound: C49_icd_tails_unsound is a whole-run witness); that the skeleton found with an m-separation oracle is exact is proved for FCI with a DAG oracle only"
  },
  {
   "property": "C50",
   "status": "proved",
   "theorems": [
    "Verif.C50_terminates",
    "Verif.C50_iteration",
    "Verif.C50_stop"
   ],
   "note": "bound is max(2,n) iterations"
  },
  {
   "property": "C51",
   "status": "proved",
   "theorems": [
    "Verif.C51_init",
    "Verif.C51_order",
    "Verif.C51_skeleton",
    "Verif.C51_tested",
    "Verif.C51_pass",
    "Verif.C51_oracle",
    "Verif.C51_init_unchecked",
    "Verif.C51_no_removal"
   ],
   "note": "Unconditional for any order of the nodes and any CI test. C51_oracle has the hypothesis that no superfluous adjacency is left (exactness of the skeleton is not proved). C51_init_unchecked: an order with a repeated node passes the constructor and makes learn_structure raise."
  },
  {
   "property": "C52",
   "status": "partial",
   "theorems": [
    "Verif.C52_partial",
    "Verif.C52_partial_orient",
    "Verif.C52_fails",
    "Verif.C52_crash",
    "Verif.C52_no_homology"
   ],
   "note": "Disagreement: orientation of TS-ICD restores removed edges (C52_fails), can end in an AssertionError with an exact test (C52_crash), and without homology always restores edges between different times with a lag below the longest (C52_no_homology). Proved: orientation keeps time-independent skeletons (C52_partial_orient), and whole runs with homology succeed and keep removals if no positive test conditions on nodes earlier than both tested nodes (C52_partial)."
  },
  {
   "property": "C53",
   "status": "partial",
   "theorems": [
    "Verif.C53_counted",
    "Verif.C53_partial",
    "Verif.C53_fails"
   ],
   "note": "C53_counted says exactly what is counted; C53_fails is a run in which the count is wrong. C53_partial: correct for at most one sample, temperature zero, or samples with equal skeletons."
  },
  {
   "property": "C54",
   "status": "proved",
   "theorems": [
    "Verif.C54_parts",
    "Verif.C54_total",
    "Verif.C54_zero",
    "Verif.C54_exchange",
    "Verif.C54_order",
    "Verif.C54_triangle",
    "Verif.C54_missing_node",
    "Verif.C54_bidirected_fails",
    "Verif.C54_extra_nodes_ignored"
   ],
   "note": "For PDAGs (no bi-directed edges). C54_bidirected_fails: with a bi-directed edge in the true graph the code's distance can be zero for different graphs and depends on the node order. C54_extra_nodes_ignored: edges at nodes that only the tested graph has are not counted. The isinstance check of the function is not modelled."
  },
  {
   "property": "C55",
   "status": "proved",
   "theorems": [
    "Verif.C55_explain",
    "Verif.C55_same_size",
    "Verif.C55_graph",
    "Verif.C55_neighbour",
    "Verif.C55_repeat",
    "Verif.C55_no_tester",
    "Verif.C55_exhaustive",
    "Verif.C55_exhaustive_complete_partial",
    "Verif.C55_exhaustive_misses",
    "Verif.C55_compare",
    "Verif.C55_range_zero"
   ],
   "note": "Exact set of explanations for any graph, tester, size bound and range (the tester is a function of the list of tokens and the target). Disagreements: the exhaustive search never tries the full token set when the target is not one of the tokens (C55_exhaustive_misses; complete if it is: C55_exhaustive_complete_partial); max_range 0 still returns neighbours (C55_range_zero)."
  },
  {
   "property": "C56",
   "status": "proved",
   "theorems": [
    "Verif.C56_random_dag",
    "Verif.C56_own_draw",
    "Verif.C56_acyclic",
    "Verif.C56_extremes",
    "Verif.C56_every_dag",
    "Verif.C56_max_fan",
    "Verif.C56_max_fan_exact",
    "Verif.C56_max_fan_every",
    "Verif.C56_max_fan_negative",
    "Verif.C56_connected",
    "Verif.C56_connected_dag",
    "Verif.C56_connected_small"
   ],
   "note": "Random draws are parameters. Edge probability as a rational number."
  },
  {
   "property": "C57",
   "status": "proved",
   "theorems": [
    "Verif.C57_best",
    "Verif.C57_score",
    "Verif.C57_total"
   ],
   "note": "The learning algorithm is a parameter that may depend on the earlier thresholds. Scores as real numbers or -inf."
  },
  {
   "property": "C58",
   "status": "proved",
   "theorems": [
    "Verif.C58_edge_visible",
    "Verif.C58_visible_edges"
   ],
   "note": "Exact."
  },
  {
   "property": "C59",
   "status": "proved",
   "theorems": [
    "Verif.C59_pc_set",
    "Verif.C59_region",
    "Verif.C59_not_computed"
   ],
   "note": "Exact, with error branch."
  },
  {
   "property": "C60",
   "status": "partial",
   "theorems": [
    "Verif.C60_bound_local",
    "Verif.C60_size_local",
    "Verif.C60_bound_global_partial",
    "Verif.C60_size_partial",
    "Verif.C60_bound_global_fails"
   ],
   "note": "Proved for the local variant, and for the global one if max_cond_size is not 0; for max_cond_size = 0 the global variant tests sets of size one (C60_bound_global_fails)."
  },
  {
   "property": "C61",
   "status": "proved",
   "theorems": [
    "Verif.C61_answers",
    "Verif.C61_skeleton",
    "Verif.C61_skeleton_range",
    "Verif.C61_skeleton_empty",
    "Verif.C61_orientation",
    "Verif.C61_orientation_ok"
   ],
   "note": "Quotients are exact rationals instead of floats."
  },
  {
   "property": "C62",
   "status": "proved",
   "theorems": [
    "Verif.C62_formula",
    "Verif.C62_equivalent",
    "Verif.C62_local",
    "Verif.C62_no_dag",
    "Verif.C62_unknown_node"
   ],
   "note": "Floats as real numbers; gammaln is an arbitrary function; memory errors not modelled."
  },
  {
   "property": "C63",
   "status": "proved",
   "theorems": [
    "Verif.C63_structural_equations",
    "Verif.C63_unique",
    "Verif.C63_cycle",
    "Verif.C63_labels"
   ],
   "note": "Noise, signs and sizes of weights are parameters; real arithmetic instead of floats."
  },
  {
   "property": "C64",
   "status": "partial",
   "theorems": [
    "Verif.C64_potential_latents",
    "Verif.C64_with_latents_partial",
    "Verif.C64_with_latents_fails"
   ],
   "note": "create_random_dag_with_latents calls random.sample on a set: TypeError since Python 3.11 (allowed by setup.cfg). The full statement holds for older versions if a connected DAG is found."
  },
  {
   "property": "C65",
   "status": "proved",
   "theorems": [
    "Verif.C65_structure",
    "Verif.C65_orientation",
    "Verif.C65_extremes",
    "Verif.C65_level",
    "Verif.C65_split",
    "Verif.C65_colliders"
   ],
   "note": "Any CI test, both settings of overwrite_starting_graph, any iteration order. Completeness of testing is stated per recursion level, not for the whole run (C66_fails shows why)."
  },
  {
   "property": "C66",
   "status": "partial",
   "theorems": [
    "Verif.C66_partial",
    "Verif.C66_no_collider_partial",
    "Verif.C66_no_collider_pc_partial",
    "Verif.C66_fails"
   ],
   "note": "False of the code: C66_fails gives a five-node DAG for which a perfect test leaves an extra edge. C66_partial: no true edge is removed, recorded sets separate, marginally separated pairs are not adjacent. C66_no_collider_partial: for DAGs of any size in which parents of a common child are adjacent, RAI returns the CPDAG (and hence the same graph as PC)."
  },
  {
   "property": "C67",
   "status": "proved",
   "theorems": [
    "Verif.C67_edge_homology",
    "Verif.C67_ci_homology",
    "Verif.C67_mark_homology"
   ],
   "note": ""
  },
  {
   "property": "C68",
   "status": "proved",
   "theorems": [
    "Verif.C68",
    "Verif.C68_dependent"
   ],
   "note": "Partial correctness: for runs that return (see C52_crash for runs that do not)."
  },
  {
   "property": "C69",
   "status": "proved",
   "theorems": [
    "Verif.C69_time_order",
    "Verif.C69_stationary"
   ],
   "note": "Partial correctness: for runs that return."
  },
  {
   "property": "C70",
   "status": "partial",
   "theorems": [
    "Verif.C70_learn",
    "Verif.C70_bdeu",
    "Verif.C70_init",
    "Verif.C70_unscored_fails",
    "Verif.C70_custom_fails"
   ],
   "note": "Proved for scored learning with the default scoring function; learning without scoring data always raises AssertionError, and a scoring function of the caller is never stored."
  },
  {
   "property": "C71",
   "status": "partial",
   "theorems": [
    "Verif.C71_sample",
    "Verif.C71_missing_partial",
    "Verif.C71_oracle_partial",
    "Verif.C71_edge_lost",
    "Verif.C71_sepset_fails"
   ],
   "note": "The composition of samples is proved; that every missing edge has an accepted test is refuted by C71_edge_lost, and C71_missing_partial lists the other reasons; separation sets may not belong to the sampled graph (C71_sepset_fails)."
  },
  {
   "property": "C72",
   "status": "proved",
   "theorems": [
    "Verif.C72_map",
    "Verif.C72_boltzmann",
    "Verif.C72_extendable",
    "Verif.C72_draws"
   ],
   "note": "Floats are real numbers."
  },
  {
   "property": "C73",
   "status": "proved",
   "theorems": [
    "Verif.C73_reachable",
    "Verif.C73_any",
    "Verif.C73_symm",
    "Verif.C73_self"
   ],
   "note": ""
  },
  {
   "property": "C74",
   "status": "partial",
   "theorems": [
    "Verif.C74_partial",
    "Verif.C74_icd_partial",
    "Verif.C74_fails",
    "Verif.C74_representing_fails",
    "Verif.C74_representing_partial",
    "Verif.C74_one_partial",
    "Verif.C74_polytree_partial",
    "Verif.C74_polytree_observed_partial",
    "Verif.C74_representing_two_fails",
    "Verif.C74_representing_precalc_fails",
    "Verif.C74_icd_degree_partial",
    "Verif.C74_degree_partial",
    "Verif.C74_icd_no_collider_partial",
    "Verif.C74_representing_no_collider_partial",
    "Verif.C74_no_collider_partial"
   ],
   "note": "The full statement is false: with all eight nodes of a DAG observed, find_true_pag returns an edge between d-separated nodes and a wrong arrowhead (C74_fails), and the graph after the iteration reporting 3 is not 3-representing (C74_representing_fails). Proved: termination, no inseparable pair loses its edge, true arrowheads and all unshielded colliders found if the adjacencies are right, true tails if in addition no pair is confounded. Also proved, with any latent nodes: the graphs after the iterations reporting 0 and 1 are 0- and 1-representing; find_true_pag has exactly the right adjacencies whenever separable pairs are separated by at most one node, in particular for every polytree. For r = 2 it is false (C74_representing_two_fails); with the conditioning sets precalculated it is false for r = 3 (C74_representing_precalc_fails). Without latent nodes ICD and find_true_pag are exact when no node has more than two parents (C74_icd_degree_partial, C74_degree_partial); the refuting DAG has a node with four parents, three is open. Without latent nodes and without unshielded colliders (any number of parents) ICD and find_true_pag are exact, and the graph after the iteration reporting r is r-representing for every r (C74_icd_no_collider_partial, C74_no_collider_partial, C74_representing_no_collider_partial). With latent nodes and without unshielded colliders ICD and find_true_pag are exact as well (see C92)."
  },
  {
   "property": "C75",
   "status": "proved",
   "theorems": [
    "Verif.C75_mag"
   ],
   "note": ""
  },
  {
   "property": "C76",
   "status": "partial",
   "theorems": [
    "Verif.C76_fci_partial",
    "Verif.C76_fails",
    "Verif.C76_tails_fail",
    "Verif.C76_one_partial",
    "Verif.C76_polytree_partial"
   ],
   "note": "The full statement is false: with seven observed and four latent nodes FCI returns an edge between d-separated nodes (C76_fails); with right adjacencies a tail is wrong (C76_tails_fail). Proved: no inseparable pair loses its edge, true arrowheads and all unshielded colliders found if the adjacencies are right, true tails if in addition no pair is confounded or the tail rules are off. Exact adjacencies if separable pairs are separated by at most one node (C76_one_partial), in particular for polytrees with latent nodes (C76_polytree_partial). With latent nodes and without unshielded colliders FCI is exact (see C92)."
  },
  {
   "property": "C77",
   "status": "partial",
   "theorems": [
    "Verif.C77_circle",
    "Verif.C77_column_partial",
    "Verif.C77_column_fails",
    "Verif.C77_force",
    "Verif.C77_force_step_partial",
    "Verif.C77_force_corner",
    "Verif.C77_short"
   ],
   "note": "Circular layout and containment of the force-directed layout are proved in full. Refuted parts: the column layout divides by zero if no group has two nodes (C77_column_fails); a node without net force jumps to the corner of the window instead of keeping its place (C77_force_corner), so the step bound is C77_force_step_partial."
  },
  {
   "property": "C78",
   "status": "partial",
   "theorems": [
    "Verif.C78_pag",
    "Verif.C78_dag",
    "Verif.C78_temporal_pag_partial",
    "Verif.C78_temporal_dag_partial",
    "Verif.C78_temporal_none",
    "Verif.C78_temporal_single",
    "Verif.C78_label_fails"
   ],
   "note": "Proved for draw_graph and, with node lists in which some time step has two variables, for draw_temporal_graph. Without node lists or with one variable per time step draw_temporal_graph raises (C78_temporal_none, C78_temporal_single). The pixel-level behaviour of matplotlib is outside of the model."
  },
  {
   "property": "C79",
   "status": "partial",
   "theorems": [
    "Verif.C79_shape",
    "Verif.C79_marks_swapped",
    "Verif.C79_marks_partial",
    "Verif.C79_wrong_arrow",
    "Verif.C79_marked_ignored",
    "Verif.C79_pag_needed"
   ],
   "note": "The shape of the drawing is proved. The marks are refuted: both marks of every edge are interchanged (C79_marks_swapped, witness C79_wrong_arrow), so an edge is right exactly if its marks are equal (C79_marks_partial); marked nodes are not highlighted (C79_marked_ignored); the default pag=None fails (C79_pag_needed)."
  },
  {
   "property": "C80",
   "status": "partial",
   "theorems": [
    "Verif.C80_reseeds",
    "Verif.C80_circular_partial",
    "Verif.C80_temporal_partial",
    "Verif.C80_unreproducible"
   ],
   "note": "True for temporal drawings (C80_temporal_partial); the circular layout is reproducible (C80_circular_partial). Refuted otherwise: draw_graph reseeds the global generator (C80_reseeds), and the default layout depends on the generator's state (C80_unreproducible)."
  },
  {
   "property": "C81",
   "status": "partial",
   "theorems": [
    "Verif.C81_partial",
    "Verif.C81_one_partial",
    "Verif.C81_observed_partial",
    "Verif.C81_no_collider_partial",
    "Verif.C81_fails",
    "Verif.C81_global_fails"
   ],
   "note": "The full statement is false: with five observed and two latent nodes both variants leave the edge 3 <-> 4 although {0, 2} separates 3 and 4 (C81_fails). Proved: no inseparable pair loses its edge; if the adjacencies are right, arrowheads and unshielded colliders are right, tails too without the tail rules or without confounded pairs; adjacencies are right if separable pairs are separated by at most one node (C81_one_partial). Without latent nodes and from a new object all edges are found and directed if no node has more than three parents (local variant) or two (global variant) (C81_observed_partial), or if any two parents of a node are adjacent, with any number of parents (C81_no_collider_partial). The global variant fails on a DAG with nine observed nodes and at most four parents (C81_global_fails). Open: all nodes observed, four or more parents (local), three (global); an interpreted run of the model, not a theorem, shows that the local variant fails on a DAG with thirteen observed nodes and a node with six parents."
  },
  {
   "property": "C82",
   "status": "proved",
   "theorems": [
    "Verif.C82_criterion",
    "Verif.C82_static",
    "Verif.C82_statistic",
    "Verif.C82_bound",
    "Verif.C82_index_error",
    "Verif.C82_retry"
   ],
   "note": "Counters equal the number of computed tests for all histories of valid queries, with the bound. C82_index_error and C82_retry show what happens with too many conditioning variables: IndexError; the graph criteria answer when the query is repeated (a disagreement, see DESIGN.md)."
  },
  {
   "property": "C83",
   "status": "proved",
   "theorems": [
    "Verif.C83_corr",
    "Verif.C83_units",
    "Verif.C83_records",
    "Verif.C83_constant",
    "Verif.C83_uncorrelated"
   ],
   "note": "Real arithmetic. C83_constant shows that a variable that does not vary is always reported dependent (a disagreement, see DESIGN.md)."
  },
  {
   "property": "C84",
   "status": "proved",
   "theorems": [
    "Verif.C84_coding",
    "Verif.C84_records",
    "Verif.C84_twice",
    "Verif.C84_scale",
    "Verif.C84_weights_fails"
   ],
   "note": "Real arithmetic. C84_weights_fails shows that weights are not the same as copies of records (a disagreement, see DESIGN.md)."
  },
  {
   "property": "C85",
   "status": "proved",
   "theorems": [
    "Verif.C85_marks",
    "Verif.C85_stage",
    "Verif.C85_icd",
    "Verif.C85_ordered"
   ],
   "note": "Rule 10 is left out: as coded it is unsound (C35_rule10_unsound, C76_tails_fail). C85_marks and C85_stage hold for every r; that the learner reaches such a graph is proved for ICD with r = 0 and 1 (C85_icd) and false for larger r (C74_representing_two_fails); for ordered ICD with max_cond_size 0 and 1 (C85_ordered)."
  },
  {
   "property": "C86",
   "status": "proved",
   "theorems": [
    "Verif.C86_statistical",
    "Verif.C86_base",
    "Verif.C86_retained",
    "Verif.C86_weights",
    "Verif.C86_parcorr",
    "Verif.C86_parcorr_no_data",
    "Verif.C86_cmi",
    "Verif.C86_graph",
    "Verif.C86_graph_answers",
    "Verif.C86_dsep"
   ],
   "note": "Conversion of entries to the data type, arrays without records but with columns, and node sizes of the partial-correlation test (unused) are not modelled. C86_parcorr: columns that vary; an inversion error of the statistic (LinAlgError) is passed on as an answer that is an exception."
  },
  {
   "property": "C87",
   "status": "proved",
   "theorems": [
    "Verif.C87_refines",
    "Verif.C87_program",
    "Verif.C87_frame",
    "Verif.C87_copy",
    "Verif.C87_live"
   ],
   "note": "Operations of PDAG and MixedGraph on nodes and marks of the graph (InScope); what an operation on an unknown node leaves behind when it raises KeyError is not covered. The value model is the one of the other properties, so this also justifies treating graphs as values there."
  },
  {
   "property": "C88",
   "status": "partial",
   "theorems": [
    "Verif.C88_clear_partial",
    "Verif.C88_complete_partial",
    "Verif.C88_fails",
    "Verif.C88_complete_fails"
   ],
   "note": "False for the code: marks at the other ends remain. The partial theorems are exact: whole edges remain iff no edges leave the subset."
  },
  {
   "property": "C89",
   "status": "partial",
   "theorems": [
    "Verif.C89_partial",
    "Verif.C89_new_fails",
    "Verif.C89_copy_fails"
   ],
   "note": "False for the code for every graph: the set object is kept. C89_partial: the edges of all graphs and the nodes of graphs with another set object do not change."
  },
  {
   "property": "C90",
   "status": "proved",
   "theorems": [
    "Verif.C90_fci",
    "Verif.C90_fci_pc",
    "Verif.C90_fci_class",
    "Verif.C90_icd",
    "Verif.C90_icd_degree",
    "Verif.C90_true_pag",
    "Verif.C90_fci_tails"
   ],
   "note": "FCI: every DAG; ICD: conditional on exact adjacencies (which C74 shows can fail), unconditional for at most two parents. C90_fci_tails: every tail of FCI is opposite to an arrowhead."
  },
  {
   "property": "C91",
   "status": "proved",
   "theorems": [
    "Verif.C91_dsep",
    "Verif.C91_converse",
    "Verif.C91_cpdag",
    "Verif.C91_oracle",
    "Verif.C91_true_pag",
    "Verif.C91_perfect"
   ],
   "note": "Both directions of the theorem of Verma and Pearl, for the modelled dsep."
  },
  {
   "property": "C92",
   "status": "proved",
   "theorems": [
    "Verif.C92_pc_rai",
    "Verif.C92_fci",
    "Verif.C92_icd",
    "Verif.C92_true_pag",
    "Verif.C92_ordered_icd"
   ],
   "note": "The observed part of a DAG without unshielded colliders is again such a DAG with the same separations (NoUCol.marginal)."
  },
  {
   "property": "C93",
   "status": "partial",
   "theorems": [
    "Verif.C93_skeleton_partial",
    "Verif.C93_edges_partial",
    "Verif.C93_overwrite",
    "Verif.C93_fails",
    "Verif.C93_replaced"
   ],
   "note": "False of the code: the directions returned by PC and RAI depend on the sequence (C93_fails, four nodes), because the first separating set found is recorded. Proved for PC: the edges do not depend on it, with an explicit description (C93_skeleton_partial, C93_edges_partial). With the default setting even the edges depend on it (C93_overwrite). With False, removed pairs are tested again and their recorded set is replaced by a larger one (C93_replaced)."
  },
  {
   "property": "C94",
   "status": "proved",
   "theorems": [
    "Verif.C94_sparse",
    "Verif.C94_degree",
    "Verif.C94_sharp"
   ],
   "note": "C94_sharp: the bound on the number of parents cannot be dropped."
  },
  {
   "property": "C95",
   "status": "proved",
   "theorems": [
    "Verif.C95_pc",
    "Verif.C95_fci",
    "Verif.C95_rai",
    "Verif.C95_minimal",
    "Verif.C95_ancestors",
    "Verif.C95_rai_ancestors",
    "Verif.C95_not_overwriting_fails"
   ],
   "note": "Minimal with respect to inclusion. Proved for arbitrary tests (C95_pc, C95_fci, C95_rai), for consistent tests (C95_minimal), and with ancestors of the true DAG for perfect tests with latent nodes (C95_ancestors, C95_rai_ancestors). For PC without overwriting it is false (C95_not_overwriting_fails)."
  },
  {
   "property": "C96",
   "status": "proved",
   "theorems": [
    "Verif.C96_distance",
    "Verif.C96_pc_distance",
    "Verif.C96_zero_extension",
    "Verif.C96_pc_accuracy",
    "Verif.C96_fci_accuracy",
    "Verif.C96_pag",
    "Verif.C96_pc_extension",
    "Verif.C96_pc_score",
    "Verif.C96_search"
   ],
   "note": "Composition of the theorems on the learners with those on the measures. The ZeroDivisionError for an empty or complete true graph is part of the statement."
  },
  {
   "property": "C97",
   "status": "proved",
   "theorems": [
    "Verif.C97_dsep",
    "Verif.C97_cpdag",
    "Verif.C97_pc",
    "Verif.C97_fci",
    "Verif.C97_true_pag",
    "Verif.C97_distance",
    "Verif.C97_accuracy",
    "Verif.C97_score"
   ],
   "note": "All renamings, orders, options and perfect tests; find_true_pag under the bound of two parents per node stated in the property. Floats as rational or real numbers."
  },
  {
   "property": "C98",
   "status": "proved",
   "theorems": [
    "Verif.C98_objects",
    "Verif.C98_answers",
    "Verif.C98_cache",
    "Verif.C98_dsep",
    "Verif.C98_units",
    "Verif.C98_records",
    "Verif.C98_cmi",
    "Verif.C98_coding",
    "Verif.C98_exceptions",
    "Verif.C98_swallowed",
    "Verif.C98_singular"
   ],
   "note": "PC with stateful test objects that may raise"
  },
  {
   "property": "C99",
   "status": "proved",
   "theorems": [
    "Verif.C99_objects",
    "Verif.C99_answers",
    "Verif.C99_cache",
    "Verif.C99_dsep",
    "Verif.C99_latent",
    "Verif.C99_units",
    "Verif.C99_cmi",
    "Verif.C99_exceptions",
    "Verif.C99_swallowed",
    "Verif.C99_singular"
   ],
   "note": "FCI with stateful test objects that may raise"
  }
 ]
}