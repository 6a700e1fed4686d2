# Verification design for causality-lab

The code under study is the Python source in `/repo` (IntelLabs/causality-lab). This directory holds

* `properties.jsonl`: the properties (C01, C02, ...),
* `lean/`: a Lean 4 project with a model of the code (`Verif/Model`), independent
  specifications (`Verif/Spec`), lemmas (`Verif/Lemmas`) and the property theorems (`Verif/Props`),
* `MANIFEST.json`: which theorem settles which property,
* `seeded/LOG.jsonl`: experiments in which the model was broken on purpose.

## 1. Trusted base

* Lean 4.33.0's kernel and the Mathlib modules imported by each file.
* Axioms: only `propext`, `Classical.choice`, `Quot.sound` (checked with `#print axioms`).
  No own axioms, no `sorry`, no `native_decide`, no `bv_decide`.
* The hand translation of the Python functions into Lean definitions. Every definition cites the
  file and lines it models; simplifications are listed in its comment and in section 4.
* The specifications in `Verif/Spec` say what was intended.

## 2. Modelling conventions

* **Sets** are `Finset α` (node type `α` arbitrary with decidable equality; a linear order where the
  code compares nodes with `<` or sorts).
* **Iteration order of Python sets** is unspecified by the language. Every loop over a set takes its
  order from a parameter `o : SetOrder α`: an arbitrary function that lists the elements of a set
  without repetition, and that may depend on a context value (current graph, loop variables), so that
  equal sets may be listed differently at different moments. All theorems hold for every `o`.
  `set.pop()` is the head of such a list.
* **Dictionaries of sets** (`_graph`) are total functions to `Finset`, together with the node set.
  For `DAG`, `UndirectedGraph` and plain dictionaries an absent key is modelled as `KeyError`. For
  `MixedGraph`, `PDAG` and `PAG` the absent key is not modelled, except in the performance measures;
  there theorems carry node-membership hypotheses or well-formedness (all stored neighbours are
  nodes). Explicit `raise`/`assert` of the code are always modelled.
* **while loops and recursion** use explicit fuel, with a distinguished out-of-fuel result. Termination
  is then a theorem: with the stated fuel the out-of-fuel result is never returned.
* **CI tests** used by the learners are arbitrary functions `Nat → α → α → List α → Bool`. The list is the
  conditioning tuple in the order in which the code builds it. The number is the count of calls made so
  far, so a test may answer the same question differently at different times (a random test, or the
  bootstrap resampling of B-RAI). Theorems about a perfect oracle add the hypothesis that the answer
  is d-separation (or m-separation) at every call.
* **Exceptions** are values: `Py β := Except PyErr β`, with one constructor for each kind of Python error the
  modelled code can raise (`KeyError`, `AssertionError`, `TypeError`, `IndexError`, ...).
* **Live sets**: a loop over a set object that its body could mutate raises `RuntimeError` in CPython.
  Where the code iterates over a live set, the model either includes this check, or reads the set at
  loop start and a frame lemma shows the body leaves it unchanged.
* **Floating point** is replaced by exact real (or rational) arithmetic in the statistical properties.
  `np.corrcoef`, `norm.cdf` and `gammaln` are parameters or the corresponding real functions.
* **Random draws** are parameters (a stream of values); theorems hold for every stream.
* **`list.sort` / `sorted`** is insertion sort; only "sorted and a permutation" is used.
* **Objects shared by reference** are modelled by an explicit heap where sharing is observable:
  separation sets (`SepSet`, C38), the graph objects of B-RAI sampling (C53), and mixed graphs (`GraphHeap`,
  C87), where C87 shows that the value model used elsewhere agrees with the objects. Elsewhere objects are
  values and the absence of sharing was checked by reading the code.

## 3. Plan per property

| id | model | proof idea |
|----|-------|-----------|
| C01 | `UndirectedGraph.is_reachable` recursion with visited accumulation | induction on fuel; last visited neighbour on a simple path |
| C02 | `DAG.is_ancestor` stack loop | loop invariant (visited closed except stack), measure |
| C03 | both ancestor functions | exactness of each on acyclic graphs; witness of divergence on a 2-cycle for every fuel |
| C04 | `is_acyclic` | from C02 |
| C05 | `get_ancestors` | induction on fuel / candidate set, first-parent decomposition of a path |
| C06 | `dsep` (ancestors, moral graph, reachability) | abstract theory of walks in graphs with arrowheads: active walk ⇔ active path ⇔ moral connection |
| C07 | `dsep` | from C06; witness by evaluation |
| C08 | `dsep` | from C06 |
| C09 | topological groups | induction on node count |
| C10 | `is_graph_connected` of DAG | loop invariant |
| C11 | adjacency matrices | direct |
| C12 | `disconnect_node` with live-set check | direct |
| C13–C15 | `convert_to_cpdag`, PDAG rules | code refines an abstract rewriting system of Meek steps; soundness, confluence; completeness by chordal elimination orders |
| C16 | `maximally_orient_pattern` (PDAG) | number of undirected marks decreases; fixpoint |
| C17 | rule 4 | soundness lemma + evaluated witness |
| C18, C19 | `convert_to_dag` | Dor–Tarsi invariant; existence of a removable sink in every extension |
| C20 | partial topological order | induction |
| C21–C23 | PC | loop invariants; d-separation facts from C06/C08; confluence from C15 |
| C24–C27 | `MixedGraph` | invariants over operation sequences; BFS invariants |
| C28 | PAG matrices | direct |
| C29 | possible ancestors | as C01 |
| C30 | m-separation | same abstract walk theory as C06 |
| C31 | PAG rules 1–10 | circle count decreases; frame lemmas |
| C32 | rule soundness | ancestral graph axioms |
| C33, C34 | path searches | search invariants |
| C35–C37 | PAG defects | evaluated witnesses + partial positive theorems |
| C38–C41 | sepset, caches, CI wrappers | refinement to maps; history induction |
| C42–C46 | data / statistics | mixed radix arithmetic; Gibbs inequality; matrix algebra over ℝ |
| C47–C51 | PDS trees, FCI, ICD, Ordered ICD | tree induction; loop invariants for arbitrary CI tests |
| C52, C53 | TS-ICD, B-RAI defects | evaluated witness / general theorem |
| C54–C57 | SHD, CLEANN, generators, threshold search | direct |
| C58, C59 | visible edges, possible c-components, regions of a PAG | search invariants, as C33/C29 |
| C60 | Ordered ICD conditioning-size bound | invariant over the passes of both iteration modes |
| C61 | skeleton / orientation accuracy | counting lemmas; the error branches listed one by one |
| C62 | BDeu | exact formula; score equivalence by covered-edge reversal (Chickering) |
| C63, C64 | synthetic linear-Gaussian data, latent selection | induction over the topological order; direct |
| C65, C66 | RAI recursion | structural invariant over the mutual recursion; counterexample for the oracle claim; exactness for DAGs without unshielded colliders (d-separation is separation in the skeleton, and a separating set closest to one end consists of nodes that are harder to separate) |
| C67–C69 | TS-ICD homology, accountability, time order, stationarity | grid arithmetic; loop invariants for arbitrary CI tests |
| C70–C72 | B-RAI tree learning, sampling, MAP/Boltzmann selection | recursion invariant on the generating tree; cover argument for leaves |
| C73 | undirected reachability of a PDAG | last visit of a walk to the set of tried neighbours |
| C74 | find_true_pag, r-representing PAGs | the true DAG is turned into its MAG (C75), to which the PAG theorems C35 and C49 apply; an evaluated run refutes exactness; without latent nodes exactness for at most two parents, since the parents stay neighbours and possible ancestors until the pass with sets of size two; and for DAGs without unshielded colliders, where all marks stay circles and a closest separating set consists of neighbours |
| C75 | m-separation in the MAG is d-separation in the DAG | marginalisation (Richardson and Spirtes 2002, Theorem 4.18) proved on abstract walks: sections with latent interior, shortest chain, repair of colliders |
| C76 | FCI with latent variables | as C74, from the skeleton invariant and C75 |
| C77 | layouts over real coordinates | clamping keeps the window; invariant over nodes and rounds; injectivity of the angle |
| C78 | figures as lists of shapes | fold invariants; each unordered pair is met once; marks follow from the style table |
| C79 | tree drawing | sectors of the children are disjoint (tree induction), hence polar positions differ; marks by comparing with the PAG |
| C80 | state passing through the layouts | direct; a two-node run for every round refutes reproducibility |
| C81 | ordered ICD with latent variables | as C74, from C51 and C75; separation by one node gives exact adjacencies; evaluated runs refute exactness with latent nodes, and for the global variant without them; without latent nodes exactness for few parents, by an invariant that the recorded sets are ancestors or parents, so that true parents stay reachable in the search tree; exactness for any number of parents if there are no unshielded colliders, by working in the DAG of the nodes up to the later one, in which every recorded set is on the right side of every remaining edge |
| C82 | test counters | invariant over histories of calls: a test is in the cache iff it was asked for and not deleted since; the counter is compared with a count over the history; the bound by an injection into pairs and subsets |
| C83 | partial correlation of data | model of `np.corrcoef` over ℝ with NaN for columns without variance; units by covariance algebra, then C39 and C44 |
| C84 | coding of categories | through the empirical mutual information of C43: it is invariant under recoding, reordering and repetition, and homogeneous in the weights |
| C85 | marks of r-representing graphs | a connection criterion for ancestral sets: dependence given the ancestors in S is reachability in a moral graph; chains of surplus edges are replaced by such paths. Invariant over the rules, for every r. ICD and ordered ICD reach such graphs for r ≤ 1 |
| C86 | constructors of the CI tests | modelled with their checks in order; success characterised by a separate condition on the arguments; the answers of a constructed object reduce to C39, C43 and C83 |
| C87 | graph objects with set objects in a heap | simulation: no two entries are the same set object, and every operation on the heap agrees with the value model (`Model/MixedGraph.lean`, `Model/Pdag.lean`); frame lemmas for the values give the independence of copies |
| C88 | `create_empty_graph`, `create_complete_graph` on a subset | through C87: whole edges afterwards iff no edges leave the subset; witness |
| C89 | node sets as heap objects | marks are separate from node sets by the invariant of C87; the nodes themselves change, for every graph |
| C90 | FCI and ICD with a d-separation test | completeness of R1–R3 for graphs with circles by induction on the derivations of Meek's rules (an arrow into a node with a circle continues along the circle); soundness by an invariant over the steps of R1–R4, in which R4 never fires beyond R2; then C14 |
| C91 | `dsep` of two DAGs | reversal of covered edges (Chickering): a reversal keeps reachability in the moral graph of the ancestors, and equivalent DAGs are joined by reversals; the converse from separating sets |
| C92 | all learners on the observed part of a DAG | the observed part of a DAG without unshielded colliders is again such a DAG: a hidden node is removed by joining its neighbours (`NoUCol.marginal`); then the results without hidden nodes; for ordered ICD the observed part is directed by the order, which gives a Markov equivalent DAG |
| C93 | sequence of the tests of PC and RAI | without overwriting, a round of PC removes exactly the pairs that some set of the size separates, so the graph after each round, and the stopping point, have a description without any order; evaluated runs refute the claim for directions, and for the default setting also for edges |
| C94 | number and size of the tests of PC | loop invariant "all sets of neighbours smaller than `size` were tested" gives exact edges after round `k`, so that the exit condition holds; a run with another test that agrees on small sets is the same run; counting |
| C95 | minimality of the sets recorded by PC, FCI and RAI | loop invariant of C94 for smaller sets, kept under deletions; FCI's second stage tries tuples in the order of their sizes, so the first hit is minimal; in RAI the invariant says that each adjacent pair of a group was tested with all smaller sets of potential parents, which only become fewer; the part of a separating set that consists of ancestors separates (lemma of C85), so minimal sets consist of ancestors; an evaluated run refutes it for `overwrite_starting_graph = False` |
| C96 | composition of learners and measures | the theorems on distance (C54), accuracy (C61), score (C62), threshold search (C57), extension (C18, C19), CPDAG (C13, C15), PC (C21, C23), FCI (C49) and d-separation (C91) are combined, so that the link between the outputs of the functions is itself stated and checked |
| C97 | renaming of the nodes (`Spec/Rename`) | `Dag.Renamed` carries Markov equivalence (the equivalent DAGs of the one are the renamed equivalent DAGs of the other) and moral connection across; the outputs of `dsep`, `convert_to_cpdag`, PC, FCI and `find_true_pag` are determined by these (C14, C23, C90, C91); the two runs may use different orders, options and tests; the measures are functions of counts over pairs of nodes (C54, C61) or of sums over configurations (C62), for which bijections are given |
| C98 | `Model/PcObject`: PC with a test object that has a state and may raise; composition with `Model/CiTest`, `Model/Stats`, `Model/StatsData` | simulation: two objects that answer alike in every history of valid queries (the form of C39, C43, C83, C84) drive PC through the same states; `Model/Pc` is the instance without exceptions, so C21–C23 and C93–C95 carry over; an invariant of the search shows that each query is valid and that the rest of PC does not raise |
| C99 | `Model/FciObject`: FCI with a test object that has a state and may raise | the simulation of C98 continued through the refinement stage; an invariant (well-formed PAG on the nodes, an entry for each pair) shows that each query is valid and that nothing else raises; `Model/Fci` is the instance without exceptions, so C49, C76, C90 and C93 carry over; an object with a flag that is set by exceptions shows that none is swallowed |
| C100 | `Model/IcdObject`: ICD with a test object that has a state and may raise | the simulation of C98 through the three kinds of iterations of ICD, with one lemma that gives both the comparison of two objects and the origin of exceptions; `Model/Icd` is the instance without exceptions, so C49, C74, C90 and C94 carry over; `find_true_pag` with a real `DSep` object is the function of `Model/TruePag` |
| C101 | `Model/RaiObject`: RAI with a test object that has a state and may raise | the simulation of C98 through the recursion of RAI; the invariant of C65 shows that each query is valid and that nothing else raises; `Model/Rai` is the instance without exceptions, so C65, C66 and C95 carry over |
| C102 | `Model/OIcdObject`: ordered ICD (both variants) with a test object that has a state and may raise | the simulation of C98 through both variants; the invariant (a well-formed PAG and a recorded set of other nodes for every pair, as the tests without conditioning delete edges without recording a set) shows that each query is valid and that nothing else raises; `Model/OrderedIcd` is the instance without exceptions, so C51 and C81 carry over |
| C103 | the models of C98 to C102 with the statistics of C43, C83 and C84 | the presentations give test objects that answer alike in every history of valid queries (the empirical conditional mutual information and the correlations are the same, or in the ratio of the thresholds); C98 to C102 carry this over to the learners |
| C104 | the models of C98 to C102 | each learner is characterised by the adjacencies of the DAG and the edges shared by all Markov equivalent DAGs (C13, C14, C98 to C102); these determine the equivalence class, because unshielded colliders are made of shared edges |
| C105 | the remaining small functions of the graph classes (`Model/Dag`, `Pag`, `Pdag`, `MixedGraph`), which no other property covers | invariants of the loops over pairs of nodes, with the set of pairs already visited; the failing call of `is_edge_visible` contradicts its documentation (`partial_ancestral_graph.py:232`), proved as `C105_visible_not_computed` |

Not expressible in this model: wall-clock performance, numerical error of floating point, what matplotlib makes
of the requested shapes, correctness of numpy/scipy themselves.

## 4. What is modelled, file by file

| file in `/repo` | Lean model | left out or simplified |
|---|---|---|
| `graphical_models/basic_graph.py`, `undirected_graph.py` | `Model/UndirectedGraph.lean`, `Model/PySet.lean` | the abstract methods of `Graph`; printing |
| `graphical_models/dag.py` | `Model/Dag.lean` | – |
| `graphical_models/basic_equivalance_class_graph.py` | `Model/MixedGraph.lean`, `Model/GraphHeap.lean` | `__str__`; `KeyError` on unknown nodes (only in `GraphHeap`) |
| `graphical_models/partially_dag.py` | `Model/Pdag.lean`, `Model/GraphHeap.lean` | `copy` is the identity on values; as an operation on objects in `GraphHeap` |
| `graphical_models/partial_ancestral_graph.py` | `Model/Pag.lean`, `Model/PagRules.lean` | printing in verbose mode |
| `graphical_models/possible_dsep_tree.py` | `Model/PdsTree.lean` | node references are paths from the root; `parent` links are recomputed |
| `graphical_models/arrow_head_types.py` | `Model/MixedGraph.lean` | – |
| `causal_discovery_utils/constraint_based.py` | `Model/SepSet.lean`, `Model/Pc.lean` | `LearnStructBase.get_graph` calls a method that does not exist |
| `causal_discovery_utils/cond_indep_tests.py` | `Model/CiTest.lean`, `Model/CiInit.lean`, `Model/Stats.lean`, `Model/StatsData.lean` | conversion of data to `database_type`; verbose printing; rounding of floats; `np.linalg.inv` of a matrix with NaN (a parameter) |
| `causal_discovery_utils/data_utils.py`, `stat_utils.py` | `Model/Stats.lean` | numpy dtypes; arrays are lists of rows |
| `causal_discovery_utils/performance_measures.py` | `Model/Perf.lean`, `Model/Score.lean`, `Model/TruePag.lean` | – |
| `causal_discovery_algs/pc.py`, `fci.py`, `icd.py`, `ordered_icd.py`, `rai.py`, `ts_icd.py`, `brai.py` | `Model/Pc.lean`, `Fci`, `Icd`, `OrderedIcd`, `Rai`, `TsIcd`, `Brai` | verbose printing, progress files, timing |
| `causal_reasoning/cleann_explainer.py`, `experiment_utils/explanation.py` | `Model/Cleann.lean` | the tester is a function from explanation sets to answers |
| `experiment_utils/synthetic_graphs.py` | `Model/Synth.lean` | random generators are streams of draws |
| `experiment_utils/threshold_select_ci_test.py` | `Model/Score.lean` | the learning algorithm is a parameter |
| `plot_utils/graph_layout.py` | `Model/Layout.lean` | coordinates are real numbers; a quotient 0/0 of numpy is `none` and then loses comparisons as NaN does; numpy's generator is a state with `seed` and `uniform`; division by a zero `k_const` in the attracting force is not modelled (`k > 0` in an open window) |
| `plot_utils/draw_graph.py` | `Model/Draw.lean` | a figure is the list of drawn nodes and edges with the arguments given to matplotlib; colours are strings; labels are a text, an image, or neither |

Further simplifications:

* **Set orders.** The context value given to `SetOrder` is a tag of the loop and the loop variables; it lets
  equal sets be listed differently in different loops, as CPython may do.
* **Loops over live sets.** `liveFor` re-reads the set after each step and raises `RuntimeError` if its size
  changed, which is what CPython checks.
* **ICD** iterates over conditioning sizes up to `max 2 n`; the theorem C50 shows this is enough.
* **TS-ICD** theorems of the form "if the run returns" do not claim that it returns; `C52_crash` is a run
  that does not. Graphs with half edges (a mark at one end only) are not excluded as inputs of the
  homology fill, so its fuel bound is a hypothesis there.
* **B-RAI** tree leaves own their graph; `sample` returns new graphs except where the code aliases them.

## 5. Where the code and its documentation disagree

Each item was found by trying to prove the documented behaviour. The negation is proved by an
evaluated witness (or by a general theorem), and the true part is kept as a theorem.

1. `CondIndepCMI.cond_indep` answers "independent" for retained edges (C41).
2. `UndirectedGraph.disconnect_node` raises `RuntimeError` unless the node is isolated (C12).
3. `LearnStructBase.get_graph` calls a method that does not exist.
4. Connectivity of a `PDAG` depends on iteration order (C26); `get_skeleton_mat` is not symmetric and
   `get_num_edges` counts bi-directed edges twice (C27).
5. `PAG.find_union_pc_components_for_node` uses a loop variable after its loop (C36).
6. `PAG.get_ordered_buckets` need not terminate (C37).
7. PAG rule 10 is unsound, also inside a full ICD run with a perfect oracle (C35, `C49_icd_tails_unsound`).
   Rule 4 and rule 1 overwrite marks regardless of their old value. Rule 10 also asks for the path to be
   uncovered at its last node.
8. PDAG rule 4 lacks the non-adjacency condition of Meek's rule (C17).
9. TS-ICD's homology fill restores deleted edges, may raise `AssertionError` even with a perfect oracle,
   and also runs when homology is switched off (C52).
10. B-RAI: edges may be lost in sampling even with a perfect oracle (`C71_edge_lost`); learning without scoring
    data always fails (`C70_unscored_fails`); a custom scoring function is not stored
    (`C70_custom_fails`); separation sets may belong to another leaf (`C71_sepset_fails`); the
    uncertainty counts use aliased graphs (C53). The CI test keeps the last bootstrap sample as its
    data, and a caching CI test makes the bootstrap ineffective.
11. The Possible-D-Sep set and tree are incomplete and order dependent (C48).
12. Ordered ICD in global mode ignores `max_cond_size=0` (C60); the contents of the order are not
    validated (`C51_init_unchecked`).
13. `DAG.get_adj_mat` with a partial node list raises `KeyError` (C11).
14. `exhaustive_search_explanation` never tests the full set (C55).
15. `dsep` is not symmetric when an endpoint is in the conditioning set (C07).
16. The CI cache rejects labels outside `0..n-1` (C40); the test counter fails for long conditioning sets.
17. Reversed unrolling of temporal data zeroes unobserved columns (C46).
18. `random.sample` of a set raises `TypeError` on Python 3.11 and later (C64).
19. `calc_skeleton_accuracy` divides by zero on degenerate graphs (C61).
20. `PAG.is_m_separated` is wrong in the presence of undirected edges (C30).
21. The partial-correlation p-value is not a number with too few records (C44).
22. SHD is wrong for bi-directed edges and ignores extra nodes (C54).
23. `search_threshold_bdeu` returns the last threshold if no graph has a DAG extension (C57).
24. RAI with a perfect oracle may return a wrong skeleton (`C66_fails`). It does not if the DAG has no unshielded colliders (`C66_no_collider_partial`).
25. ICD's `learn_structure`, called a second time, does not reset the graph.
26. ICD with a perfect oracle may keep an edge between d-separated nodes and then orient wrongly (`C74_fails`).
    The edges deleted in one pass shrink the candidate sets of later pairs in the same pass ("Not a copy!!!"
    in `icd.py`), so a separating set may never be tried. Hence `find_true_pag` need not return the true PAG,
    and the graph after the iteration reporting r need not be r-representing (`C74_representing_fails`, r = 3).
    The witness has eight observed nodes and no latent ones. For r = 0 and r = 1 the claim holds, also with latent
    nodes (`C74_representing_partial`): a pair separated by one node is separated by a neighbour of one of the ends,
    and this stays so while edges are deleted. So the adjacencies are right for every polytree (`C74_polytree_partial`).
    For r = 2 it fails with eight observed nodes (`C74_representing_two_fails`). Computing the candidate sets of a pass
    in advance (`is_pre_calc_cond_set=True`) does not help for r = 3 (`C74_representing_precalc_fails`, nine observed nodes).
    Without latent nodes ICD is exact if no node has more than two parents (`C74_icd_degree_partial`); the DAG of
    `C74_fails` has a node with four. Whether three suffice is open. ICD is also exact, and all its graphs are
    r-representing, if there are no latent nodes and no unshielded colliders (`C74_icd_no_collider_partial`).
27. FCI with a perfect oracle may keep an edge between d-separated nodes (`C76_fails`, seven observed and four
    latent nodes): the possible-d-sep sets of both ends lack a node of every separating set, because a
    traversed edge is removed in both directions. With the right adjacencies a tail may still be wrong if a pair is
    confounded (`C76_tails_fail`, rule 10).
28. `ColumnLayout.calc_layout` divides by zero if every group has one node (C77), so `draw_temporal_graph` fails for
    one-variable time series; it also fails with `TypeError` for `nodes_set_list=None`, which the code otherwise handles (C78).
29. A node without net force jumps to the upper left corner in the force-directed layout: 0/0 is NaN, and Python's
    `max(left, nan)` is `left` (C77).
30. `draw_pds_tree` draws both marks of every edge at the wrong end, ignores `marked_nodes` and `bkcolor`, and its
    default `pag=None` raises `AttributeError` (C79).
31. `draw_graph` reseeds numpy's global generator, after having drawn the starting positions from the unseeded one: plots
    are not reproducible and later random numbers repeat (C80).
32. Ordered ICD with a perfect oracle and a causal order may keep an edge between d-separated nodes (`C81_fails`, five
    observed and two latent nodes): only the tree of the node that comes later is searched for separating sets.
    The global variant may do so even if all nodes are observed (`C81_global_fails`, nine nodes, at most four parents). The
    interpreter also finds a surplus edge for the local variant on a DAG with thirteen observed nodes, one with six parents;
    that run is too long for the kernel and is not a theorem.
33. `DSep` and `GraphCondIndep` store a result before they count it: a query with too many conditioning variables for the
    counter raises IndexError the first time and is answered, uncounted, the second time; the statistical tests count
    first (`C82_retry`).
34. The partial-correlation test reports a variable that does not vary dependent on every other variable: the correlation
    is NaN, which is above no threshold (`C83_constant`).
35. The mutual-information test divides by the number of records, not by the total weight: giving all records the weight 2
    doubles the statistic, having all records twice does not change it (`C84_scale`, `C84_weights_fails`).
36. The partial-correlation test accepts a missing data set if the numbers of records and variables are given, and then
    raises TypeError for every pair that is not retained (`C86_parcorr_no_data`).
37. `create_empty_graph(nodes)` and `create_complete_graph(mark, nodes)` for some of the nodes leave the marks at the other
    ends of edges that leave these nodes (`C88_fails`, `C88_complete_fails`).
38. Mixed graphs keep the set object given to the constructor, and a copy shares it with the original: adding a node to this set
    later changes the nodes of all these graphs, which then have no entries for it (`C89_new_fails`, `C89_copy_fails`).
39. `overwrite_starting_graph = False` does not remove the dependence on the sequence of the CI tests: the recorded separating
    set, and with it the directions, depend on it (`C93_fails`, for PC and RAI). In this mode PC also tests pairs whose edge has
    been removed again and replaces the recorded set by a larger one, which can hide a collider (`C93_replaced`).
40. In PC `overwrite_starting_graph = False` loses the minimality of the recorded sets even with perfect independence information: for two
    independent variables a child of one of them is recorded (`C95_not_overwriting_fails`).

## 6. Partial theorems

A property marked `partial` in `MANIFEST.json` is one whose full statement is false for the code (a
`…_fails`, `…_unsound` or similar theorem shows it) or not fully proved; the `_partial` theorem states the
part that holds, and the note says what is missing. This concerns C27, C35, C36, C41, C52, C53, C60, C64,
C66, C70, C71, C74, C76, C77–C81, C88, C89 and C93.
