import Verif.Model.UndirectedGraph

/-!
# Model of `graphical_models/dag.py` (queries; `convert_to_cpdag` is in `Model/Cpdag.lean`)
-/

namespace Verif

/-- `graphical_models/dag.py:10` (`DAG`, base `basic_graph.py:8-13`): node set and `_graph[node]`, the set of
parents of `node`. Nothing enforces acyclicity. -/
structure Dag (α : Type) where
  nodes : Finset α
  par : α → Finset α

namespace Dag
variable {α : Type} [DecidableEq α]

/-- `basic_graph.py:8-23` (`__init__`, `create_empty_graph`). -/
def empty (nodes : Finset α) : Dag α := ⟨nodes, fun _ => ∅⟩

/-- `dag.py:278-287` (`add_edges`). `_graph.keys()` is the node set. -/
def addEdges (G : Dag α) (parentsSet : Finset α) (target : α) : Py (Dag α) :=
  if (parentsSet \ G.nodes).card ≠ 0 then .error .valueError
  else if target ∉ G.nodes then .error .valueError
  else .ok { G with par := modify G.par target (fun s => s ∪ parentsSet) }

/-- `dag.py:33-34` (`parents`): KeyError for a node that is not in the graph. -/
def parents (G : Dag α) (v : α) : Py (Finset α) :=
  if v ∈ G.nodes then .ok (G.par v) else .error .keyError

/-- `dag.py:24-31` (`max_parents`). -/
def maxParents (o : SetOrder α) (G : Dag α) : Py Nat :=
  (o.iter () G.nodes).foldlM (fun m v => do
    let n := (← G.parents v).card
    return if n > m then n else m) 0

/-- `dag.py:36-46` (`find_children`), with the node set given explicitly. -/
def findChildren (G : Dag α) (p : α) (nodesSet : Finset α) : Py (Finset α) :=
  if nodesSet ⊆ G.nodes then .ok (nodesSet.filter (fun v => p ∈ G.par v)) else .error .keyError

/-- `dag.py:51-55` (`is_connected`), short-circuit `or`. -/
def isConnected (G : Dag α) (i j : α) : Py Bool := do
  if i ∈ (← G.parents j) then return true
  return decide (j ∈ (← G.parents i))

/-- `dag.py:57-77` (`is_ancestor_recursive`), first argument: recursion budget. -/
def isAncestorRec (o : SetOrder α) (G : Dag α) : Nat → α → α → Py Bool
  | 0, _, _ => .error .outOfFuel
  | n + 1, d, t =>
    if d = t then .ok true
    else do
      let ps ← G.parents d
      if ps.card = 0 then return false
      if t ∈ ps then return true
      forAny (fun p => isAncestorRec o G n p t) (o.iter (d, t) ps)

/-- The inner loop `dag.py:95-98` of `is_ancestor`; the head of the list is the top of the stack. -/
def pushParents : List α → Finset α → List α → Finset α × List α
  | [], visited, stack => (visited, stack)
  | p :: ps, visited, stack =>
    if p ∈ visited then pushParents ps visited stack
    else pushParents ps (insert p visited) (p :: stack)

/-- The loop `dag.py:90-100` of `is_ancestor`, first argument: budget of loop rounds. -/
def isAncestorLoop (o : SetOrder α) (G : Dag α) (t : α) : Nat → Finset α → List α → Py Bool
  | _, _, [] => .ok false
  | 0, _, _ :: _ => .error .outOfFuel
  | n + 1, visited, v :: stack => do
    let ps ← G.parents v
    if t ∈ ps then return true
    let r := pushParents (o.iter (t, visited, stack) ps) visited stack
    isAncestorLoop o G t n r.1 r.2

/-- `dag.py:79-100` (`is_ancestor`). Budget: one loop round per node. -/
def isAncestor (o : SetOrder α) (G : Dag α) (d t : α) : Py Bool :=
  if d = t then .ok true
  else isAncestorLoop o G t G.nodes.card {d} [d]

/-- `dag.py:102-110` (`is_acyclic`). -/
def isAcyclic (o : SetOrder α) (G : Dag α) : Py Bool := do
  let cyclic ← forAny (fun v => do
    let ps ← G.parents v
    forAny (fun p => isAncestor o G p v) (o.iter v ps)) (o.iter () G.nodes)
  return !cyclic

/-- The loop `dag.py:122-136` of `is_graph_connected`, first argument: budget of loop rounds. -/
def connectedLoop (o : SetOrder α) (G : Dag α) : Nat → Finset α → Finset α → Py Bool
  | 0, _, _ => .error .outOfFuel
  | n + 1, toReach, starting =>
    match popSet o (toReach, starting) starting with
    | none => .ok false
    | some (v, starting) => do
      let parentNodes := (← G.parents v) ∩ toReach
      let toReach := toReach \ parentNodes
      let childrenNodes ← G.findChildren v toReach
      let toReach := toReach \ childrenNodes
      if toReach.card = 0 then return true
      connectedLoop o G n toReach ((starting ∪ parentNodes) ∪ childrenNodes)

/-- `dag.py:112-136` (`is_graph_connected`), node set given explicitly. -/
def isGraphConnected (o : SetOrder α) (G : Dag α) (nodesSet : Finset α) : Py Bool :=
  if nodesSet.card > 1 then
    match popSet o () nodesSet with
    | none => .error .keyError
    | some (v, toReach) => connectedLoop o G (nodesSet.card + 1) toReach {v}
  else .error .assertionError

/-- `dag.py:138-150` (`get_ancestors`), first argument: recursion budget. -/
def getAncestorsFuel (o : SetOrder α) (G : Dag α) : Nat → α → Finset α → Py (Finset α)
  | 0, _, _ => .error .outOfFuel
  | n + 1, v, candidates => do
    let ps := (← G.parents v) ∩ candidates
    if ps.card = 0 then return {v}
    let anc ← (o.iter (v, candidates) ps).foldlM (fun acc p => do
      return acc ∪ (← getAncestorsFuel o G n p (candidates \ ps))) ∅
    return insert v anc

/-- `dag.py:138-150` (`get_ancestors`) with the default candidate set (all nodes). -/
def getAncestors (o : SetOrder α) (G : Dag α) (v : α) : Py (Finset α) :=
  getAncestorsFuel o G (G.nodes.card + 1) v G.nodes

/-- `dag.py:166-170` (step 1 of `dsep`): union of ancestor sets. -/
def dsepAncestors (o : SetOrder α) (G : Dag α) (i j : α) (cond : Finset α) : Py (Finset α) := do
  let anc := (← G.getAncestors o i) ∪ (← G.getAncestors o j)
  (o.iter (i, j) cond).foldlM (fun acc z => do return acc ∪ (← G.getAncestors o z)) anc

/-- `dag.py:174-180`: moralise one node. -/
def moralizeNode (o : SetOrder α) (G : Dag α) (anc : Finset α) (M : UGraph α) (v : α) : Py (UGraph α) := do
  let ps := (← G.parents v) ∩ anc
  let M ← (o.iter (v, 0) ps).foldlM (fun M p => M.addEdge p v) M
  (pairs (o.iter (v, 1) ps)).foldlM (fun M kl => do
    if !(← G.isConnected kl.1 kl.2) then M.addEdge kl.1 kl.2 else return M) M

/-- `dag.py:173-180` (step 2 of `dsep`): the moral graph of the ancestors. -/
def moralGraph (o : SetOrder α) (G : Dag α) (anc : Finset α) : Py (UGraph α) :=
  (o.iter () anc).foldlM (moralizeNode o G anc) (UGraph.empty anc)

/-- `dag.py:152-183` (`dsep`). -/
def dsep (o : SetOrder α) (G : Dag α) (i j : α) (cond : Finset α) : Py Bool := do
  let anc ← dsepAncestors o G i j cond
  let M ← moralGraph o G anc
  return !(← M.isReachable o i j cond)

/-- `dag.py:242-257` (`find_topological_order_groups`), first argument: recursion budget. -/
def topoGroupsFuel (o : SetOrder α) (G : Dag α) : Nat → Finset α → Py (List (Finset α))
  | 0, _ => .error .outOfFuel
  | n + 1, en =>
    if en.card = 0 then .ok []
    else do
      let parentsSet ← (o.iter () en).foldlM (fun acc v => do
        return acc ∪ ((← G.parents v) ∩ en)) ∅
      let leaves := en \ parentsSet
      if leaves.card > 0 then
        let high ← topoGroupsFuel o G n parentsSet
        return high ++ [leaves]
      else .error .assertionError

/-- `dag.py:242-257` (`find_topological_order_groups`). -/
def topoGroups (o : SetOrder α) (G : Dag α) (en : Finset α) : Py (List (Finset α)) :=
  topoGroupsFuel o G (en.card + 1) en

/-- `dag.py:238-240` (`find_topological_order`). -/
def topoOrder (o : SetOrder α) (G : Dag α) (en : Finset α) : Py (List α) := do
  return (← topoGroups o G en).flatMap (fun g => o.iter () g)

/-- `dag.py:48-49` (`find_adjacent_nodes`). -/
def findAdjacentNodes (G : Dag α) (v : α) : Py (Finset α) := do
  return (← G.parents v) ∪ (← G.findChildren v G.nodes)

/-- `dag.py:226` (`node_index_map = {node: i for i, node in enumerate(list)}`): lookup in the dictionary; for a
repeated node the last index wins. The second argument is the index of the head of the list. -/
def indexMap : List α → Nat → α → Option Nat
  | [], _, _ => none
  | y :: ys, i, x =>
    match indexMap ys (i + 1) x with
    | some k => some k
    | none => if x = y then some i else none

/-- Dictionary lookup `node_index_map[n]`. -/
def indexOf (l : List α) (x : α) : Py Nat :=
  match indexMap l 0 x with
  | some k => .ok k
  | none => .error .keyError

/-- `dag.py:207-236` (`get_adj_mat`) with an explicit node list (lines 218-221); entries outside the
`num_nodes × num_nodes` matrix are 0. Without a list the code uses the sorted node list. -/
def getAdjMat (o : SetOrder α) (G : Dag α) (l : List α) : Py (Nat → Nat → Nat) :=
  if ∀ v ∈ l, v ∈ G.nodes then
    l.foldlM (fun A v => do
      let ps ← (o.iter v (← G.parents v)).mapM (indexOf l)
      let j ← indexOf l v
      return fun r c => if r ∈ ps ∧ c = j then 1 else A r c) (fun _ _ => 0)
  else .error .assertionError

/-- `numpy.nonzero` of an `n × n` matrix, as used in `dag.py:270`: row-major positions of non-zero entries. -/
def nonzero (n : Nat) (A : Nat → Nat → Nat) : List (Nat × Nat) :=
  ((List.range n).flatMap (fun r => (List.range n).map (fun c => (r, c)))).filter (fun rc => A rc.1 rc.2 ≠ 0)

/-- `dag.py:260-276` (`init_from_adj_mat`) with an explicit node order for an `n × n` matrix. Without an order
the code uses `list(range(n))`. The graph is first reset (`create_empty_graph`). -/
def initFromAdjMat (G : Dag α) (n : Nat) (A : Nat → Nat → Nat) (order : List α) : Py (Dag α) :=
  if n = order.length then
    (nonzero n A).foldlM (fun G pc =>
      match order[pc.1]?, order[pc.2]? with
      | some p, some c => G.addEdges {p} c
      | _, _ => .error .indexError) (Dag.empty G.nodes)
  else .error .assertionError

/-- The loop of `basic_graph.py:37-41` (`Graph.number_of_edges`, inherited by `DAG`) with `DAG.is_connected`
(`dag.py:51-55`). -/
def countLoop (G : Dag α) : List (α × α) → Nat × Nat → Py (Nat × Nat)
  | [], acc => .ok acc
  | (i, j) :: ps, acc => do
    if ← G.isConnected i j then countLoop G ps (acc.1 + 1, acc.2)
    else countLoop G ps (acc.1, acc.2 + 1)

/-- `basic_graph.py:32-46` (`number_of_edges(nodes_subset, return_missing=True)`). -/
def numberOfEdges (o : SetOrder α) (G : Dag α) (nodesSubset : Finset α) : Py (Nat × Nat) :=
  countLoop G (pairs (o.iter () nodesSubset)) (0, 0)

end Dag
end Verif
