import Verif.Model.Py

/-!
# Model of `graphical_models/undirected_graph.py` (and its base `basic_graph.py`)
-/

namespace Verif

/-- `graphical_models/basic_graph.py:8-13` (`Graph.__init__`) as used by `UndirectedGraph`
(`undirected_graph.py:6`): the node set and `_graph[node]`, the set of neighbours of `node`. -/
structure UGraph (α : Type) where
  nodes : Finset α
  adj : α → Finset α

namespace UGraph
variable {α : Type} [DecidableEq α]

/-- `basic_graph.py:16-23` (`create_empty_graph`). -/
def empty (nodes : Finset α) : UGraph α := ⟨nodes, fun _ => ∅⟩

/-- `self._graph[node]`: KeyError for a node that is not in the graph. -/
def get (G : UGraph α) (v : α) : Py (Finset α) :=
  if v ∈ G.nodes then .ok (G.adj v) else .error .keyError

/-- `basic_graph.py:26-30` (`Graph.is_connected`). Python's `or` is short-circuit: the second lookup is done
only if the first membership fails. -/
def isConnected (G : UGraph α) (i j : α) : Py Bool := do
  if i ∈ (← G.get j) then return true
  return decide (j ∈ (← G.get i))

/-- `undirected_graph.py:12-17` (`add_edge`). -/
def addEdge (G : UGraph α) (i j : α) : Py (UGraph α) :=
  if i ∉ G.nodes ∨ j ∉ G.nodes then .error .valueError
  else .ok { G with adj := modify (modify G.adj i (insert j)) j (insert i) }

/-- `undirected_graph.py:19-24` (`remove_edge`). -/
def removeEdge (G : UGraph α) (i j : α) : Py (UGraph α) :=
  if i ∉ G.nodes ∨ j ∉ G.nodes then .error .valueError
  else .ok { G with adj := modify (modify G.adj i (fun s => s.erase j)) j (fun s => s.erase i) }

/-- The body of `undirected_graph.py:28-29`: a `for` loop over the *live* set `_graph[node]`. CPython's set
iterator raises RuntimeError at the next step (also at the step that would end the loop) when the size of the
set differs from its size at loop start. The second component is the graph as left behind. -/
def disconnectLoop (node : α) (size : Nat) : List α → UGraph α → UGraph α × Py Unit
  | [], G => (G, if (G.adj node).card = size then .ok () else .error .runtimeError)
  | x :: xs, G =>
    if (G.adj node).card = size then
      match G.removeEdge x node with
      | .ok G' => disconnectLoop node size xs G'
      | .error e => (G, .error e)
    else (G, .error .runtimeError)

/-- `undirected_graph.py:26-29` (`disconnect_node`): graph after the call, and how the call ended. -/
def disconnectNode (o : SetOrder α) (G : UGraph α) (node : α) : UGraph α × Py Unit :=
  if node ∈ G.nodes then
    disconnectLoop node (G.adj node).card (o.iter node (G.adj node)) G
  else (G, .error .keyError)

/-- The `for neighbor in unvisited_neighbors` loop of `undirected_graph.py:50-56`; `rec` is the recursive
call on (neighbour, visited set). -/
def reachLoop (rec : α → Finset α → Py Bool) : List α → Finset α → Py Bool
  | [], _ => .ok false
  | nb :: nbs, visited => do
    if ← rec nb visited then return true
    reachLoop rec nbs (insert nb visited)

/-- `undirected_graph.py:32-56` (`is_reachable`), first argument: recursion budget. `visited_nodes_in=None`
is the empty set. -/
def isReachableFuel (o : SetOrder α) (G : UGraph α) : Nat → α → α → Finset α → Py Bool
  | 0, _, _, _ => .error .outOfFuel
  | n + 1, s, e, visitedIn =>
    if s = e then .ok true
    else do
      let visited := insert s visitedIn
      let nbs ← G.get s
      reachLoop (fun nb vis => isReachableFuel o G n nb e vis) (o.iter (s, e, visitedIn) (nbs \ visited)) visited

/-- `undirected_graph.py:32-56` (`is_reachable`). The recursion depth budget is the number of nodes plus one. -/
def isReachable (o : SetOrder α) (G : UGraph α) (s e : α) (forbidden : Finset α) : Py Bool :=
  isReachableFuel o G (G.nodes.card + 1) s e forbidden

/-- The loop of `basic_graph.py:37-41` (`Graph.number_of_edges`) over `combinations(nodes, 2)`:
numbers of connected and unconnected pairs. -/
def countLoop (G : UGraph α) : List (α × α) → Nat × Nat → Py (Nat × Nat)
  | [], acc => .ok acc
  | (i, j) :: ps, acc => do
    if ← G.isConnected i j then countLoop G ps (acc.1 + 1, acc.2)
    else countLoop G ps (acc.1, acc.2 + 1)

/-- `basic_graph.py:32-46` (`number_of_edges(nodes_subset, return_missing=True)`). -/
def numberOfEdges (o : SetOrder α) (G : UGraph α) (nodesSubset : Finset α) : Py (Nat × Nat) :=
  countLoop G (pairs (o.iter () nodesSubset)) (0, 0)

end UGraph
end Verif
