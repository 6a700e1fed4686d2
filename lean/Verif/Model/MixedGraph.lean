import Verif.Model.Dag

/-!
# Model of `graphical_models/basic_equivalance_class_graph.py` (`MixedGraph`)

KeyError for nodes that are not in the graph is not modelled here: `g` is total and empty outside the node set
of well-formed graphs; the theorems assume that the nodes handed in are nodes of the graph. Assertions of the code
are modelled.
-/

namespace Verif

/-- `graphical_models/arrow_head_types.py:2-5`: `'---'` (Undirected, also called Tail), `'<--'` (Directed) and
`'o--'` (Circle). -/
inductive Mark
  | tail | arrow | circle
  deriving DecidableEq, Repr

/-- `basic_equivalance_class_graph.py:6-17` (`MixedGraph.__init__`): node set, edge mark types (a Python set; the
list is its iteration order, which is fixed for the life of the object), and `_graph[node][mark]`: the set of nodes
whose edge with `node` has `mark` at `node`. -/
structure MG (α : Type) where
  nodes : Finset α
  types : List Mark
  g : α → Mark → Finset α

namespace MG
variable {α : Type} [DecidableEq α]

/-- `_graph[node][mark] = f(_graph[node][mark])`. -/
def upd (G : MG α) (v : α) (m : Mark) (f : Finset α → Finset α) : MG α :=
  { G with g := fun x m' => if x = v ∧ m' = m then f (G.g x m') else G.g x m' }

/-- `basic_equivalance_class_graph.py:20-29` (`create_empty_graph`) on all nodes. -/
def empty (nodes : Finset α) (types : List Mark) : MG α := ⟨nodes, types, fun _ _ => ∅⟩

/-- `basic_equivalance_class_graph.py:31-40` (`create_complete_graph`) on all nodes. -/
def complete (nodes : Finset α) (types : List Mark) (mark : Mark) : MG α :=
  ⟨nodes, types, fun x m => if x ∈ nodes ∧ m = mark then nodes.erase x else ∅⟩

/-- `basic_equivalance_class_graph.py:43-56` (`is_empty`, all nodes). The loops only look for a non-empty set, so
their order is irrelevant. -/
def isEmpty (G : MG α) : Bool :=
  decide (∀ v ∈ G.nodes, ∀ m ∈ G.types, G.g v m = ∅)

/-- `basic_equivalance_class_graph.py:72-83` (`is_any_edge_mark`). -/
def isAnyEdgeMark (G : MG α) (s t : α) : Bool := G.types.any (fun m => s ∈ G.g t m)

/-- `basic_equivalance_class_graph.py:85-90` (`get_edge_mark`): first mark found. -/
def getEdgeMark (G : MG α) (p c : α) : Option Mark := G.types.find? (fun m => p ∈ G.g c m)

/-- `basic_equivalance_class_graph.py:92-106` (`is_connected`). -/
def isConnected (G : MG α) (i j : α) : Py Bool :=
  if i = j then .error .assertionError
  else .ok (G.types.any (fun m => i ∈ G.g j m) || G.types.any (fun m => j ∈ G.g i m))

/-- `basic_equivalance_class_graph.py:108-122` (`is_edge`). -/
def isEdge (G : MG α) (i j : α) (mi mj : Mark) : Py Bool :=
  if mi ∈ G.types ∧ mj ∈ G.types then .ok (decide (j ∈ G.g i mi ∧ i ∈ G.g j mj))
  else .error .assertionError

/-- The loop of `basic_equivalance_class_graph.py:58-70` (`number_of_edges`): connected and unconnected pairs. -/
def countLoop (G : MG α) : List (α × α) → Nat × Nat → Py (Nat × Nat)
  | [], acc => .ok acc
  | (i, j) :: ps, acc => do
    if ← G.isConnected i j then countLoop G ps (acc.1 + 1, acc.2)
    else countLoop G ps (acc.1, acc.2 + 1)

/-- `basic_equivalance_class_graph.py:58-70` (`number_of_edges(return_missing=True)`). -/
def numberOfEdges (o : SetOrder α) (G : MG α) : Py (Nat × Nat) :=
  countLoop G (pairs (o.iter () G.nodes)) (0, 0)

/-- `basic_equivalance_class_graph.py:144-168` (`find_adjacent_nodes`). `pool = none` means no restriction. -/
def findAdjacentNodes (G : MG α) (i : α) (pool : Option (Finset α)) (edgeType : Option (Mark × Mark)) : Finset α :=
  let connected := match edgeType with
    | none => G.types.foldl (fun acc m => acc ∪ G.g i m) ∅
    | some (mo, mn) => (G.g i mo).filter (fun nb => i ∈ G.g nb mn)
  match pool with
  | none => connected
  | some p => connected ∩ p

/-- `basic_equivalance_class_graph.py:186-190` and `225-231`: neighbours through any of the edge types
(`edge_type_list = None` means all edges). -/
def nbrs (G : MG α) (i : α) (pool : Finset α) (types : Option (List (Mark × Mark))) : Finset α :=
  match types with
  | none => G.findAdjacentNodes i (some pool) none
  | some l => l.foldl (fun acc t => acc ∪ G.findAdjacentNodes i (some pool) (some t)) ∅

/-- The loop `basic_equivalance_class_graph.py:198-201` of the recursive search; state (reachable set, pool). -/
def reachRecLoop (rec : α → Finset α → Py (Finset α)) : List α → Finset α × Finset α → Py (Finset α × Finset α)
  | [], st => .ok st
  | nb :: nbs, (reach, pool) => do
    let r ← rec nb pool
    reachRecLoop rec nbs (reach ∪ r, pool \ r)

/-- `basic_equivalance_class_graph.py:170-203` (`find_reachable_set_recursive`), with recursion budget. -/
def findReachableSetRec (o : SetOrder α) (G : MG α) (types : Option (List (Mark × Mark))) :
    Nat → α → Finset α → Py (Finset α)
  | 0, _, _ => .error .outOfFuel
  | n + 1, anchor, pool =>
    if pool.card = 0 then .ok ∅
    else
      let nb := G.nbrs anchor pool types
      if nb.card = 0 then .ok ∅
      else do
        let r ← reachRecLoop (findReachableSetRec o G types n) (o.iter (anchor, pool) nb) (nb, pool \ nb)
        return r.1

/-- The loop `basic_equivalance_class_graph.py:222-234` of the iterative search, with a budget of rounds. -/
def reachLoop (o : SetOrder α) (G : MG α) (types : Option (List (Mark × Mark))) :
    Nat → Finset α → Finset α → Finset α → Py (Finset α)
  | 0, _, _, _ => .error .outOfFuel
  | n + 1, reach, allowed, frontier =>
    if frontier.card = 0 then .ok reach
    else
      let next := (o.iter (reach, allowed) frontier).foldl (fun acc v => acc ∪ G.nbrs v allowed types) ∅
      reachLoop o G types n (reach ∪ next) (allowed \ next) next

/-- `basic_equivalance_class_graph.py:205-236` (`find_reachable_set`). -/
def findReachableSet (o : SetOrder α) (G : MG α) (anchor : α) (pool : Finset α)
    (types : Option (List (Mark × Mark))) : Py (Finset α) :=
  if pool.card = 0 then .ok ∅
  else reachLoop o G types (pool.card + 2) ∅ pool {anchor}

/-- The loop `basic_equivalance_class_graph.py:258-263` of `find_unconnected_subgraphs`, with a budget. -/
def subgraphsLoop (o : SetOrder α) (G : MG α) (types : Option (List (Mark × Mark))) :
    Nat → Finset α → Py (List (Finset α))
  | 0, _ => .error .outOfFuel
  | n + 1, nodes =>
    match popSet o n nodes with
    | none => .ok []
    | some (i, rest) => do
      let r ← G.findReachableSet o i rest types
      let more ← subgraphsLoop o G types n (rest \ r)
      return insert i r :: more

/-- `basic_equivalance_class_graph.py:238-265` (`find_unconnected_subgraphs`). -/
def findUnconnectedSubgraphs (o : SetOrder α) (G : MG α) (en : Finset α) (sym : Option Mark) :
    Py (List (Finset α)) :=
  let types := match sym with
    | none => none
    | some m => if m ∈ G.types then some [(m, m)] else none
  subgraphsLoop o G types (en.card + 1) en

/-- The loop `basic_equivalance_class_graph.py:134-141` of `is_graph_connected`, with a budget. -/
def connectedLoop (o : SetOrder α) (G : MG α) : Nat → Finset α → Finset α → Py Bool
  | 0, _, _ => .error .outOfFuel
  | n + 1, toReach, starting =>
    match popSet o (toReach, starting) starting with
    | none => .ok false
    | some (v, starting) =>
      let adjacent := G.findAdjacentNodes v (some toReach) none
      let toReach := toReach \ adjacent
      if toReach.card = 0 then .ok true
      else connectedLoop o G n toReach (starting ∪ adjacent)

/-- `basic_equivalance_class_graph.py:124-142` (`is_graph_connected`), node set given explicitly. -/
def isGraphConnected (o : SetOrder α) (G : MG α) (nodesSet : Finset α) : Py Bool :=
  if nodesSet.card > 1 then
    match popSet o () nodesSet with
    | none => .error .keyError
    | some (v, toReach) => connectedLoop o G (nodesSet.card + 1) toReach {v}
  else .error .assertionError

/-- `basic_equivalance_class_graph.py:267-275` (`get_skeleton_graph`). -/
def getSkeletonGraph (o : SetOrder α) (G : MG α) (en : Finset α) : Py (UGraph α) :=
  (pairs (o.iter () en)).foldlM (fun U ij => do
    if ← G.isConnected ij.1 ij.2 then U.addEdge ij.1 ij.2 else return U) (UGraph.empty en)

/-- `basic_equivalance_class_graph.py:278-281` (`delete_edge`). -/
def deleteEdge (G : MG α) (i j : α) : MG α :=
  G.types.foldl (fun G m => (G.upd i m (fun s => s.erase j)).upd j m (fun s => s.erase i)) G

/-- `basic_equivalance_class_graph.py:283-291` (`replace_edge_mark`). -/
def replaceEdgeMark (G : MG α) (s t : α) (m : Mark) : Py (MG α) :=
  if m ∈ G.types then
    .ok ((G.types.foldl (fun G m' => G.upd t m' (fun x => x.erase s)) G).upd t m (insert s))
  else .error .assertionError

/-- `basic_equivalance_class_graph.py:293-307` (`reset_orientations`). -/
def resetOrientations (o : SetOrder α) (G : MG α) (m : Mark) (nodesSet : Finset α) : Py (MG α) :=
  if m ∈ G.types then
    (pairs (o.iter () nodesSet)).foldlM (fun G xy => do
      if ← G.isConnected xy.1 xy.2 then
        let G ← G.replaceEdgeMark xy.1 xy.2 m
        G.replaceEdgeMark xy.2 xy.1 m
      else return G) G
  else .error .assertionError

/-- `basic_equivalance_class_graph.py:309-323` (`add_edge`). -/
def addEdge (G : MG α) (i j : α) (mi mj : Mark) : Py (MG α) := do
  if ← G.isConnected i j then throw .assertionError
  if mi ∈ G.types ∧ mj ∈ G.types then
    return (G.upd i mi (insert j)).upd j mj (insert i)
  else throw .assertionError

/-- `basic_equivalance_class_graph.py:325-339` (`get_skeleton_mat`); `l` is the sorted node list (line 332).
Indices outside the matrix are 0. -/
def getSkeletonMat (o : SetOrder α) (G : MG α) (l : List α) : Py (Nat → Nat → Nat) :=
  (o.iter 0 G.nodes).foldlM (fun A v =>
    G.types.foldlM (fun A m =>
      (o.iter (v, m) (G.g v m)).foldlM (fun A p => do
        let r ← Dag.indexOf l p
        let c ← Dag.indexOf l v
        return fun r' c' => if r' = r ∧ c' = c then 1 else A r' c') A) A) (fun _ _ => 0)

end MG
end Verif
