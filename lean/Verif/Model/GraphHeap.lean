import Verif.Model.Pdag
import Verif.Model.SepSet

/-!
# Mixed graphs as objects in memory (`basic_equivalance_class_graph.py`, `partially_dag.py`)

The other files treat a graph as a value. Here `_graph[node][mark]` holds the identity of a set object, as does `nodes_set`, so that
sharing of sets between graphs and changes in place are visible. A missing key raises KeyError.
-/

namespace Verif

/-- `basic_equivalance_class_graph.py:10-17`: a graph object; `nodes` is the identity of the set object `nodes_set`, `types` the
edge-mark types in the order of iteration, `d` the entries of the dictionaries `_graph[node]`. -/
structure HGraph (α : Type) where
  nodes : Nat
  types : List Mark
  d : α → Mark → Option Nat

namespace HGraph
variable {α : Type} [DecidableEq α]

/-- `self._graph[v][m]`: the set object. -/
def addr (H : HGraph α) (v : α) (m : Mark) : Py Nat :=
  match H.d v m with
  | some a => .ok a
  | none => .error .keyError

/-- The content of `self._graph[v][m]`. -/
def read (H : HGraph α) (h : Heap α) (v : α) (m : Mark) : Py (Finset α) := do
  return h.mem (← H.addr v m)

/-- A change in place, `self._graph[v][m].add(…)`, `.discard(…)` or `|= …` (`basic_equivalance_class_graph.py:280-291`,
`basic_equivalance_class_graph.py:322-323`, `partially_dag.py:176-178`, `partially_dag.py:208-211`). -/
def modify (H : HGraph α) (v : α) (m : Mark) (f : Finset α → Finset α) (h : Heap α) : Py (Heap α) := do
  let a ← H.addr v m
  return h.write a (f (h.mem a))

/-- `self._graph[v][m] = S` for a new set object `S`. -/
def put (v : α) (m : Mark) (S : Finset α) (Hh : HGraph α × Heap α) : HGraph α × Heap α :=
  ({ Hh.1 with d := fun x m' => if x = v ∧ m' = m then some (Hh.2.alloc S).1 else Hh.1.d x m' }, (Hh.2.alloc S).2)

/-- `basic_equivalance_class_graph.py:20-29` (`create_empty_graph`) for the nodes `S`. -/
def createEmpty (o : SetOrder α) (S : Finset α) (Hh : HGraph α × Heap α) : HGraph α × Heap α :=
  (o.iter () S).foldl (fun Hh v =>
    Hh.1.types.foldl (fun Hh m => put v m ∅ Hh)
      ({ Hh.1 with d := fun x m => if x = v then none else Hh.1.d x m }, Hh.2)) Hh

/-- `basic_equivalance_class_graph.py:31-40` (`create_complete_graph`) for the nodes `S`. -/
def createComplete (o : SetOrder α) (mark : Mark) (S : Finset α) (Hh : HGraph α × Heap α) : HGraph α × Heap α :=
  (o.iter 0 S).foldl (fun Hh v => put v mark (S.erase v) Hh) (createEmpty o S Hh)

/-- `basic_equivalance_class_graph.py:10-17` (`MixedGraph.__init__`) with the set object `a` as node set: the set object is kept. -/
def new (o : SetOrder α) (a : Nat) (types : List Mark) (h : Heap α) : HGraph α × Heap α :=
  createEmpty o (h.mem a) (⟨a, types, fun _ _ => none⟩, h)

/-- `partially_dag.py:350-361` (`PDAG.copy`). -/
def copy (o : SetOrder α) (H : HGraph α) (h : Heap α) : Py (HGraph α × Heap α) :=
  (o.iter 1 (h.mem H.nodes)).foldlM (fun (Th : HGraph α × Heap α) v => do
    let s ← H.read Th.2 v .tail
    let Th := put v .tail s Th
    let s ← H.read Th.2 v .arrow
    return put v .arrow s Th) (new o H.nodes [.tail, .arrow] h)

/-- `partially_dag.py:167-178` (`orient_edge`). -/
def orientEdge (H : HGraph α) (s t : α) (h : Heap α) : Py (Heap α) := do
  let h ← H.modify t .arrow (insert s) h
  let h ← H.modify t .tail (fun x => x.erase s) h
  H.modify s .tail (fun x => x.erase t) h

/-- `partially_dag.py:180-187` (`delete_directed_edge`). -/
def deleteDirectedEdge (H : HGraph α) (s t : α) (h : Heap α) : Py (Heap α) := H.modify t .arrow (fun x => x.erase s) h

/-- `partially_dag.py:189-197` (`delete_undirected_edge`). -/
def deleteUndirectedEdge (H : HGraph α) (i j : α) (h : Heap α) : Py (Heap α) := do
  let h ← H.modify i .tail (fun x => x.erase j) h
  H.modify j .tail (fun x => x.erase i) h

/-- `partially_dag.py:199-202` (`PDAG.delete_edge`). -/
def pdagDeleteEdge (H : HGraph α) (i j : α) (h : Heap α) : Py (Heap α) := do
  let h ← H.deleteDirectedEdge i j h
  let h ← H.deleteDirectedEdge j i h
  H.deleteUndirectedEdge i j h

/-- `partially_dag.py:204-211` (`add_edges`). -/
def addEdges (o : SetOrder α) (H : HGraph α) (ps : Finset α) (t : α) (m : Mark) (h : Heap α) : Py (Heap α) := do
  if m ≠ .tail ∧ m ≠ .arrow then throw .valueError
  let h ← H.modify t m (fun s => s ∪ ps) h
  if m = .tail then
    (o.iter 0 ps).foldlM (fun h p => H.modify p .tail (insert t) h) h
  else return h

/-- `basic_equivalance_class_graph.py:278-281` (`MixedGraph.delete_edge`). -/
def deleteEdge (H : HGraph α) (i j : α) (h : Heap α) : Py (Heap α) :=
  H.types.foldlM (fun h m => do
    let h ← H.modify i m (fun s => s.erase j) h
    H.modify j m (fun s => s.erase i) h) h

/-- `basic_equivalance_class_graph.py:283-291` (`replace_edge_mark`). -/
def replaceEdgeMark (H : HGraph α) (s t : α) (m : Mark) (h : Heap α) : Py (Heap α) := do
  if m ∉ H.types then throw .assertionError
  let h ← H.types.foldlM (fun h m' => H.modify t m' (fun x => x.erase s) h) h
  H.modify t m (insert s) h

/-- `basic_equivalance_class_graph.py:92-106` (`is_connected`). -/
def isConnected (H : HGraph α) (i j : α) (h : Heap α) : Py Bool := do
  if i = j then throw .assertionError
  if ← forAny (fun m => do return decide (i ∈ (← H.read h j m))) H.types then return true
  forAny (fun m => do return decide (j ∈ (← H.read h i m))) H.types

/-- `basic_equivalance_class_graph.py:309-323` (`add_edge`). -/
def addEdge (H : HGraph α) (i j : α) (mi mj : Mark) (h : Heap α) : Py (Heap α) := do
  if ← H.isConnected i j h then throw .assertionError
  if ¬ (mi ∈ H.types ∧ mj ∈ H.types) then throw .assertionError
  let h ← H.modify i mi (insert j) h
  H.modify j mj (insert i) h

end HGraph
end Verif
