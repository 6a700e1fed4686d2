import Verif.Model.GraphHeap

/-!
# Specification vocabulary: several graph objects in one memory, and the same operations on independent values
-/

namespace Verif
variable {ι α : Type} [DecidableEq ι] [DecidableEq α]

/-- The memory of set objects and the graph objects, named by the elements of `ι`. -/
structure GWorld (ι α : Type) where
  heap : Heap α
  obj : ι → HGraph α

/-- Operations of a user on graph objects. `new`: a graph over a newly written set; `newFrom`: a graph that is given the node set of
another graph; `copy i j`: the name `j` is given to a copy of `i`; `mutate`: the caller changes the set they got from `parents` or
`undirected_neighbors` (or another reader of `_graph`) to the content `S`. -/
inductive GOp (ι α : Type) where
  | new (i : ι) (S : Finset α) (types : List Mark)
  | newFrom (i k : ι) (types : List Mark)
  | clear (i : ι) (S : Finset α)
  | complete (i : ι) (m : Mark) (S : Finset α)
  | copy (i j : ι)
  | orient (i : ι) (s t : α)
  | deleteDirected (i : ι) (s t : α)
  | deleteUndirected (i : ι) (s t : α)
  | pdagDelete (i : ι) (s t : α)
  | addEdges (i : ι) (ps : Finset α) (t : α) (m : Mark)
  | delete (i : ι) (s t : α)
  | replaceMark (i : ι) (s t : α) (m : Mark)
  | addEdge (i : ι) (s t : α) (ms mt : Mark)
  | mutate (i : ι) (v : α) (m : Mark) (S : Finset α)

/-- The graph that the operation is meant to change. -/
def GOp.target : GOp ι α → ι
  | .new i _ _ | .newFrom i _ _ | .clear i _ | .complete i _ _ | .copy _ i | .orient i _ _ | .deleteDirected i _ _
  | .deleteUndirected i _ _ | .pdagDelete i _ _ | .addEdges i _ _ _ | .delete i _ _ | .replaceMark i _ _ _ | .addEdge i _ _ _ _
  | .mutate i _ _ _ => i

namespace GWorld

/-- A graph object gets a name. -/
def bind (w : GWorld ι α) (i : ι) (r : HGraph α × Heap α) : GWorld ι α := ⟨r.2, Function.update w.obj i r.1⟩

/-- The memory changes. -/
def inPlace (w : GWorld ι α) (r : Py (Heap α)) : Py (GWorld ι α) := do return ⟨← r, w.obj⟩

/-- What a user sees at `_graph[v][m]` of the graph `i`. -/
def marks (w : GWorld ι α) (i : ι) (v : α) (m : Mark) : Py (Finset α) := (w.obj i).read w.heap v m

/-- The nodes of the graph `i`. -/
def nodes (w : GWorld ι α) (i : ι) : Finset α := w.heap.mem (w.obj i).nodes

/-- No two entries of graphs are the same set object, and none is a node set; all set objects exist. Node sets may be shared. -/
structure Unshared (w : GWorld ι α) : Prop where
  lt : ∀ i v m a, (w.obj i).d v m = some a → a < w.heap.next
  nodesLt : ∀ i, (w.obj i).nodes < w.heap.next
  inj : ∀ i v m i' v' m' a, (w.obj i).d v m = some a → (w.obj i').d v' m' = some a → i = i' ∧ v = v' ∧ m = m'
  sep : ∀ i v m a k, (w.obj i).d v m = some a → a ≠ (w.obj k).nodes

/-- The objects have the given values: the nodes, the mark types, and the marks; other entries do not exist. -/
structure Shows (w : GWorld ι α) (V : ι → MG α) : Prop where
  nodes : ∀ i, w.nodes i = (V i).nodes
  types : ∀ i, (w.obj i).types = (V i).types
  marks : ∀ i, ∀ v ∈ (V i).nodes, ∀ m ∈ (V i).types, w.marks i v m = .ok ((V i).g v m)
  none : ∀ i v m, ¬ (v ∈ (V i).nodes ∧ m ∈ (V i).types) → w.marks i v m = .error .keyError

end GWorld

/-- The operation on objects in memory. -/
def GOp.runHeap (o : SetOrder α) (w : GWorld ι α) : GOp ι α → Py (GWorld ι α)
  | .new i S types => .ok (w.bind i (HGraph.new o (w.heap.alloc S).1 types (w.heap.alloc S).2))
  | .newFrom i k types => .ok (w.bind i (HGraph.new o (w.obj k).nodes types w.heap))
  | .clear i S => .ok (w.bind i (HGraph.createEmpty o S (w.obj i, w.heap)))
  | .complete i m S => .ok (w.bind i (HGraph.createComplete o m S (w.obj i, w.heap)))
  | .copy i j => do return w.bind j (← (w.obj i).copy o w.heap)
  | .orient i s t => w.inPlace ((w.obj i).orientEdge s t w.heap)
  | .deleteDirected i s t => w.inPlace ((w.obj i).deleteDirectedEdge s t w.heap)
  | .deleteUndirected i s t => w.inPlace ((w.obj i).deleteUndirectedEdge s t w.heap)
  | .pdagDelete i s t => w.inPlace ((w.obj i).pdagDeleteEdge s t w.heap)
  | .addEdges i ps t m => w.inPlace ((w.obj i).addEdges o ps t m w.heap)
  | .delete i s t => w.inPlace ((w.obj i).deleteEdge s t w.heap)
  | .replaceMark i s t m => w.inPlace ((w.obj i).replaceEdgeMark s t m w.heap)
  | .addEdge i s t ms mt => w.inPlace ((w.obj i).addEdge s t ms mt w.heap)
  | .mutate i v m S => w.inPlace ((w.obj i).modify v m (fun _ => S) w.heap)

/-- All edges and half edges at the nodes `S` are removed at these nodes. -/
def MG.clearOn (G : MG α) (S : Finset α) : MG α := { G with g := fun x m => if x ∈ S then ∅ else G.g x m }

/-- All pairs of nodes in `S` get an edge with the mark at both ends; other marks at these nodes are removed. -/
def MG.completeOn (G : MG α) (mark : Mark) (S : Finset α) : MG α :=
  { G with g := fun x m => if x ∈ S then (if m = mark then S.erase x else ∅) else G.g x m }

/-- The operation on independent values. -/
def GOp.runVal (V : ι → MG α) : GOp ι α → Py (ι → MG α)
  | .new i S types => .ok (Function.update V i (MG.empty S types))
  | .newFrom i k types => .ok (Function.update V i (MG.empty (V k).nodes types))
  | .clear i S => .ok (Function.update V i ((V i).clearOn S))
  | .complete i m S => .ok (Function.update V i ((V i).completeOn m S))
  | .copy i j => .ok (Function.update V j (V i))
  | .orient i s t => .ok (Function.update V i ((V i).orientEdge s t))
  | .deleteDirected i s t => .ok (Function.update V i ((V i).deleteDirectedEdge s t))
  | .deleteUndirected i s t => .ok (Function.update V i ((V i).deleteUndirectedEdge s t))
  | .pdagDelete i s t => .ok (Function.update V i ((V i).pdagDeleteEdge s t))
  | .addEdges i ps t m => do return Function.update V i (← (V i).pdagAddEdges ps t m)
  | .delete i s t => .ok (Function.update V i ((V i).deleteEdge s t))
  | .replaceMark i s t m => do return Function.update V i (← (V i).replaceEdgeMark s t m)
  | .addEdge i s t ms mt => do return Function.update V i (← (V i).addEdge s t ms mt)
  | .mutate i v m S => .ok (Function.update V i ((V i).upd v m (fun _ => S)))

/-- The graph is of the class `PDAG`. -/
def MG.IsPdag (G : MG α) : Prop := G.types = [.tail, .arrow]

/-- The nodes and marks of the operation belong to the graph, and PDAG operations are called for PDAGs. -/
def GOp.InScope (V : ι → MG α) : GOp ι α → Prop
  | .new _ _ _ | .newFrom _ _ _ => True
  | .clear i S => S ⊆ (V i).nodes
  | .complete i m S => S ⊆ (V i).nodes ∧ m ∈ (V i).types
  | .copy i _ => (V i).IsPdag
  | .orient i s t | .deleteDirected i s t | .deleteUndirected i s t | .pdagDelete i s t =>
    (V i).IsPdag ∧ s ∈ (V i).nodes ∧ t ∈ (V i).nodes
  | .addEdges i ps t _ => (V i).IsPdag ∧ ps ⊆ (V i).nodes ∧ t ∈ (V i).nodes
  | .delete i s t | .replaceMark i s t _ | .addEdge i s t _ _ => s ∈ (V i).nodes ∧ t ∈ (V i).nodes
  | .mutate i v m _ => v ∈ (V i).nodes ∧ m ∈ (V i).types

/-- The operations in turn. -/
def GOp.runAll {σ : Type} (run : σ → GOp ι α → Py σ) (s : σ) (ops : List (GOp ι α)) : Py σ := ops.foldlM run s

/-- Every operation is in scope when it is reached. -/
def GOp.AllInScope : (ι → MG α) → List (GOp ι α) → Prop
  | _, [] => True
  | V, op :: ops => op.InScope V ∧ ∀ V', op.runVal V = .ok V' → AllInScope V' ops

end Verif
