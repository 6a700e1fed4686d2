import Verif.Model.MixedGraph
import Mathlib.Algebra.BigOperators.Group.Finset.Basic

/-!
# Model of `graphical_models/partially_dag.py` (`PDAG`) and of `DAG.convert_to_cpdag`
-/

namespace Verif
namespace MG
variable {α : Type} [DecidableEq α]

/-- `partially_dag.py:10-17` (`PDAG.__init__`): a `MixedGraph` with the two mark types Undirected and Directed,
without edges. -/
def pdagEmpty (nodes : Finset α) : MG α := MG.empty nodes [.tail, .arrow]

/-- `partially_dag.py:20-21` (`PDAG.create_complete_graph`, all nodes). -/
def pdagComplete (nodes : Finset α) : MG α := MG.complete nodes [.tail, .arrow] .tail

/-- `partially_dag.py:24-30` (`parents`). -/
def parents (G : MG α) (v : α) : Finset α := G.g v .arrow

/-- `partially_dag.py:46-52` (`undirected_neighbors`). -/
def und (G : MG α) (v : α) : Finset α := G.g v .tail

/-- `partially_dag.py:32-44` (`children`). -/
def children (G : MG α) (p : α) (pool : Finset α) : Finset α := pool.filter (fun v => p ∈ G.parents v)

/-- `partially_dag.py:54-68` (`is_sink`). -/
def isSink (G : MG α) (v : α) (en : Finset α) : Bool := decide (∀ x ∈ en, v ∉ G.parents x)

/-- `partially_dag.py:70-76` (`fan_in`). -/
def fanIn (G : MG α) (v : α) : Nat := (G.parents v).card + (G.und v).card

/-- `partially_dag.py:78-88` (`get_num_edges`): `int(#directed + 0.5 * #undirected)`; halves are exact in floating
point. -/
def getNumEdges (G : MG α) : Nat := (2 * (∑ v ∈ G.nodes, (G.parents v).card) + ∑ v ∈ G.nodes, (G.und v).card) / 2

/-- The loop of `partially_dag.py:107-112` and `partially_dag.py:134-139`: `past_neighbors` grows, the recursive call gets the allowed
nodes without it. -/
def undLoop (rec : α → Finset α → Py Bool) (en : Finset α) : List α → Finset α → Py Bool
  | [], _ => .ok false
  | nb :: nbs, past => do
    if ← rec nb (en \ insert nb past) then return true
    undLoop rec en nbs (insert nb past)

/-- `partially_dag.py:90-114` (`is_reachable_undirected`), with recursion budget. -/
def isReachableUndFuel (o : SetOrder α) (G : MG α) : Nat → α → α → Finset α → Py Bool
  | 0, _, _, _ => .error .outOfFuel
  | n + 1, s, t, en =>
    if t ∈ G.und s then .ok true
    else undLoop (fun nb en' => isReachableUndFuel o G n nb t en') en (o.iter (s, t, en) (G.und s ∩ en)) {s}

/-- `partially_dag.py:90-114` (`is_reachable_undirected`); `en_nodes=None` is the set of all nodes. -/
def isReachableUnd (o : SetOrder α) (G : MG α) (s t : α) (en : Option (Finset α)) : Py Bool :=
  isReachableUndFuel o G ((en.getD G.nodes).card + 1) s t (en.getD G.nodes)

/-- `partially_dag.py:116-141` (`is_reachable_any_undirected`), with recursion budget. -/
def isReachableAnyUndFuel (o : SetOrder α) (G : MG α) : Nat → α → Finset α → Finset α → Py Bool
  | 0, _, _, _ => .error .outOfFuel
  | n + 1, s, T, en =>
    if (o.iter (s, T) (G.und s)).any (fun v => v ∈ T) then .ok true
    else undLoop (fun nb en' => isReachableAnyUndFuel o G n nb T en') en (o.iter (s, T, en) (G.und s ∩ en)) {s}

/-- `partially_dag.py:116-141` (`is_reachable_any_undirected`); `en_nodes=None` is the set of all nodes. -/
def isReachableAnyUnd (o : SetOrder α) (G : MG α) (s : α) (T : Finset α) (en : Option (Finset α)) : Py Bool :=
  isReachableAnyUndFuel o G ((en.getD G.nodes).card + 1) s T (en.getD G.nodes)

/-- `partially_dag.py:143-164` (`find_partial_topological_order`), with recursion budget. -/
def partialTopoFuel (o : SetOrder α) (G : MG α) : Nat → Finset α → Py (List (Finset α))
  | 0, _ => .error .outOfFuel
  | n + 1, en =>
    if en.card = 0 then .ok []
    else
      let parentsSet := (o.iter () en).foldl (fun acc v => acc ∪ (G.parents v ∩ en)) ∅
      let leaves := en \ parentsSet
      if leaves.card = 0 then .ok [parentsSet]
      else do
        let high ← partialTopoFuel o G n parentsSet
        return leaves :: high

/-- `partially_dag.py:143-164` (`find_partial_topological_order`). -/
def partialTopo (o : SetOrder α) (G : MG α) (en : Finset α) : Py (List (Finset α)) :=
  partialTopoFuel o G (en.card + 1) en

/-- `partially_dag.py:167-178` (`orient_edge`). -/
def orientEdge (G : MG α) (s t : α) : MG α :=
  ((G.upd t .arrow (insert s)).upd t .tail (fun x => x.erase s)).upd s .tail (fun x => x.erase t)

/-- `partially_dag.py:180-187` (`delete_directed_edge`). -/
def deleteDirectedEdge (G : MG α) (s t : α) : MG α := G.upd t .arrow (fun x => x.erase s)

/-- `partially_dag.py:189-197` (`delete_undirected_edge`). -/
def deleteUndirectedEdge (G : MG α) (i j : α) : MG α :=
  (G.upd i .tail (fun x => x.erase j)).upd j .tail (fun x => x.erase i)

/-- `partially_dag.py:199-202` (`PDAG.delete_edge`). -/
def pdagDeleteEdge (G : MG α) (i j : α) : MG α :=
  ((G.deleteDirectedEdge i j).deleteDirectedEdge j i).deleteUndirectedEdge i j

/-- `partially_dag.py:204-211` (`add_edges`). The order of the loop over `parents_set` does not matter: each round
writes to the entry of a different node. -/
def pdagAddEdges (G : MG α) (ps : Finset α) (t : α) (m : Mark) : Py (MG α) :=
  if m ≠ .tail ∧ m ≠ .arrow then .error .valueError
  else
    let G := G.upd t m (fun s => s ∪ ps)
    .ok (if m = .tail then
      { G with g := fun x m' => if m' = .tail ∧ x ∈ ps then insert t (G.g x m') else G.g x m' }
    else G)

/-- Body of the loop `partially_dag.py:223-228`. -/
def unBidirect (G : MG α) (x y : α) : MG α :=
  if y ∈ G.parents x ∧ x ∈ G.parents y then
    (((G.upd x .arrow (fun s => s.erase y)).upd y .arrow (fun s => s.erase x)).upd x .tail (insert y)).upd y .tail (insert x)
  else G

/-- `partially_dag.py:213-228` (`convert_bidirected_to_undirected`). -/
def convertBidirected (o : SetOrder α) (G : MG α) (nodes : Finset α) : MG α :=
  (pairs (o.iter () nodes)).foldl (fun G xy => G.unBidirect xy.1 xy.2) G

/-- Body of the loop `partially_dag.py:234-243`. -/
def unDirect (G : MG α) (x y : α) : MG α :=
  if y ∈ G.parents x ∨ x ∈ G.parents y then
    (((G.upd x .arrow (fun s => s.erase y)).upd y .arrow (fun s => s.erase x)).upd x .tail (insert y)).upd y .tail (insert x)
  else G

/-- `partially_dag.py:230-243` (`convert_to_undirected`). -/
def convertToUndirected (o : SetOrder α) (G : MG α) (nodes : Finset α) : MG α :=
  (pairs (o.iter () nodes)).foldl (fun G xy => G.unDirect xy.1 xy.2) G

/-! ### orientation rules -/

/-- The inner loop of rule 1, `partially_dag.py:275-277`: is there `z` in `parents(x)` not connected to `y`? -/
def cond1 (o : SetOrder α) (G : MG α) (y x : α) : Py Bool :=
  forAny (fun z => do return !(← G.isConnected z y)) (o.iter (y, x) (G.parents x))

/-- The inner loop of rule 2, `partially_dag.py:294-297`. -/
def cond2 (o : SetOrder α) (G : MG α) (y x : α) : Py Bool :=
  forAny (fun z => .ok (decide (x ∈ G.parents z))) (o.iter (y, x) (G.parents y))

/-- The inner loop of rule 3, `partially_dag.py:316-319`. `wz_nodes` is the live parent set of `y`. -/
def cond3 (o : SetOrder α) (G : MG α) (y x : α) : Py Bool :=
  forAny (fun wz => do return !(← G.isConnected wz.1 wz.2)) (pairs (o.iter (y, x) (G.und x ∩ G.parents y)))

/-- The inner loop of rule 4, `partially_dag.py:340-344`. `z_nodes` is the live parent set of `y`. -/
def cond4 (o : SetOrder α) (G : MG α) (y x : α) : Py Bool :=
  forAny (fun z => do
    if ← G.isConnected z x then return decide ((G.parents z ∩ G.und x).card > 0)
    else return false) (o.iter (y, x) (G.parents y))

/-- The loop over `x_nodes` (a copy of the undirected neighbours of `y`) common to the rules, e.g.
`partially_dag.py:274-279`: the edge is oriented `x --> y` as soon as the inner loop finds a match, and the inner
loop is left (`break`). State: graph and `graph_modified`. -/
def orientXs (cond : MG α → α → α → Py Bool) (y : α) : List α → MG α × Bool → Py (MG α × Bool)
  | [], st => .ok st
  | x :: xs, (G, modified) => do
    if ← cond G y x then orientXs cond y xs (G.orientEdge x y, true)
    else orientXs cond y xs (G, modified)

/-- The loop over `en_nodes` common to the rules, e.g. `partially_dag.py:272-281`. -/
def orientYs (o : SetOrder α) (cond : MG α → α → α → Py Bool) : List α → MG α × Bool → Py (MG α × Bool)
  | [], st => .ok st
  | y :: ys, (G, modified) => do
    let st ← orientXs cond y (o.iter (y, 0) (G.und y)) (G, modified)
    orientYs o cond ys st

/-- `partially_dag.py:12-17,260-262`: the rule selected by its index (KeyError for other indices), applied to the
graph: `partially_dag.py:264-281` (rule 1), `283-301` (rule 2), `303-324` (rule 3), `326-348` (rule 4). -/
def applyRule (o : SetOrder α) (idx : Nat) (en : Finset α) (G : MG α) : Py (MG α × Bool) :=
  match idx with
  | 1 => orientYs o (cond1 o) (o.iter () en) (G, false)
  | 2 => orientYs o (cond2 o) (o.iter () en) (G, false)
  | 3 => orientYs o (cond3 o) (o.iter () en) (G, false)
  | 4 => orientYs o (cond4 o) (o.iter () en) (G, false)
  | _ => .error .keyError

/-- The `for rule_idx in rules_set` loop, `partially_dag.py:260-262`. -/
def rulesLoop (o : SetOrder α) (en : Finset α) : List Nat → MG α × Bool → Py (MG α × Bool)
  | [], st => .ok st
  | r :: rs, (G, modified) => do
    let (G', m) ← applyRule o r en G
    rulesLoop o en rs (G', modified || m)

/-- The `while graph_modified` loop, `partially_dag.py:257-262`, with a budget of rounds. -/
def maxOrientLoop (o : SetOrder α) (rules : List Nat) (en : Finset α) : Nat → MG α → Py (MG α)
  | 0, _ => .error .outOfFuel
  | n + 1, G => do
    let (G', m) ← rulesLoop o en rules (G, false)
    if m then maxOrientLoop o rules en n G' else return G'

/-- Number of undirected marks; the budget of the loop. -/
def numUnd (G : MG α) : Nat := ∑ v ∈ G.nodes, (G.und v).card

/-- `partially_dag.py:245-262` (`maximally_orient_pattern`). `rules` lists the rule indices in the iteration order of
`rules_set`. -/
def maximallyOrient (o : SetOrder α) (rules : List Nat) (en : Finset α) (G : MG α) : Py (MG α) :=
  maxOrientLoop o rules en (G.numUnd + 1) G

/-- `partially_dag.py:363-369` (`delete_edges_not_present_in`). -/
def deleteEdgesNotPresentIn (o : SetOrder α) (G src : MG α) (nodes : Finset α) : Py (MG α) :=
  (pairs (o.iter () nodes)).foldlM (fun G ij => do
    if !(← src.isConnected ij.1 ij.2) then return G.pdagDeleteEdge ij.1 ij.2 else return G) G

/-- `partially_dag.py:371-401` (`add_edges_from`). -/
def addEdgesFrom (o : SetOrder α) (G src : MG α) (en ex : Finset α) : Py (MG α) :=
  (o.iter () en).foldlM (fun G v => do
    let G ← G.pdagAddEdges (src.parents v ∩ (ex ∪ en)) v .arrow
    G.pdagAddEdges (src.und v ∩ (ex ∪ en)) v .tail) G

/-! ### convert_to_dag -/

/-- `partially_dag.py:416-424` (in `select_node`): every undirected neighbour of `x` is connected to all other nodes
adjacent to `x`. `false` when the inner loop breaks. -/
def allConnected (G : MG α) (adjacent : Finset α) (o : SetOrder α) : List α → Py Bool
  | [] => .ok true
  | y :: ys => do
    let broken ← forAny (fun a => do return !(← G.isConnected y a)) (o.iter y (adjacent.erase y))
    if broken then return false
    allConnected G adjacent o ys

/-- `partially_dag.py:409-431` (`select_node`): the selected node, `none` if there is none. -/
def selectNode (o : SetOrder α) (G : MG α) : List α → Py (Option α)
  | [] => .ok none
  | x :: xs => do
    if G.isSink x G.nodes then
      if ← allConnected G (G.und x ∪ G.parents x) o (o.iter (x, 1) (G.und x)) then return some x
    selectNode o G xs

/-- `partially_dag.py:448-452`: disconnect the selected node. The loops run over copies and their rounds are
independent. -/
def disconnectSink (o : SetOrder α) (G : MG α) (x : α) : MG α :=
  let G1 := (o.iter (x, 0) (G.und x)).foldl (fun G y => G.deleteUndirectedEdge y x) G
  (o.iter (x, 1) (G1.parents x)).foldl (fun G p => G.deleteDirectedEdge p x) G1

/-- The loop `partially_dag.py:440-455`, with a budget of rounds; returns the DAG as filled and the returned flag. -/
def toDagLoop (o : SetOrder α) : Nat → MG α → Finset α → Dag α → Py (Dag α × Bool)
  | 0, _, _, _ => .error .outOfFuel
  | n + 1, G, aNodes, D =>
    if G.isEmpty then .ok (D, true)
    else do
      match ← selectNode o G (o.iter n aNodes) with
      | none => return (D, false)
      | some x => do
        let D ← D.addEdges (G.und x) x
        toDagLoop o n (disconnectSink o G x) (aNodes.erase x) D

/-- `partially_dag.py:403-455` (`convert_to_dag`): fills the given DAG. -/
def convertToDag (o : SetOrder α) (G : MG α) (D : Dag α) : Py (Dag α × Bool) := do
  let D ← (o.iter () G.nodes).foldlM (fun D v => D.addEdges (G.parents v) v) D
  toDagLoop o (G.nodes.card + 1) G G.nodes D

end MG

/-- `dag.py:185-205` (`convert_to_cpdag`): fills the given PDAG. Iteration order of `{1, 2, 3}`: `rules`. -/
def Dag.convertToCpdag {α : Type} [DecidableEq α] (o : SetOrder α) (rules : List Nat) (D : Dag α) (P : MG α) :
    Py (MG α) := do
  if !(← D.isAcyclic o) then throw .valueError
  let P ← (o.iter 0 D.nodes).foldlM (fun P v => do P.pdagAddEdges (← D.parents v) v .tail) P
  let P ← (o.iter 1 D.nodes).foldlM (fun P v => do
    (pairs (o.iter v (← D.parents v))).foldlM (fun P ij => do
      if !(← D.isConnected ij.1 ij.2) then return (P.orientEdge ij.1 v).orientEdge ij.2 v
      else return P) P) P
  P.maximallyOrient o rules P.nodes

end Verif
