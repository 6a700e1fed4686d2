import Verif.Model.MixedGraph
import Verif.Model.SepSet

/-!
# Model of `graphical_models/partial_ancestral_graph.py` (`PAG`), queries

As for `MixedGraph`: KeyError for nodes that are not in the graph is not modelled, assertions are.
-/

namespace Verif

/-- `for x in l: r = f(x); if r is not None: return r` followed by `return None`
(e.g. `partial_ancestral_graph.py:335-342`). -/
def forFind {β γ : Type} (f : β → Py (Option γ)) : List β → Py (Option γ)
  | [] => .ok none
  | x :: xs => do
    match ← f x with
    | some r => return some r
    | none => forFind f xs

/-- `{x for x in l if p(x)}` (e.g. `partial_ancestral_graph.py:179`). -/
def setComp {α : Type} [DecidableEq α] (p : α → Py Bool) : List α → Py (Finset α)
  | [] => .ok ∅
  | x :: xs => do
    let b ← p x
    let s ← setComp p xs
    return if b then insert x s else s

namespace MG
variable {α : Type} [DecidableEq α]

/-- `partial_ancestral_graph.py:13-15`: the edge mark types of a PAG, in the order of the list. -/
def pagTypes : List Mark := [.circle, .arrow, .tail]

/-- `partial_ancestral_graph.py:13-17` (`PAG.__init__`): graph without edges. -/
def pagEmpty (nodes : Finset α) : MG α := MG.empty nodes pagTypes

/-! ### adjacency matrices -/

/-- `partial_ancestral_graph.py:57-61`: the mark with a given code (`0` and codes above 3 have none). -/
def markOf : Nat → Option Mark
  | 1 => some .circle
  | 2 => some .arrow
  | 3 => some .tail
  | _ => none

/-- `partial_ancestral_graph.py:83-86`: the code of a mark. -/
def codeOf : Mark → Nat
  | .circle => 1
  | .arrow => 2
  | .tail => 3

/-- `partial_ancestral_graph.py:63-67`: the loops of `init_from_adj_mat` with the node list `l`. -/
def fillFromAdjMat (G : MG α) (n : Nat) (A : Nat → Nat → Nat) (l : List α) : Py (MG α) :=
  (List.range n).foldlM (fun G i => (List.range n).foldlM (fun (G : MG α) j =>
    match markOf (A i j) with
    | none => .ok G
    | some m =>
      match l[j]?, l[i]? with
      | some vj, some vi => .ok (G.upd vj m (insert vi))
      | _, _ => .error .indexError) G) G

/-- `partial_ancestral_graph.py:30-67` (`init_from_adj_mat`) of the `n × n` matrix `A` (non-negative entries); `order` is
the argument `nodes_order`, `sorted` is the sorted list of the nodes. -/
def initFromAdjMat (G : MG α) (n : Nat) (A : Nat → Nat → Nat) (order : Option (List α)) (sorted : List α) : Py (MG α) :=
  if ∀ r ∈ List.range n, ∀ c ∈ List.range n, A r c ≤ 3 then
    match order with
    | some l => if n = l.length then fillFromAdjMat (MG.empty G.nodes G.types) n A l else .error .assertionError
    | none => fillFromAdjMat (MG.empty G.nodes G.types) n A sorted
  else .error .assertionError

/-- `partial_ancestral_graph.py:69-93` (`get_adj_mat`); `l` is the sorted node list. -/
def pagAdjMat (o : SetOrder α) (G : MG α) (l : List α) : Py (Nat → Nat → Nat) :=
  (o.iter 0 G.nodes).foldlM (fun A v =>
    G.types.foldlM (fun A m =>
      (o.iter (v, m) (G.g v m)).foldlM (fun A p => do
        let r ← Dag.indexOf l p
        let c ← Dag.indexOf l v
        return fun r' c' => if r' = r ∧ c' = c then codeOf m else A r' c') A) A) (fun _ _ => 0)

/-! ### local queries -/

/-- `partial_ancestral_graph.py:95-101` (`fan_in`). -/
def pagFanIn (G : MG α) (v : α) : Nat := (G.g v .arrow).card + (G.g v .circle).card

/-- `partial_ancestral_graph.py:103-115` (`is_collider`). -/
def isCollider (G : MG α) (mid x y : α) : Bool := decide (x ∈ G.g mid .arrow ∧ y ∈ G.g mid .arrow)

/-- `partial_ancestral_graph.py:117-133` (`is_possible_collider`). -/
def isPossibleCollider (G : MG α) (x mid y : α) : Py Bool := do
  if x = y then return false
  if !(← G.isConnected x mid) then return false
  if !(← G.isConnected mid y) then return false
  if ← G.isConnected x y then return true
  return G.isCollider mid x y

/-- `partial_ancestral_graph.py:135-155` (`is_possible_parent`). -/
def isPossibleParent (G : MG α) (p c : α) : Py Bool := do
  if p = c then return false
  if !(← G.isConnected p c) then return false
  if p ∈ G.g c .tail ∨ c ∈ G.g p .arrow then return false
  else return true

/-- `partial_ancestral_graph.py:165-173` (`find_possible_children`). -/
def findPossibleChildren (o : SetOrder α) (G : MG α) (p : α) (en : Finset α) : Py (Finset α) :=
  setComp (fun v => G.isPossibleParent p v) (o.iter (p, 0) en)

/-- `partial_ancestral_graph.py:175-180` (`find_possible_parents`). -/
def findPossibleParents (o : SetOrder α) (G : MG α) (c : α) (en : Finset α) : Py (Finset α) :=
  setComp (fun v => G.isPossibleParent v c) (o.iter (c, 1) en)

/-- `partial_ancestral_graph.py:182-190` (`is_parent`). -/
def isParent (G : MG α) (p c : α) : Bool := decide (p ∈ G.g c .arrow ∧ c ∈ G.g p .tail)

/-- `partial_ancestral_graph.py:192-203` (`find_parents`). -/
def findParents (G : MG α) (c : α) : Finset α := (G.g c .arrow).filter (fun p => c ∈ G.g p .tail)

/-- `partial_ancestral_graph.py:205-216` (`find_spouses`). -/
def findSpouses (G : MG α) (v : α) : Finset α := G.nodes.filter (fun s => s ∈ G.g v .arrow ∧ v ∈ G.g s .arrow)

/-! ### discriminating paths -/

/-- The first loop of `partial_ancestral_graph.py:362-369` of the recursive search: either a source is found
(`.inl`), or the new "A" nodes are collected (`.inr`). -/
def discRecScan (G : MG α) (a c : α) : List α → Finset α → Py (α ⊕ Finset α)
  | [], acc => .ok (.inr acc)
  | d :: ds, acc => do
    if !(← G.isConnected d c) then return .inl d
    if G.isParent d c ∧ a ∈ G.g d .arrow then discRecScan G a c ds (insert d acc)
    else discRecScan G a c ds acc

/-- `partial_ancestral_graph.py:344-378` (`find_discriminating_path_to_triplet_recursive`), with recursion budget. -/
def discRecFuel (o : SetOrder α) (G : MG α) (b c : α) : Nat → α → Finset α → Py (Option α)
  | 0, _, _ => .error .outOfFuel
  | n + 1, a, pool => do
    match ← discRecScan G a c (o.iter (a, pool) ((G.g a .arrow \ {a, b, c}) ∩ pool)) ∅ with
    | .inl d => return some d
    | .inr new => forFind (fun a' => discRecFuel o G b c n a' (pool.erase a')) (o.iter (a, pool, 1) new)

/-- `partial_ancestral_graph.py:344-378` with the default node set. -/
def findDiscRec (o : SetOrder α) (G : MG α) (a b c : α) : Py (Option α) :=
  discRecFuel o G b c (G.nodes.card + 1) a (G.nodes \ {a, b, c})

/-- The loop over `d_nodes`, `partial_ancestral_graph.py:407-414`: a source, or the extended next frontier. -/
def discScan (G : MG α) (cur c : α) (visited : Finset α) : List α → Finset α → Py (α ⊕ Finset α)
  | [], next => .ok (.inr next)
  | d :: ds, next => do
    if !(← G.isConnected d c) then return .inl d
    if d ∉ visited ∧ G.isParent d c ∧ cur ∈ G.g d .arrow then discScan G cur c visited ds (insert d next)
    else discScan G cur c visited ds next

/-- The loop over the frontier, `partial_ancestral_graph.py:403-414`. -/
def discFrontier (o : SetOrder α) (G : MG α) (b c : α) (pool visited : Finset α) :
    List α → Finset α → Py (α ⊕ Finset α)
  | [], next => .ok (.inr next)
  | cur :: curs, next => do
    match ← discScan G cur c visited (o.iter (cur, visited) ((G.g cur .arrow \ {b, c}) ∩ pool)) next with
    | .inl d => return .inl d
    | .inr next => discFrontier o G b c pool visited curs next

/-- The `while frontier` loop, `partial_ancestral_graph.py:401-418`, with a budget of rounds. -/
def discLoop (o : SetOrder α) (G : MG α) (b c : α) (pool : Finset α) :
    Nat → Finset α → Finset α → Py (Option α)
  | 0, _, _ => .error .outOfFuel
  | n + 1, frontier, visited =>
    if frontier.card = 0 then .ok none
    else do
      match ← discFrontier o G b c pool visited (o.iter n frontier) ∅ with
      | .inl d => return some d
      | .inr next => discLoop o G b c pool n next (visited ∪ next)

/-- `partial_ancestral_graph.py:380-418` (`find_discriminating_path_to_triplet`) with the default node set. -/
def findDisc (o : SetOrder α) (G : MG α) (a b c : α) : Py (Option α) :=
  discLoop o G b c (G.nodes \ {a, b, c}) (G.nodes.card + 2) {a} {a, b, c}

/-! ### visible edges -/

/-- `partial_ancestral_graph.py:248-291` (`_test_edge_visible`). -/
def testEdgeVisible (o : SetOrder α) (G : MG α) (a b : α) : Py Bool := do
  if !G.isParent a b then return false
  let cs ← setComp (fun v => do return !(← G.isConnected b v)) (o.iter (a, b) (G.nodes \ {b}))
  let cs := (cs.erase a).erase b
  if cs.card > 0 ∧ (cs ∩ G.g a .arrow).card > 0 then return true
  let ds := (G.findSpouses a).filter (fun d => G.isParent d b)
  forAny (fun d => do return (← G.findDisc o d a b).isSome) (o.iter (a, b, 1) ds)

/-- `partial_ancestral_graph.py:218-227` (`find_visible_edges`): the set `visible_edges`. -/
def findVisibleEdges (o : SetOrder α) (G : MG α) : Py (Finset (α × α)) :=
  (o.iter () G.nodes).foldlM (fun E c =>
    (o.iter c (G.g c .arrow)).foldlM (fun (E : Finset (α × α)) p => do
      if ← G.testEdgeVisible o p c then return insert (p, c) E else return E) E) ∅

/-! ### uncovered paths -/

/-- `partial_ancestral_graph.py:293-342` (`find_uncovered_path`), with recursion budget. -/
def uncovFuel (o : SetOrder α) (G : MG α) (cond : α → α → Py Bool) :
    Nat → α → α → α → α → Finset α → Py (Option (List α))
  | 0, _, _, _, _, _ => .error .outOfFuel
  | n + 1, x, y, nx, ny, en =>
    if nx = ny then .ok (some [nx])
    else do
      let en := en \ {x, y, nx, ny}
      let triv ← (do
        if !(← cond nx ny) then return false
        if ← G.isConnected nx y then return false
        return !(← G.isConnected x ny) : Py Bool)
      if triv then return some [nx, ny]
      let cs ← setComp (fun v => do
        if !(← cond nx v) then return false
        return !(← G.isConnected x v)) (o.iter (nx, en) (G.findAdjacentNodes nx (some en) none))
      forFind (fun c => do
        match ← uncovFuel o G cond n nx y c ny en with
        | some path => return some (nx :: path)
        | none => return none) (o.iter (nx, en, 1) cs)

/-- `partial_ancestral_graph.py:293-342` (`find_uncovered_path`). -/
def findUncoveredPath (o : SetOrder α) (G : MG α) (x y nx ny : α) (en : Finset α) (cond : α → α → Py Bool) :
    Py (Option (List α)) :=
  uncovFuel o G cond (en.card + 1) x y nx ny en

/-! ### reachability and ancestors -/

/-- The loop `partial_ancestral_graph.py:438-445` and `468-474`; `rec` is the recursive call on (neighbour, nodes). -/
def reachAnyLoop (rec : α → Finset α → Py Bool) : List α → Finset α → Py Bool
  | [], _ => .ok false
  | v :: vs, en => do
    let en := en.erase v
    if ← rec v en then return true
    reachAnyLoop rec vs en

/-- `partial_ancestral_graph.py:420-445` (`is_reachable_any_edgemark`), with recursion budget. The node set handed to
the recursive call is `en_nodes` without the source and the neighbours up to this one. -/
def reachAnyFuel (o : SetOrder α) (G : MG α) (t : α) : Nat → α → Finset α → Py Bool
  | 0, _, _ => .error .outOfFuel
  | n + 1, s, en =>
    let nb := G.findAdjacentNodes s (some en) none
    if t ∈ nb then .ok true
    else reachAnyLoop (reachAnyFuel o G t n) (o.iter (s, en) nb) (en.erase s)

/-- `partial_ancestral_graph.py:420-445` (`is_reachable_any_edgemark`). -/
def isReachableAny (o : SetOrder α) (G : MG α) (s t : α) (en : Finset α) : Py Bool :=
  reachAnyFuel o G t (en.card + 1) s en

/-- `partial_ancestral_graph.py:447-474` (`is_possible_ancestor`), with recursion budget. -/
def possAncFuel (o : SetOrder α) (G : MG α) (t : α) : Nat → α → Finset α → Py Bool
  | 0, _, _ => .error .outOfFuel
  | n + 1, s, en => do
    let ch ← G.findPossibleChildren o s en
    if t ∈ ch then return true
    reachAnyLoop (possAncFuel o G t n) (o.iter (s, en) ch) (en.erase s)

/-- `partial_ancestral_graph.py:447-474` (`is_possible_ancestor`). -/
def isPossibleAncestor (o : SetOrder α) (G : MG α) (a d : α) (en : Finset α) : Py Bool :=
  possAncFuel o G d (en.card + 1) a en

/-- `partial_ancestral_graph.py:476-491` (`is_set_possible_sink`). -/
def isSetPossibleSink (G : MG α) (S ex : Finset α) : Bool :=
  decide (∀ v ∈ S, Disjoint (G.g v .tail) ex ∧ Disjoint (G.g v .circle) ex)

/-- `partial_ancestral_graph.py:493-506` (`which_reachable_any_edgemark`). -/
def whichReachableAny (o : SetOrder α) (G : MG α) (S : Finset α) (t : α) (en : Finset α) : Py (Finset α) :=
  setComp (fun s => G.isReachableAny o s t en) (o.iter () S)

/-- `partial_ancestral_graph.py:508-526` (`find_possible_ancestors`). -/
def findPossibleAncestors (o : SetOrder α) (G : MG α) (ds : Finset α) (en : Finset α) : Py (Finset α) :=
  (o.iter () ds).foldlM (fun anc d =>
    (o.iter (d, anc) (en \ anc)).foldlM (fun (anc : Finset α) v => do
      if ← G.isPossibleAncestor o v d en then return insert v anc else return anc) anc) ds

/-! ### m-separation -/

/-- `partial_ancestral_graph.py:573-586` (`find_definite_c_components`). -/
def dcComponents (o : SetOrder α) (G : MG α) (en : Finset α) : Py (List (Finset α)) :=
  G.findUnconnectedSubgraphs o en (some .arrow)

/-- `partial_ancestral_graph.py:558-565`: a dc-component with the nodes that have an edge into it. -/
def augmentComponent (G : MG α) (anterior comp : Finset α) : Finset α :=
  comp ∪ (anterior \ comp).filter (fun v => ∃ d ∈ comp, v ∈ G.g d .arrow)

/-- `partial_ancestral_graph.py:528-571` (`is_m_separated`). -/
def isMSeparated (o : SetOrder α) (G : MG α) (x y : α) (Z : Finset α) : Py Bool := do
  let ax ← G.findPossibleAncestors o {x} G.nodes
  let ay ← G.findPossibleAncestors o {y} G.nodes
  let anterior ← (o.iter 0 Z).foldlM (fun (A : Finset α) z => do
    return A ∪ (← G.findPossibleAncestors o {z} G.nodes)) (ax ∪ ay)
  let moral ← G.getSkeletonGraph o anterior
  let comps ← G.dcComponents o anterior
  let moral ← (comps.map (G.augmentComponent anterior)).foldlM (fun (M : UGraph α) comp =>
    (pairs (o.iter () comp)).foldlM (fun M ij => M.addEdge ij.1 ij.2) M) moral
  return !(← moral.isReachable o x y Z)

/-! ### pc-components, buckets -/

/-- `partial_ancestral_graph.py:229-246` (`is_edge_visible`). `vis` is `visible_edges` (`none` if not computed yet). -/
def isEdgeVisible (vis : Option (Finset (α × α))) (p c : α) : Py Bool :=
  match vis with
  | none => .error .assertionError
  | some vis => .ok (decide ((p, c) ∈ vis))

/-- `partial_ancestral_graph.py:588-660` (`find_union_pc_components_for_node`); `dc` is the argument `dc_components`,
`vis` is `visible_edges` (`none` if not computed yet). The loop variable `node_y` of line 639 is still used in line 654: there it
is the last element of the iteration order of `invisible_children`. -/
def unionPcComponents (o : SetOrder α) (G : MG α) (vis : Option (Finset (α × α))) (x : α) (en : Finset α)
    (dc : Option (List (Finset α))) : Py (Finset α) :=
  match vis with
  | none => .error .assertionError
  | some vis => do
    let invisNb := (G.findAdjacentNodes x (some en) none).filter (fun v => (x, v) ∉ vis ∧ (v, x) ∉ vis)
    let invisCh := invisNb.filter (fun y => x ∈ G.g y .arrow)
    let comps ← (match dc with
      | some l => .ok l
      | none => G.dcComponents o en : Py (List (Finset α)))
    let ys := o.iter x invisCh
    let validDc := ys.foldl (fun acc y => acc ∪ ((comps.find? (fun S => y ∈ S)).getD ∅)) ∅
    let pc := invisCh ∪ validDc
    let remaining := en \ pc
    let invisPar ← (o.iter (x, 1) (validDc.erase x)).foldlM (fun (acc : Finset α) z =>
      match ys.getLast? with
      | none => (.error .attributeError : Py (Finset α))
      | some y => .ok (acc ∪ remaining.filter (fun w => w ∈ G.g z .arrow ∧ (w, y) ∉ vis))) ∅
    return insert x (pc ∪ invisPar ∪ invisNb)

/-- `partial_ancestral_graph.py:662-682` (`find_union_pc_components_for_set`). -/
def unionPcSet (o : SetOrder α) (G : MG α) (vis : Option (Finset (α × α))) (X en : Finset α) : Py (Finset α) := do
  let comps ← G.dcComponents o en
  (o.iter 0 X).foldlM (fun (acc : Finset α) x => do
    let s ← G.unionPcComponents o vis x en (some comps)
    return acc ∪ s) ∅

/-- `partial_ancestral_graph.py:702-711` (`find_buckets_list`). -/
def findBuckets (o : SetOrder α) (G : MG α) (en : Finset α) : Py (List (Finset α)) :=
  G.findUnconnectedSubgraphs o en (some .circle)

/-- `partial_ancestral_graph.py:684-700` (`find_region`). -/
def findRegion (o : SetOrder α) (G : MG α) (vis : Option (Finset (α × α))) (X en : Finset α) : Py (Finset α) := do
  let pc ← G.unionPcSet o vis X en
  let buckets ← G.findBuckets o en
  return (o.iter 1 pc).foldl (fun acc v => acc ∪ ((buckets.find? (fun S => v ∈ S)).getD ∅)) ∅

/-- The inner loop of `partial_ancestral_graph.py:728-736`: the first bucket that is a possible sink with respect to the
other remaining nodes, and the list without it. -/
def takeSink (G : MG α) (remaining : Finset α) : List (Finset α) → Option (Finset α × List (Finset α))
  | [] => none
  | b :: bs =>
    if G.isSetPossibleSink b (remaining \ b) then some (b, bs)
    else (takeSink G remaining bs).map (fun r => (r.1, b :: r.2))

/-- The outer loop `partial_ancestral_graph.py:727-738`, with a budget of rounds. `ordered` is in the order of
appending. -/
def bucketsLoop (G : MG α) : Nat → List (Finset α) → List (Finset α) → Finset α → Py (List (Finset α))
  | 0, _, _, _ => .error .outOfFuel
  | n + 1, buckets, ordered, remaining =>
    if buckets.length > 0 then
      match takeSink G remaining buckets with
      | some (b, rest) => bucketsLoop G n rest (ordered ++ [b]) (remaining \ b)
      | none =>
        if ordered.length = 0 then .error .assertionError
        else bucketsLoop G n buckets ordered remaining
    else .ok ordered.reverse

/-- `partial_ancestral_graph.py:713-741` (`get_ordered_buckets`), with a budget of rounds of the outer loop. -/
def orderedBuckets (o : SetOrder α) (G : MG α) (en : Finset α) (fuel : Nat) : Py (List (Finset α)) := do
  let buckets ← G.findBuckets o en
  bucketsLoop G fuel buckets [] (buckets.foldl (fun acc b => acc ∪ b) ∅)

end MG
end Verif
