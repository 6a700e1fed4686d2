import Verif.Model.PagRules
import Mathlib.Algebra.Order.Monoid.Unbundled.WithTop

/-!
# Model of `graphical_models/possible_dsep_tree.py` (`PDSTree`) and of the searches for possible-d-sep nodes
(`causal_discovery_algs/icd.py`, `causal_discovery_algs/fci.py`)
-/

namespace Verif

/-- `possible_dsep_tree.py:9-17` (`PDSTree.__init__`): `origin`, `depth_level`, `children`. The dictionary `dict_child` from
the origin of a child to its position is not stored: `add_branch` keeps it in step with the list of children. -/
inductive PdsTree (α : Type) where
  | node (origin : α) (depth : Nat) (children : List (PdsTree α))

namespace PdsTree
variable {α : Type}

/-- `possible_dsep_tree.py:14` (`origin`). -/
def origin : PdsTree α → α
  | node a _ _ => a

/-- `possible_dsep_tree.py:17` (`depth_level`). -/
def depth : PdsTree α → Nat
  | node _ d _ => d

/-- `possible_dsep_tree.py:15` (`children`). -/
def children : PdsTree α → List (PdsTree α)
  | node _ _ cs => cs

variable [DecidableEq α]

/-- `possible_dsep_tree.py:19-24` (`get_child_branch`). -/
def getChildBranch (t : PdsTree α) (v : α) : Py (PdsTree α) :=
  match t.children.find? (fun c => decide (c.origin = v)) with
  | some c => .ok c
  | none => .error .valueError

/-- `possible_dsep_tree.py:26-38` (`add_branch`). -/
def addBranch (t : PdsTree α) (v : α) : Py (PdsTree α) :=
  if t.children.any (fun c => decide (c.origin = v)) then .error .valueError
  else .ok (node t.origin t.depth (t.children ++ [node v (t.depth + 1) []]))

mutual
/-- `possible_dsep_tree.py:40-54` (`get_max_depth`). -/
def maxDepth : PdsTree α → Nat
  | node _ _ cs => if cs.length = 0 then 1 else maxDepthLoop cs 1 + 1

/-- `possible_dsep_tree.py:49-52`: the loop over the children. -/
def maxDepthLoop : List (PdsTree α) → Nat → Nat
  | [], m => m
  | c :: cs, m => maxDepthLoop cs (if c.maxDepth > m then c.maxDepth else m)
end

mutual
/-- `possible_dsep_tree.py:56-65` (`get_minimal_distance`); `math.inf` is `⊤`. -/
def minDist (v : α) : PdsTree α → WithTop Nat
  | node _ _ cs => minDistLoop v cs ⊤

/-- `possible_dsep_tree.py:58-63`: the loop over the children. -/
def minDistLoop (v : α) : List (PdsTree α) → WithTop Nat → WithTop Nat
  | [], m => m
  | c :: cs, m => if c.origin = v then WithTop.some c.depth else minDistLoop v cs (min m (minDist v c))
end

mutual
/-- `possible_dsep_tree.py:67-76` (`is_pds_path`). -/
def isPdsPath : PdsTree α → Finset α → Bool
  | node _ _ cs, S => if S.card = 0 then true else isPdsPathLoop cs S

/-- `possible_dsep_tree.py:70-76`: the loop over the children. -/
def isPdsPathLoop : List (PdsTree α) → Finset α → Bool
  | [], _ => false
  | c :: cs, S =>
    if c.origin ∈ S ∧ isPdsPath c (S \ {c.origin}) = true then true else isPdsPathLoop cs S
end

mutual
/-- `possible_dsep_tree.py:92-103` (`is_reachable`). -/
def isReachable (v : α) (S : List α) : PdsTree α → Bool
  | node _ _ cs => if S.length = 0 then false else isReachableLoop v S cs

/-- `possible_dsep_tree.py:95-103`: the loop over the children. -/
def isReachableLoop (v : α) (S : List α) : List (PdsTree α) → Bool
  | [] => false
  | c :: cs =>
    if c.origin = v then true
    else if c.origin ∈ S ∧ isReachable v S c = true then true
    else isReachableLoop v S cs
end

/-- `possible_dsep_tree.py:78-90` (`is_legal_cond_set`); the argument is a tuple. -/
def isLegal (t : PdsTree α) (S : List α) : Bool := S.all (fun v => t.isReachable v S)

/-- `possible_dsep_tree.py:105-120` (`get_subsets_list`). -/
def subsetsList (o : SetOrder α) (t : PdsTree α) (S : Finset α) (size : Nat) : List (Finset α × WithTop Nat) :=
  ((combs size (o.iter (size, 0) S)).filter (fun l => t.isLegal l)).map (fun l =>
    (l.toFinset, l.foldl (fun s v => s + t.minDist v) 0))

/-! A reference to a tree object inside of the tree with root `t` is the list of the origins on the way from the root. -/

/-- The tree object with a given reference (`icd.py:295,311`). -/
def subtreeAt : List α → PdsTree α → Py (PdsTree α)
  | [], t => .ok t
  | p :: ps, t => do
    let c ← t.getChildBranch p
    subtreeAt ps c

/-- Change the child with origin `p` in place. -/
def modifyChild (p : α) (f : PdsTree α → Py (PdsTree α)) : List (PdsTree α) → Py (List (PdsTree α))
  | [] => .error .valueError
  | c :: cs =>
    if c.origin = p then do
      let c ← f c
      return c :: cs
    else do
      let cs ← modifyChild p f cs
      return c :: cs

/-- `add_branch` on the tree object with a given reference (`icd.py:310`). -/
def addBranchAt (v : α) : List α → PdsTree α → Py (PdsTree α)
  | [], t => t.addBranch v
  | p :: ps, node a d cs => do
    let cs ← modifyChild p (addBranchAt v ps) cs
    return node a d cs

end PdsTree

namespace UGraph
variable {α : Type} [DecidableEq α]

/-- `basic_graph.py:48-53` (`get_neighbors`). -/
def getNeighbors (o : SetOrder α) (G : UGraph α) (v : α) : Py (List α) :=
  filterPy (fun w => G.isConnected v w) (o.iter (v, G.adj) (G.nodes \ {v}))

end UGraph

/-- State of the search of `icd.py:290-314`: `adj_graph`, the lists `first_nodes`, `second_nodes` and `second_nodes_trees` (a
single list of triples, they are popped and extended together), `pds_nodes`, and `pds_tree`. The list `first_nodes_trees` is
not read by the code and left out. -/
structure PdsState (α : Type) where
  adj : UGraph α
  queue : List (α × α × List α)
  pds : List α
  tree : PdsTree α

/-- State of the search of `fci.py:129-140`, without a tree. -/
structure PdsSetState (α : Type) where
  adj : UGraph α
  queue : List (α × α)
  pds : List α

namespace MG
variable {α : Type} [DecidableEq α]

/-- `icd.py:303-314`: the body of the loop over `neighbors`. -/
def pdsVisit (G : MG α) (n1 n2 : α) (ref : List α) (st : PdsState α) (n3 : α) : Py (PdsState α) := do
  if ← G.isPossibleCollider n1 n2 n3 then
    let adj ← st.adj.removeEdge n2 n3
    let tree ← PdsTree.addBranchAt n3 ref st.tree
    return ⟨adj, st.queue ++ [(n2, n3, ref ++ [n3])], st.pds ++ [n3], tree⟩
  else return st

/-- `icd.py:290-314`: the `while` loop, with a budget of rounds. -/
def pdsLoop (o : SetOrder α) (G : MG α) (maxDepth : Nat) : Nat → PdsState α → Py (PdsState α)
  | 0, _ => .error .outOfFuel
  | n + 1, st =>
    match st.queue with
    | [] => .ok st
    | (n1, n2, ref) :: q => do
      let t2 ← PdsTree.subtreeAt ref st.tree
      if t2.depth ≥ maxDepth then pdsLoop o G maxDepth n { st with queue := q }
      else
        let nbs ← st.adj.getNeighbors o n2
        let st ← nbs.foldlM (fun st n3 => pdsVisit G n1 n2 ref st n3) { st with queue := q }
        pdsLoop o G maxDepth n st

/-- `icd.py:241-318` (`create_pds_tree`). -/
def createPdsTree (o : SetOrder α) (G : MG α) (root : α) (en : Option (Finset α)) (maxDepth : Option Nat) :
    Py (PdsTree α × Finset α) := do
  match en with
  | some en => if root ∉ en ∨ ¬ en ⊆ G.nodes then throw .assertionError
  | none => pure ()
  let adj ← G.getSkeletonGraph o (en.getD G.nodes)
  let nbs ← adj.getNeighbors o root
  let adj ← nbs.foldlM (fun (A : UGraph α) v => A.removeEdge root v) adj
  let tree ← nbs.foldlM (fun (t : PdsTree α) v => t.addBranch v) (.node root 0 [])
  let st ← pdsLoop o G (maxDepth.getD (adj.nodes.card - 1)) (adj.nodes.card * adj.nodes.card + 1)
    ⟨adj, nbs.map (fun v => (root, v, [v])), nbs, tree⟩
  return (st.tree, st.pds.toFinset.erase root)

/-- `fci.py:136-140`: the body of the loop over `neighbors`. -/
def pdsSetVisit (G : MG α) (n1 n2 : α) (st : PdsSetState α) (n3 : α) : Py (PdsSetState α) := do
  if ← G.isPossibleCollider n1 n2 n3 then
    let adj ← st.adj.removeEdge n2 n3
    return ⟨adj, st.queue ++ [(n2, n3)], st.pds ++ [n3]⟩
  else return st

/-- `fci.py:129-140`: the `while` loop, with a budget of rounds. -/
def pdsSetLoop (o : SetOrder α) (G : MG α) : Nat → PdsSetState α → Py (PdsSetState α)
  | 0, _ => .error .outOfFuel
  | n + 1, st =>
    match st.queue with
    | [] => .ok st
    | (n1, n2) :: q => do
      let nbs ← st.adj.getNeighbors o n2
      let st ← nbs.foldlM (fun st n3 => pdsSetVisit G n1 n2 st n3) { st with queue := q }
      pdsSetLoop o G n st

/-- `fci.py:100-144` (`LearnStructFCI._create_pds_set`). -/
def createPdsSet (o : SetOrder α) (G : MG α) (root : α) : Py (Finset α) := do
  let adj ← G.getSkeletonGraph o G.nodes
  let nbs ← adj.getNeighbors o root
  let adj ← nbs.foldlM (fun (A : UGraph α) v => A.removeEdge root v) adj
  let st ← pdsSetLoop o G (adj.nodes.card * adj.nodes.card + 1) ⟨adj, nbs.map (fun v => (root, v)), nbs⟩
  return st.pds.toFinset.erase root

end MG
end Verif
