import Verif.Model.Pc

/-!
# Model of `causal_discovery_algs/rai.py` (`LearnStructRAI`)

The state is that of the PC learner (`self.graph`, `self.sepset`, number of CI tests). The optional argument
`cond_indep` of the refinement methods is always the test of the object (`rai.py:92,140-141,175-176`). The dead branch
`rai.py:213-228` is not modelled.
-/

namespace Verif
namespace Rai
variable {α : Type} [LinearOrder α]

/-- `rai.py:21-24` (`LearnStructRAI.__init__`), `constraint_based.py:8-14`. -/
def init (o : SetOrder α) (nodes : Finset α) : PcState α :=
  ⟨MG.pdagComplete nodes, SepSet.init o nodes, 0⟩

/-- `rai.py:60-71` (`_exit_cond`). -/
def exitCond (G : MG α) (en : Finset α) (order : Nat) : Bool := decide (∀ v ∈ en, ¬ G.fanIn v > order)

/-- `rai.py:153,154,187,188`: the potential parents of a node without the other end of the tested edge. -/
def potParents (G : MG α) (v w : α) : Finset α := (G.parents v ∪ G.und v) \ {w}

/-- `rai.py:155-159,189-193`: the conditioning tuples, those from the potential parents of `a` first. -/
def condSets (o : SetOrder α) (src : MG α) (order : Nat) (a b : α) : List (List α) :=
  uniqueElems (combs order (o.iter (order, a, b) (potParents src a b)) ++
    combs order (o.iter (order, a, b) (potParents src b a))) []

/-- `rai.py:150-164` and `rai.py:184-199`: the test of one pair. The test is called with `x`, `y`; conditioning sets
from the potential parents of `a` come first. -/
def testPair (o : SetOrder α) (ci : CITest α) (src : MG α) (order : Nat) (st : PcState α) (x y a b : α) :
    Py (PcState α) := do
  if !(← src.isConnected x y) then return st
  match Pc.firstIndep ci x y (condSets o src order a b) st.calls with
  | (none, k) => return { st with calls := k }
  | (some z, k) =>
    return ⟨st.graph.pdagDeleteEdge x y, st.sep.set x y z.toFinset, k⟩

/-- `rai.py:131-164` (`_refine_exogenous_effect`). `source_cpdag` is the live graph if `overwrite_starting_graph`, else
a copy of the graph at the start of the call. -/
def refineExogenous (o : SetOrder α) (ci : CITest α) (overwrite : Bool) (en ex : Finset α) (order : Nat)
    (st : PcState α) : Py (PcState α) :=
  let orig := st.graph
  (o.iter order en).foldlM (fun st v => (o.iter (order, v) ex).foldlM (fun st e =>
    testPair o ci (if overwrite then st.graph else orig) order st e v v e) st) st

/-- `rai.py:166-199` (`_refine_endogenous`). -/
def refineEndogenous (o : SetOrder α) (ci : CITest α) (overwrite : Bool) (en : Finset α) (order : Nat)
    (st : PcState α) : Py (PcState α) :=
  let orig := st.graph
  (pairs (o.iter order en)).foldlM (fun st ij =>
    testPair o ci (if overwrite then st.graph else orig) order st ij.1 ij.2 ij.1 ij.2) st

/-- `rai.py:260-275`, first loop of `orient_v_structures`. `pre` are the undirected neighbours before the loop. -/
def orientNew (o : SetOrder α) (sep : SepSet α) (en : Finset α) (G : MG α) : Py (MG α) :=
  let pre := G.und
  (o.iter 0 en).foldlM (fun G z =>
    (pairs (o.iter z (pre z))).foldlM (fun G xy => do
      if ← G.isConnected xy.1 xy.2 then return G
      let S ← sep.get xy.1 xy.2
      if z ∉ S then return (G.orientEdge xy.1 z).orientEdge xy.2 z
      else return G) G) G

/-- `rai.py:277-290`, second loop of `orient_v_structures`: `X --- Z <-- Y`. `pre` and `preP` are the undirected
neighbours and the parents before the loop. -/
def orientWithParent (o : SetOrder α) (sep : SepSet α) (en : Finset α) (G : MG α) : Py (MG α) :=
  let pre := G.und
  let preP := G.parents
  (o.iter 1 en).foldlM (fun G z =>
    (o.iter (z, 0) (pre z)).foldlM (fun G x =>
      (o.iter (z, 1) (preP z)).foldlM (fun G y => do
        if ← G.isConnected x y then return G
        let S ← sep.get x y
        if z ∉ S then return G.orientEdge x z
        else return G) G) G) G

/-- `rai.py:252-290` (`orient_v_structures`). -/
def orientVStructures (o : SetOrder α) (sep : SepSet α) (en : Finset α) (G : MG α) : Py (MG α) := do
  let G ← orientNew o sep en G
  orientWithParent o sep en G

/-- `rai.py:238-250` (`maximally_orient_edges`). -/
def maximallyOrientEdges (o : SetOrder α) (en : Finset α) (st : PcState α) : Py (PcState α) := do
  let G ← orientVStructures o st.sep en st.graph
  let G ← G.maximallyOrient o [1, 2, 3, 4] G.nodes
  return { st with graph := G.convertBidirected o en }

/-- `rai.py:104-117` (`_refine_and_orient`). -/
def refineAndOrient (o : SetOrder α) (ci : CITest α) (overwrite : Bool) (en ex : Finset α) (order : Nat)
    (st : PcState α) : Py (PcState α) := do
  let st ← refineExogenous o ci overwrite en ex order st
  let st ← maximallyOrientEdges o en st
  let st ← refineEndogenous o ci overwrite en order st
  maximallyOrientEdges o en st

/-- `rai.py:230-236` (`_get_lowest_topological_set`): IndexError for the empty list of sets. -/
def lowestTopologicalSet (o : SetOrder α) (G : MG α) (en : Finset α) : Py (Finset α) := do
  let sets ← G.partialTopo o en
  if sets.length > 1 then return en \ sets.getLastD ∅
  else match sets with
    | [] => throw .indexError
    | s :: _ => return s

/-- `rai.py:119-129` (`_split_ancestors_descendant`): descendant set, list of ancestor sets, all ancestors. -/
def split (o : SetOrder α) (G : MG α) (en : Finset α) : Py (Finset α × List (Finset α) × Finset α) := do
  let d ← lowestTopologicalSet o G en
  let a := en \ d
  let l ← G.findUnconnectedSubgraphs o a none
  return (d, l, a)

/-- `rai.py:73-102` (`_learn_recursively`), with a recursion budget. -/
def learnRecursively (o : SetOrder α) (ci : CITest α) (overwrite : Bool) :
    Nat → Finset α → Finset α → Nat → PcState α → Py (PcState α)
  | 0, _, _, _, _ => .error .outOfFuel
  | n + 1, en, ex, order, st =>
    if exitCond st.graph en order then .ok st
    else do
      let st ← refineAndOrient o ci overwrite en ex order st
      let (d, l, a) ← split o st.graph en
      let st ← l.foldlM (fun st s => learnRecursively o ci overwrite n s ex (order + 1) st) st
      learnRecursively o ci overwrite n d (a ∪ ex) (order + 1) st

/-- `rai.py:40-58` (`_re_orient_skeleton`). -/
def reOrientSkeleton (o : SetOrder α) (G : MG α) : Py (MG α) := do
  let P ← (o.iter 0 G.nodes).foldlM (fun P v => P.pdagAddEdges (G.parents v ∪ G.und v) v .tail) (MG.pdagEmpty G.nodes)
  let P ← (o.iter 1 G.nodes).foldlM (fun P v =>
    (pairs (o.iter v (G.parents v))).foldlM (fun P ij => do
      if !(← G.isConnected ij.1 ij.2) then return (P.orientEdge ij.1 v).orientEdge ij.2 v
      else return P) P) P
  P.maximallyOrient o [1, 2, 3] P.nodes

/-- `rai.py:26-38` (`learn_structure`). -/
def learnStructure (o : SetOrder α) (ci : CITest α) (overwrite : Bool) (st : PcState α) : Py (PcState α) := do
  let st ← learnRecursively o ci overwrite (st.graph.nodes.card + 1) st.graph.nodes ∅ 0 st
  let G ← st.graph.maximallyOrient o [1, 2, 3] st.graph.nodes
  let G ← reOrientSkeleton o G
  return { st with graph := G }

end Rai
end Verif
