import Verif.Model.Dag
import Verif.Model.Pdag
import Verif.Model.SepSet

/-!
# Model of `causal_discovery_algs/pc.py` (`LearnStructPC`)

The conditional independence test is an arbitrary function that also gets the number of the call, so that tests with
internal state are covered. Exceptions of the test are not modelled (they propagate). Nodes are totally ordered
(see `Model/SepSet.lean`).
-/

namespace Verif

/-- A conditional independence test as used by the algorithms (`cond_indep(x, y, zz)`, e.g. `pc.py:59`,
`cond_indep_tests.py:84-100`): number of the call, the two nodes, the conditioning tuple. -/
abbrev CITest (α : Type) := Nat → α → α → List α → Bool

/-- State of the learner: `self.graph`, `self.sepset` (`constraint_based.py:8-14`) and the number of CI tests
done. -/
structure PcState (α : Type) where
  graph : MG α
  sep : SepSet α
  calls : Nat

namespace Pc
variable {α : Type} [LinearOrder α]

/-- `pc.py:7-10` (`LearnStructPC.__init__`), `constraint_based.py:8-14`. -/
def init (o : SetOrder α) (nodes : Finset α) : PcState α :=
  ⟨MG.pdagComplete nodes, SepSet.init o nodes, 0⟩

/-- `pc.py:24-34` (`_exit_cond`). -/
def exitCond (G : MG α) (order : Nat) : Bool := decide (∀ v ∈ G.nodes, ¬ G.fanIn v > order)

/-- `pc.py:50-56`: the conditioning tuples of size `size` for the pair, in the order they are tried. -/
def condSets (o : SetOrder α) (src : MG α) (size : Nat) (i j : α) : List (List α) :=
  uniqueElems (combs size (o.iter (size, i, j) (src.und i \ {j})) ++ combs size (o.iter (size, i, j) (src.und j \ {i}))) []

/-- `pc.py:58-62`: the first tuple for which the test answers "independent"; second result: number of calls. -/
def firstIndep (ci : CITest α) (i j : α) : List (List α) → Nat → Option (List α) × Nat
  | [], k => (none, k)
  | z :: zs, k => if ci k i j z then (some z, k + 1) else firstIndep ci i j zs (k + 1)

/-- `pc.py:46-62`: the body of the loop over pairs. `src` is `source_cpdag`. -/
def testPair (o : SetOrder α) (ci : CITest α) (src : MG α) (size : Nat) (st : PcState α) (ij : α × α) :
    Py (PcState α) := do
  if !(← src.isConnected ij.1 ij.2) then return st
  match firstIndep ci ij.1 ij.2 (condSets o src size ij.1 ij.2) st.calls with
  | (none, k) => return { st with calls := k }
  | (some z, k) =>
    return ⟨st.graph.pdagDeleteEdge ij.1 ij.2, st.sep.set ij.1 ij.2 z.toFinset, k⟩

/-- `pc.py:36-64` (`learn_skeleton`), with a budget of loop rounds. `orig` is the graph at the start of the call:
`source_cpdag` is the live graph if `overwrite_starting_graph`, else a copy of `orig`. -/
def skeletonLoop (o : SetOrder α) (ci : CITest α) (overwrite : Bool) (orig : MG α) :
    Nat → Nat → PcState α → Py (PcState α)
  | 0, _, _ => .error .outOfFuel
  | n + 1, size, st =>
    if exitCond st.graph size then .ok st
    else do
      let st ← (pairs (o.iter size orig.nodes)).foldlM
        (fun st ij => testPair o ci (if overwrite then st.graph else orig) size st ij) st
      skeletonLoop o ci overwrite orig n (size + 1) st

/-- `pc.py:36-64` (`learn_skeleton`). -/
def learnSkeleton (o : SetOrder α) (ci : CITest α) (overwrite : Bool) (st : PcState α) : Py (PcState α) :=
  skeletonLoop o ci overwrite st.graph (st.graph.nodes.card + 2) 0 st

/-- `pc.py:66-82` (`orient_v_structures`). `pre` are the undirected neighbours before any change. -/
def orientVStructures (o : SetOrder α) (sep : SepSet α) (G : MG α) : Py (MG α) :=
  let pre := G.und
  (o.iter () G.nodes).foldlM (fun G z =>
    (pairs (o.iter z (pre z))).foldlM (fun G xy => do
      if ← G.isConnected xy.1 xy.2 then return G
      let S ← sep.get xy.1 xy.2
      if z ∉ S then return (G.orientEdge xy.1 z).orientEdge xy.2 z
      else return G) G) G

/-- `pc.py:12-22` (`learn_structure`). -/
def learnStructure (o : SetOrder α) (ci : CITest α) (overwrite : Bool) (st : PcState α) : Py (PcState α) := do
  let st ← learnSkeleton o ci overwrite st
  let G ← orientVStructures o st.sep st.graph
  let G := G.convertBidirected o G.nodes
  let G ← G.maximallyOrient o [1, 2, 3] G.nodes
  return { st with graph := G }

/-- `cond_indep_tests.py:123-136` (`DSep.cond_indep`) without cache and counter; an exception of `dsep` is taken as
"dependent" here (it does not occur for the arguments that the algorithm uses). -/
def dsepTest (o : SetOrder α) (D : Dag α) : CITest α := fun _ i j l =>
  match D.dsep o i j l.toFinset with
  | .ok b => b
  | .error _ => false

end Pc
end Verif
