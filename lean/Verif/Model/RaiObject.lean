import Verif.Model.Rai
import Verif.Model.PcObject

/-!
# Model of `causal_discovery_algs/rai.py` with a test object

As `Model/Rai.lean`, but the conditional independence test is an object with a state of its own, and its exceptions are propagated; see
`Model/PcObject.lean`.
-/

namespace Verif
namespace Rai
variable {α σ : Type} [LinearOrder α]

/-- `rai.py:150-164` and `rai.py:184-199`: the test of one pair. -/
def testPairObj (o : SetOrder α) (call : Pc.Call α σ) (src : MG α) (order : Nat) (st : PcState α × σ) (x y a b : α) :
    Py (PcState α × σ) := do
  if !(← src.isConnected x y) then return st
  match ← Pc.firstIndepObj call x y (condSets o src order a b) st.1.calls st.2 with
  | (none, k, s) => return ({ st.1 with calls := k }, s)
  | (some z, k, s) => return (⟨st.1.graph.pdagDeleteEdge x y, st.1.sep.set x y z.toFinset, k⟩, s)

/-- `rai.py:131-164` (`_refine_exogenous_effect`). -/
def refineExogenousObj (o : SetOrder α) (call : Pc.Call α σ) (overwrite : Bool) (en ex : Finset α) (order : Nat) (st : PcState α × σ) :
    Py (PcState α × σ) :=
  let orig := st.1.graph
  (o.iter order en).foldlM (fun (st : PcState α × σ) v => (o.iter (order, v) ex).foldlM (fun (st : PcState α × σ) e =>
    testPairObj o call (if overwrite then st.1.graph else orig) order st e v v e) st) st

/-- `rai.py:166-199` (`_refine_endogenous`). -/
def refineEndogenousObj (o : SetOrder α) (call : Pc.Call α σ) (overwrite : Bool) (en : Finset α) (order : Nat) (st : PcState α × σ) :
    Py (PcState α × σ) :=
  let orig := st.1.graph
  (pairs (o.iter order en)).foldlM (fun (st : PcState α × σ) ij =>
    testPairObj o call (if overwrite then st.1.graph else orig) order st ij.1 ij.2 ij.1 ij.2) st

/-- `rai.py:104-117` (`_refine_and_orient`). -/
def refineAndOrientObj (o : SetOrder α) (call : Pc.Call α σ) (overwrite : Bool) (en ex : Finset α) (order : Nat) (st : PcState α × σ) :
    Py (PcState α × σ) := do
  let r ← refineExogenousObj o call overwrite en ex order st
  let st ← maximallyOrientEdges o en r.1
  let r ← refineEndogenousObj o call overwrite en order (st, r.2)
  let st ← maximallyOrientEdges o en r.1
  return (st, r.2)

/-- `rai.py:73-102` (`_learn_recursively`), with a recursion budget. -/
def learnRecursivelyObj (o : SetOrder α) (call : Pc.Call α σ) (overwrite : Bool) :
    Nat → Finset α → Finset α → Nat → PcState α × σ → Py (PcState α × σ)
  | 0, _, _, _, _ => .error .outOfFuel
  | n + 1, en, ex, order, st =>
    if exitCond st.1.graph en order then .ok st
    else do
      let st ← refineAndOrientObj o call overwrite en ex order st
      let (d, l, a) ← split o st.1.graph en
      let st ← l.foldlM (fun (st : PcState α × σ) s => learnRecursivelyObj o call overwrite n s ex (order + 1) st) st
      learnRecursivelyObj o call overwrite n d (a ∪ ex) (order + 1) st

/-- `rai.py:26-38` (`learn_structure`) after construction with the test object in state `s`. -/
def learnStructureObj (o : SetOrder α) (call : Pc.Call α σ) (overwrite : Bool) (st : PcState α) (s : σ) : Py (PcState α × σ) := do
  let r ← learnRecursivelyObj o call overwrite (st.graph.nodes.card + 1) st.graph.nodes ∅ 0 (st, s)
  let G ← r.1.graph.maximallyOrient o [1, 2, 3] r.1.graph.nodes
  let G ← reOrientSkeleton o G
  return ({ r.1 with graph := G }, r.2)

end Rai
end Verif
