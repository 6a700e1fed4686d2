import Verif.Model.Fci
import Verif.Model.PcObject

/-!
# Model of `causal_discovery_algs/fci.py` with a test object

As `Model/Fci.lean`, but the conditional independence test is an object with a state of its own, and its exceptions are propagated; see
`Model/PcObject.lean`. The same object is used for the PC stage (`fci.py:51`) and for the refinement stage (`fci.py:93`).
-/

namespace Verif
namespace Fci
variable {α σ : Type} [LinearOrder α]

/-- `fci.py:82-98` (`_test_ci_increasing`). -/
def testCiIncreasingObj (o : SetOrder α) (call : Pc.Call α σ) (st : PcState α) (s : σ) (x y : α) (pds : Finset α) :
    Py ((PcState α × Bool) × σ) := do
  match ← Pc.firstIndepObj call x y (condSets o x y pds) st.calls s with
  | (none, k, s) => return (({ st with calls := k }, false), s)
  | (some z, k, s) => return ((⟨st.graph.deleteEdge x y, st.sep.set x y z.toFinset, k⟩, true), s)

/-- `fci.py:73-78`: the body of the loop over the adjacent nodes. -/
def refinePairObj (o : SetOrder α) (call : Pc.Call α σ) (x : α) (pds : Finset α) (acc : (PcState α × Bool) × σ) (y : α) :
    Py ((PcState α × Bool) × σ) := do
  let r ← testCiIncreasingObj o call acc.1.1 acc.2 x y (pds \ {y})
  return ((r.1.1, acc.1.2 || r.1.2), r.2)

/-- `fci.py:59-80` (`_refine_pc_skeleton`). -/
def refineObj (o : SetOrder α) (call : Pc.Call α σ) (st : PcState α) (s : σ) : Py ((PcState α × Bool) × σ) := do
  let pdsList ← (o.iter 0 st.graph.nodes).foldlM (fun (d : Dict α (Finset α)) x => do
    let S ← st.graph.createPdsSet o x
    return Dict.set d x S) []
  (o.iter 1 st.graph.nodes).foldlM (fun (acc : (PcState α × Bool) × σ) x => do
    let pds ← Dict.get pdsList x
    (o.iter (x, 2) (acc.1.1.graph.findAdjacentNodes x none none)).foldlM (refinePairObj o call x pds) acc) ((st, false), s)

/-- `fci.py:47-57` (`_learn_pc_skeleton`), after the construction `fci.py:8-19`. -/
def pcSkeletonObj (o : SetOrder α) (call : Pc.Call α σ) (nodes : Finset α) (s : σ) : Py (PcState α × σ) := do
  let pc ← Pc.skeletonLoopObj o call true (Pc.init o nodes).graph (nodes.card + 2) 0 (Pc.init o nodes, s)
  let sep ← (SepSet.init o nodes).copyFrom o pc.1.sep nodes
  let G ← (MG.pagEmpty nodes).copySkeleton o pc.1.graph nodes
  return (⟨G, sep, pc.1.calls⟩, pc.2)

/-- `fci.py:21-45` (`learn_structure`) of a new learner with the test object in state `s`; second result: `found_D_Sep_link`. -/
def learnStructureObj (o : SetOrder α) (call : Pc.Call α σ) (selection tails : Bool) (nodes : Finset α) (s : σ) :
    Py ((PcState α × Bool) × σ) := do
  let st ← pcSkeletonObj o call nodes s
  let G ← st.1.graph.pagVStructures o (some st.1.sep)
  let r ← refineObj o call { st.1 with graph := G } st.2
  let G ← reorient o r.1.1.sep r.1.1.graph
  let G ← finalRules o r.1.1.sep selection tails G
  return (({ r.1.1 with graph := G }, r.1.2), r.2)

end Fci
end Verif
