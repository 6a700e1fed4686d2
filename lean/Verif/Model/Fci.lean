import Verif.Model.Pc
import Verif.Model.PdsTree

/-!
# Model of `causal_discovery_algs/fci.py` (`LearnStructFCI`)

The state is the one of the PC model (graph, separation sets, number of CI tests done); the separation sets of the graph
are the ones of the learner (`fci.py:57`, `constraint_based.py:14`). The type assertions of the constructor are not
modelled.
-/

namespace Verif
namespace Fci
variable {α : Type} [LinearOrder α]

/-- `fci.py:91-92`: the conditioning tuples, in the order they are tried. -/
def condSets (o : SetOrder α) (x y : α) (pds : Finset α) : List (List α) :=
  (List.range (pds.card + 1)).flatMap (fun size => combs size (o.iter (x, y, size) pds))

/-- `fci.py:82-98` (`_test_ci_increasing`). -/
def testCiIncreasing (o : SetOrder α) (ci : CITest α) (st : PcState α) (x y : α) (pds : Finset α) : PcState α × Bool :=
  match Pc.firstIndep ci x y (condSets o x y pds) st.calls with
  | (none, k) => ({ st with calls := k }, false)
  | (some z, k) => (⟨st.graph.deleteEdge x y, st.sep.set x y z.toFinset, k⟩, true)

/-- `fci.py:59-80` (`_refine_pc_skeleton`); the result of `find_adjacent_nodes` is a new set, so the loop over it is not
affected by the deletions. -/
def refine (o : SetOrder α) (ci : CITest α) (st : PcState α) : Py (PcState α × Bool) := do
  let pdsList ← (o.iter 0 st.graph.nodes).foldlM (fun (d : Dict α (Finset α)) x => do
    let S ← st.graph.createPdsSet o x
    return Dict.set d x S) []
  (o.iter 1 st.graph.nodes).foldlM (fun (acc : PcState α × Bool) x => do
    let pds ← Dict.get pdsList x
    return (o.iter (x, 2) (acc.1.graph.findAdjacentNodes x none none)).foldl (fun (acc : PcState α × Bool) y =>
      let r := testCiIncreasing o ci acc.1 x y (pds \ {y})
      (r.1, acc.2 || r.2)) acc) (st, false)

/-- `fci.py:47-57` (`_learn_pc_skeleton`), after the construction `fci.py:8-19`. -/
def pcSkeleton (o : SetOrder α) (ci : CITest α) (nodes : Finset α) : Py (PcState α) := do
  let pc ← Pc.learnSkeleton o ci true (Pc.init o nodes)
  let sep ← (SepSet.init o nodes).copyFrom o pc.sep nodes
  let G ← (MG.pagEmpty nodes).copySkeleton o pc.graph nodes
  return ⟨G, sep, pc.calls⟩

/-- `fci.py:42-45` (also `icd.py:122-125`, `icd.py:184-187`): the optional orientation rules. -/
def finalRules (o : SetOrder α) (sep : SepSet α) (selection tails : Bool) (G : MG α) : Py (MG α) := do
  let G ← (if selection then MG.pagMaxOrient o sep [5, 6, 7] G else pure G)
  if tails then MG.pagMaxOrient o sep [8, 9, 10] G else pure G

/-- `fci.py:39-41` (also `icd.py:118-120`, `icd.py:181-183`): forget the marks, orient v-structures, rules 1 to 4. -/
def reorient (o : SetOrder α) (sep : SepSet α) (G : MG α) : Py (MG α) := do
  let G ← G.resetOrientations o .circle G.nodes
  let G ← G.pagVStructures o (some sep)
  MG.pagMaxOrient o sep [1, 2, 3, 4] G

/-- `fci.py:21-45` (`learn_structure`) of a new learner; second result: `found_D_Sep_link`. -/
def learnStructure (o : SetOrder α) (ci : CITest α) (selection tails : Bool) (nodes : Finset α) :
    Py (PcState α × Bool) := do
  let st ← pcSkeleton o ci nodes
  let G ← st.graph.pagVStructures o (some st.sep)
  let (st, found) ← refine o ci { st with graph := G }
  let G ← reorient o st.sep st.graph
  let G ← finalRules o st.sep selection tails G
  return ({ st with graph := G }, found)

end Fci
end Verif
