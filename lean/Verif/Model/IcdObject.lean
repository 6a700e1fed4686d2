import Verif.Model.Icd
import Verif.Model.PcObject

/-!
# Model of `causal_discovery_algs/icd.py` with a test object

As `Model/Icd.lean`, but the conditional independence test is an object with a state of its own, and its exceptions are propagated; see
`Model/PcObject.lean`.
-/

namespace Verif
namespace Icd
variable {α σ : Type} [LinearOrder α]
open SepSet (hkey)

/-- `icd.py:106-113`, `icd.py:141-143`, `icd.py:174-179`: the loop over conditioning sets. -/
def testPairObj (call : Pc.Call α σ) (st : IcdState α) (s : σ) (i j : α) (zs : List (List α)) : Py (IcdState α × σ) := do
  match ← Pc.firstIndepObj call i j zs st.calls s with
  | (none, k, s) => return ({ st with calls := k }, s)
  | (some z, k, s) => return ({ st with graph := st.graph.deleteEdge i j, sep := st.sep.set i j z.toFinset, calls := k }, s)

/-- `icd.py:129-146` (`_learn_struct_base_step_0`). -/
def baseStep0Obj (o : SetOrder α) (call : Pc.Call α σ) (st : IcdState α) (s : σ) : Py (IcdState α × σ) := do
  let r ← (pairs (o.iter st.size st.graph.nodes)).foldlM
    (fun (acc : IcdState α × σ) ij => testPairObj call acc.1 acc.2 ij.1 ij.2 [[]]) (st, s)
  let G ← r.1.graph.pagVStructures o (some r.1.sep)
  let G ← MG.pagMaxOrient o r.1.sep [1, 2, 3, 4] G
  return ({ r.1 with graph := G }, r.2)

/-- `icd.py:162-179`: the body of the loop over pairs. -/
def pairStep1Obj (o : SetOrder α) (call : Pc.Call α σ) (acc : (IcdState α × Bool) × σ) (ij : α × α) : Py ((IcdState α × Bool) × σ) := do
  if !(← acc.1.1.graph.isConnected ij.1 ij.2) then return acc
  let zs := condSets1 o acc.1.1.graph ij.1 ij.2
  let r ← testPairObj call acc.1.1 acc.2 ij.1 ij.2 zs
  return ((r.1, acc.1.2 && zs.isEmpty), r.2)

/-- `icd.py:148-189` (`_learn_struct_base_step_1`). -/
def baseStep1Obj (o : SetOrder α) (call : Pc.Call α σ) (opts : IcdOpts) (st : IcdState α) (s : σ) : Py ((IcdState α × Bool) × σ) := do
  let r ← (pairs (o.iter st.size st.graph.nodes)).foldlM (pairStep1Obj o call) ((st, true), s)
  let G ← Fci.reorient o r.1.1.sep r.1.1.graph
  let G ← Fci.finalRules o r.1.1.sep opts.selection opts.tails G
  return (({ r.1.1 with graph := G }, r.1.2), r.2)

/-- `icd.py:98-113`: the body of the loop over pairs. -/
def pairStepObj (o : SetOrder α) (call : Pc.Call α σ) (opts : IcdOpts) (acc : (IcdState α × Bool) × σ) (ij : α × α) :
    Py ((IcdState α × Bool) × σ) := do
  if !(← acc.1.1.graph.isConnected ij.1 ij.2) then return acc
  let conds ← (if opts.preCalc then Dict.get acc.1.1.cond (hkey ij.1 ij.2) else rangeSets o acc.1.1.graph ij.1 ij.2 acc.1.1.size)
  let r ← testPairObj call acc.1.1 acc.2 ij.1 ij.2 (conds.map (fun c => o.iter (ij.1, ij.2) c.1))
  return ((r.1, acc.1.2 && conds.isEmpty), r.2)

/-- `icd.py:85-127` (`_learn_struct_incremental_step`). -/
def incrementalStepObj (o : SetOrder α) (call : Pc.Call α σ) (opts : IcdOpts) (st : IcdState α) (s : σ) : Py ((IcdState α × Bool) × σ) := do
  let r ← (pairs (o.iter st.size st.graph.nodes)).foldlM (pairStepObj o call opts) ((st, true), s)
  let G ← (if r.1.2 then Fci.finalRules o r.1.1.sep opts.selection opts.tails r.1.1.graph else Fci.reorient o r.1.1.sep r.1.1.graph)
  return (({ r.1.1 with graph := G }, r.1.2), r.2)

/-- `icd.py:61-70`: the branches of one iteration. -/
def stepObj (o : SetOrder α) (call : Pc.Call α σ) (opts : IcdOpts) (st : IcdState α) (s : σ) : Py ((IcdState α × Bool) × σ) :=
  if st.size = 0 then do
    let r ← baseStep0Obj o call st s
    return ((r.1, st.done), r.2)
  else if st.size = 1 then baseStep1Obj o call opts st s
  else do
    let st ← (if opts.preCalc then preCalc o st else pure st)
    incrementalStepObj o call opts st s

/-- `icd.py:47-77` (`learn_structure_iteration`); the results of the call are `done` and the r-value. -/
def iterationObj (o : SetOrder α) (call : Pc.Call α σ) (opts : IcdOpts) (st : IcdState α) (s : σ) :
    Py ((IcdState α × Bool × Nat) × σ) :=
  if st.done then .error .runtimeError
  else do
    let r ← stepObj o call opts st s
    return (({ r.1.1 with done := r.1.2, size := r.1.1.size + 1 }, r.1.2, r.1.1.size), r.2)

/-- `icd.py:42-45`: the loop of `learn_structure`, with a budget of iterations. -/
def loopObj (o : SetOrder α) (call : Pc.Call α σ) (opts : IcdOpts) : Nat → IcdState α → σ → Py (IcdState α × σ)
  | 0, _, _ => .error .outOfFuel
  | n + 1, st, s => do
    let r ← iterationObj o call opts st s
    if r.1.2.1 then return (r.1.1, r.2) else loopObj o call opts n r.1.1 r.2

/-- `icd.py:31-45` (`learn_structure`) with the test object in state `s`. -/
def learnStructureObj (o : SetOrder α) (call : Pc.Call α σ) (opts : IcdOpts) (st : IcdState α) (s : σ) : Py (IcdState α × σ) :=
  loopObj o call opts (max 2 st.graph.nodes.card) { st with done := false, size := 0 } s

end Icd
end Verif
