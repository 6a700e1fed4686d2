import Verif.Model.Fci
import Mathlib.Data.List.Sort

/-!
# Model of `causal_discovery_algs/icd.py` (`LearnStructICD`)

The type assertions of the constructor are not modelled. `self._state` is part of the state.
-/

namespace Verif

/-- The options of `icd.py:7-8`. -/
structure IcdOpts where
  preCalc : Bool
  selection : Bool
  tails : Bool

/-- State of the learner: graph, separation sets, number of CI tests done, `conditioning_set` (`icd.py:22`; the values are
lists of pairs of a set and its distance, as stored by `icd.py:82-83`), and `_state` (`icd.py:23`). -/
structure IcdState (α : Type) where
  graph : MG α
  sep : SepSet α
  calls : Nat
  cond : Dict (α × α) (List (Finset α × WithTop Nat))
  done : Bool
  size : Nat

namespace Icd
variable {α : Type} [LinearOrder α]
open SepSet (hkey)

/-- `icd.py:7-23` (`__init__`); the empty sets of `icd.py:22` are empty lists here. -/
def init (o : SetOrder α) (nodes : Finset α) : IcdState α :=
  ⟨MG.complete nodes MG.pagTypes .circle, SepSet.init o nodes, 0,
    (pairs (o.iter () nodes)).foldl (fun d ij => Dict.set d (hkey ij.1 ij.2) []) [], false, 0⟩

/-- `icd.py:224-238` (`_is_cond_set_possible_ancestor`). -/
def isPossibleAncestorSet (o : SetOrder α) (G : MG α) (S : Finset α) (i j : α) : Py Bool := do
  let bad ← forAny (fun z => do
    if ← G.isPossibleAncestor o z i G.nodes then return false
    if ← G.isPossibleAncestor o z j G.nodes then return false
    return true) (o.iter (i, j) S)
  return !bad

/-- `icd.py:191-222` (`_get_pdsep_range_sets`); `list.sort` is stable, and so is `insertionSort`. -/
def rangeSets (o : SetOrder α) (G : MG α) (i j : α) (size : Nat) : Py (List (Finset α × WithTop Nat)) := do
  let (ti, si) ← G.createPdsTree o i none (some size)
  let (tj, sj) ← G.createPdsTree o j none (some size)
  let l ← filterPy (fun c => if i ∈ c.1 ∨ j ∈ c.1 then return false else isPossibleAncestorSet o G c.1 i j)
    (ti.subsetsList o si size ++ tj.subsetsList o sj size)
  return l.insertionSort (fun c d => c.2 ≤ d.2)

/-- `icd.py:79-83` (`_pre_calc_conditioning`). -/
def preCalc (o : SetOrder α) (st : IcdState α) : Py (IcdState α) := do
  let cond ← (pairs (o.iter (st.size, 0) st.graph.nodes)).foldlM
    (fun (d : Dict (α × α) (List (Finset α × WithTop Nat))) ij => do
      if ← st.graph.isConnected ij.1 ij.2 then
        let l ← rangeSets o st.graph ij.1 ij.2 st.size
        return Dict.set d (hkey ij.1 ij.2) l
      else return d) st.cond
  return { st with cond := cond }

/-- The loop over conditioning sets `icd.py:106-113`, also `icd.py:141-143` and `icd.py:174-179`: tests the tuples in turn; on independence the
edge is deleted and the set is stored. -/
def testPair (ci : CITest α) (st : IcdState α) (i j : α) (zs : List (List α)) : IcdState α :=
  match Pc.firstIndep ci i j zs st.calls with
  | (none, k) => { st with calls := k }
  | (some z, k) => { st with graph := st.graph.deleteEdge i j, sep := st.sep.set i j z.toFinset, calls := k }

/-- `icd.py:129-146` (`_learn_struct_base_step_0`). -/
def baseStep0 (o : SetOrder α) (ci : CITest α) (st : IcdState α) : Py (IcdState α) := do
  let st := (pairs (o.iter st.size st.graph.nodes)).foldl (fun st ij => testPair ci st ij.1 ij.2 [[]]) st
  let G ← st.graph.pagVStructures o (some st.sep)
  let G ← MG.pagMaxOrient o st.sep [1, 2, 3, 4] G
  return { st with graph := G }

/-- `icd.py:165-172`: the conditioning tuples with one node. -/
def condSets1 (o : SetOrder α) (G : MG α) (i j : α) : List (List α) :=
  uniqueElems (combs 1 (o.iter (i, j, 0) (G.findAdjacentNodes i none none \ {j})) ++
    combs 1 (o.iter (i, j, 1) (G.findAdjacentNodes j none none \ {i}))) []

/-- `icd.py:148-189` (`_learn_struct_base_step_1`); second result: `done`. -/
def baseStep1 (o : SetOrder α) (ci : CITest α) (opts : IcdOpts) (st : IcdState α) : Py (IcdState α × Bool) := do
  let (st, done) ← (pairs (o.iter st.size st.graph.nodes)).foldlM (fun (acc : IcdState α × Bool) ij => do
    if !(← acc.1.graph.isConnected ij.1 ij.2) then return acc
    let zs := condSets1 o acc.1.graph ij.1 ij.2
    return (testPair ci acc.1 ij.1 ij.2 zs, acc.2 && zs.isEmpty)) (st, true)
  let G ← Fci.reorient o st.sep st.graph
  let G ← Fci.finalRules o st.sep opts.selection opts.tails G
  return ({ st with graph := G }, done)

/-- `icd.py:85-127` (`_learn_struct_incremental_step`); second result: `done`. -/
def incrementalStep (o : SetOrder α) (ci : CITest α) (opts : IcdOpts) (st : IcdState α) : Py (IcdState α × Bool) := do
  let (st, done) ← (pairs (o.iter st.size st.graph.nodes)).foldlM (fun (acc : IcdState α × Bool) ij => do
    if !(← acc.1.graph.isConnected ij.1 ij.2) then return acc
    let conds ← (if opts.preCalc then Dict.get acc.1.cond (hkey ij.1 ij.2)
      else rangeSets o acc.1.graph ij.1 ij.2 acc.1.size)
    return (testPair ci acc.1 ij.1 ij.2 (conds.map (fun c => o.iter (ij.1, ij.2) c.1)), acc.2 && conds.isEmpty)) (st, true)
  let G ← (if done then Fci.finalRules o st.sep opts.selection opts.tails st.graph else Fci.reorient o st.sep st.graph)
  return ({ st with graph := G }, done)

/-- `icd.py:61-70`: the branches of one iteration; second result: the new value of `done`. -/
def step (o : SetOrder α) (ci : CITest α) (opts : IcdOpts) (st : IcdState α) : Py (IcdState α × Bool) :=
  if st.size = 0 then do
    let st' ← baseStep0 o ci st
    return (st', st.done)
  else if st.size = 1 then baseStep1 o ci opts st
  else do
    let st ← (if opts.preCalc then preCalc o st else pure st)
    incrementalStep o ci opts st

/-- `icd.py:47-77` (`learn_structure_iteration`); the results of the call are `done` and the r-value. -/
def iteration (o : SetOrder α) (ci : CITest α) (opts : IcdOpts) (st : IcdState α) : Py (IcdState α × Bool × Nat) :=
  if st.done then .error .runtimeError
  else do
    let (st, done) ← step o ci opts st
    return ({ st with done := done, size := st.size + 1 }, done, st.size)

/-- `icd.py:42-45`: the loop of `learn_structure`, with a budget of iterations. -/
def loop (o : SetOrder α) (ci : CITest α) (opts : IcdOpts) : Nat → IcdState α → Py (IcdState α)
  | 0, _ => .error .outOfFuel
  | n + 1, st => do
    let (st, done, _) ← iteration o ci opts st
    if done then return st else loop o ci opts n st

/-- `icd.py:31-45` (`learn_structure`). -/
def learnStructure (o : SetOrder α) (ci : CITest α) (opts : IcdOpts) (st : IcdState α) : Py (IcdState α) :=
  loop o ci opts (max 2 st.graph.nodes.card) { st with done := false, size := 0 }

end Icd
end Verif
