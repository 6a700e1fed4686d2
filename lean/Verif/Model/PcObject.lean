import Verif.Model.Pc

/-!
# Model of `causal_discovery_algs/pc.py` with a test object

As `Model/Pc.lean`, but the conditional independence test is an object with a state of its own, and its exceptions are propagated:
`call s x y zz` is the result of `cond_indep(x, y, zz)` in state `s` together with the new state. A run that is ended by an exception
returns the exception only.
-/

namespace Verif
namespace Pc
variable {α σ : Type} [LinearOrder α]

/-- A method `cond_indep` (`pc.py:59`, `cond_indep_tests.py:123`, `182`, `257`, `361`). -/
abbrev Call (α σ : Type) := σ → α → α → List α → Py Bool × σ

/-- `pc.py:58-62`: the first tuple for which the test answers "independent"; number of calls; state of the test. -/
def firstIndepObj (call : Call α σ) (i j : α) : List (List α) → Nat → σ → Py (Option (List α) × Nat × σ)
  | [], k, s => .ok (none, k, s)
  | z :: zs, k, s =>
    match call s i j z with
    | (.error e, _) => .error e
    | (.ok true, s) => .ok (some z, k + 1, s)
    | (.ok false, s) => firstIndepObj call i j zs (k + 1) s

/-- `pc.py:46-62`: the body of the loop over pairs. -/
def testPairObj (o : SetOrder α) (call : Call α σ) (src : MG α) (size : Nat) (st : PcState α × σ) (ij : α × α) : Py (PcState α × σ) := do
  if !(← src.isConnected ij.1 ij.2) then return st
  match ← firstIndepObj call ij.1 ij.2 (condSets o src size ij.1 ij.2) st.1.calls st.2 with
  | (none, k, s) => return ({ st.1 with calls := k }, s)
  | (some z, k, s) => return (⟨st.1.graph.pdagDeleteEdge ij.1 ij.2, st.1.sep.set ij.1 ij.2 z.toFinset, k⟩, s)

/-- `pc.py:36-64` (`learn_skeleton`), with a budget of loop rounds. -/
def skeletonLoopObj (o : SetOrder α) (call : Call α σ) (overwrite : Bool) (orig : MG α) : Nat → Nat → PcState α × σ → Py (PcState α × σ)
  | 0, _, _ => .error .outOfFuel
  | n + 1, size, st =>
    if exitCond st.1.graph size then .ok st
    else do
      let st ← (pairs (o.iter size orig.nodes)).foldlM
        (fun st ij => testPairObj o call (if overwrite then st.1.graph else orig) size st ij) st
      skeletonLoopObj o call overwrite orig n (size + 1) st

/-- `pc.py:12-22` (`learn_structure`) after construction with the test object in state `s`. -/
def learnStructureObj (o : SetOrder α) (call : Call α σ) (overwrite : Bool) (st : PcState α) (s : σ) : Py (PcState α × σ) := do
  let r ← skeletonLoopObj o call overwrite st.graph (st.graph.nodes.card + 2) 0 (st, s)
  let G ← orientVStructures o r.1.sep r.1.graph
  let G := G.convertBidirected o G.nodes
  let G ← G.maximallyOrient o [1, 2, 3] G.nodes
  return ({ r.1 with graph := G }, r.2)

end Pc
end Verif
