import Verif.Model.Icd

/-!
# Model of `causal_discovery_algs/ordered_icd.py` (`LearnStructOrderedICD`)

`edge_done` (`ordered_icd.py:25-30`) is modelled by the set of the pairs (base, ancestor) that are marked `True`; there is one
entry for each pair of positions of the order. The type assertions of the constructor are not modelled. The pass over one base
node is written twice in the file (once in `_learn_node_connection`, once in the functions `_learn_r…_connectivity_node`); the
two copies do the same tests in the same order and are one definition here.
-/

namespace Verif

/-- The options of `ordered_icd.py:7-8`. -/
structure OIcdOpts (α : Type) where
  order : List α
  selection : Bool
  tails : Bool
  maxCond : Option Nat

/-- State of the learner: graph, separation sets, number of CI tests done, the pairs marked in `edge_done`. -/
structure OIcdState (α : Type) where
  graph : MG α
  sep : SepSet α
  calls : Nat
  done : Finset (α × α)

namespace OIcd
variable {α : Type} [LinearOrder α]

/-- `ordered_icd.py:7-39` (`__init__`): the checks of the arguments and the first state. -/
def init (o : SetOrder α) (nodes : Finset α) (order : List α) (selection tails : Bool) (maxCond : Option Int) :
    Py (OIcdState α × OIcdOpts α) := do
  if order.length ≠ nodes.card then throw .valueError
  match maxCond with
  | none => pure ()
  | some m => if m < 0 ∨ (nodes.card : Int) - 2 < m then throw .valueError
  return (⟨MG.complete nodes MG.pagTypes .circle, SepSet.init o nodes, 0, ∅⟩,
    ⟨order, selection, tails, maxCond.map Int.toNat⟩)

/-- `self.order[i]`. -/
def nth (l : List α) (i : Nat) : Py α :=
  match l[i]? with
  | some a => .ok a
  | none => .error .indexError

/-- `ordered_icd.py:47-55` (`get_causal_pairs`, with the default start index): pairs (ancestor, base). -/
def causalPairs (order : List α) : List (α × α) :=
  (List.range order.length).flatMap (fun i => match order[i]? with
    | some b => (order.take i).map (fun a => (a, b))
    | none => [])

/-- `ordered_icd.py:57-66` (`reset_graph_orientations`). -/
def reset (order : List α) (G : MG α) : Py (MG α) :=
  (causalPairs order).foldlM (fun (G : MG α) ab => do
    if ← G.isConnected ab.1 ab.2 then
      let G ← G.replaceEdgeMark ab.1 ab.2 .arrow
      G.replaceEdgeMark ab.2 ab.1 .circle
    else return G) G

/-- `ordered_icd.py:165-176` (`orient_graph`). -/
def orient (o : SetOrder α) (opts : OIcdOpts α) (anytime : Bool) (st : OIcdState α) : Py (OIcdState α) := do
  let G ← reset opts.order st.graph
  let G ← G.pagVStructures o (some st.sep)
  let G ← MG.pagMaxOrient o st.sep [1, 2, 3, 4] G
  let G ← (if anytime then pure G else Fci.finalRules o st.sep opts.selection opts.tails G)
  return { st with graph := G }

/-- `ordered_icd.py:68-82` (`_is_cond_set_possible_ancestor`). -/
def isPossibleAncestorSet (o : SetOrder α) (G : MG α) (S : Finset α) (order : List α) (ancIdx baseIdx : Nat) : Py Bool := do
  let anc ← nth order ancIdx
  let base ← nth order baseIdx
  let bad ← forAny (fun z => do
    if ← G.isPossibleAncestor o z anc (insert anc (order.take ancIdx).toFinset) then return false
    if ← G.isPossibleAncestor o z base (insert base (order.take baseIdx).toFinset) then return false
    return true) (o.iter (ancIdx, baseIdx) S)
  return !bad

/-- The loop over conditioning sets `ordered_icd.py:122-129`, `ordered_icd.py:150-162`, `ordered_icd.py:216-223`,
`ordered_icd.py:257-273`: tests the tuples in turn; on independence the edge is deleted, the set is stored, and the pair is done.
Second result: whether an independence was found. -/
def testPair (ci : CITest α) (st : OIcdState α) (anc base : α) (zs : List (List α)) : OIcdState α × Bool :=
  match Pc.firstIndep ci anc base zs st.calls with
  | (none, k) => ({ st with calls := k }, false)
  | (some z, k) => (⟨st.graph.deleteEdge anc base, st.sep.set anc base z.toFinset, k, insert (base, anc) st.done⟩, true)

/-- `ordered_icd.py:102-108` and `ordered_icd.py:186-198` (`_learn_r0_connectivity_node`): the tests without conditioning. The
separation set is not written. -/
def phase0 (ci : CITest α) (order : List α) (baseIdx : Nat) (st : OIcdState α) : Py (OIcdState α) := do
  let base ← nth order baseIdx
  return (order.take baseIdx).foldl (fun (st : OIcdState α) anc =>
    if (base, anc) ∈ st.done then st
    else if ci st.calls anc base [] then
      { st with graph := st.graph.deleteEdge anc base, calls := st.calls + 1, done := insert (base, anc) st.done }
    else { st with calls := st.calls + 1 }) st

/-- `ordered_icd.py:114-129` and `ordered_icd.py:200-224` (`_learn_r1_connectivity_node`; its result is not used): the tests
with one conditioning node. -/
def phase1 (o : SetOrder α) (ci : CITest α) (order : List α) (baseIdx : Nat) (st : OIcdState α) : Py (OIcdState α) := do
  let base ← nth order baseIdx
  (o.iter baseIdx (order.take baseIdx).toFinset).foldlM (fun (st : OIcdState α) anc => do
    if !(← st.graph.isConnected anc base) then return st
    if (base, anc) ∈ st.done then return st
    return (testPair ci st anc base ((o.iter (base, anc) (st.graph.findAdjacentNodes base
      (some ((order.take baseIdx).toFinset.erase anc)) none)).map (fun z => [z]))).1) st

/-- `ordered_icd.py:135-162` and `ordered_icd.py:226-274` (`_learn_r_connectivity_node`): the tests with `r ≥ 2` conditioning
nodes. The graph does not change before an independence is found, so the legal sets are filtered before the tests. Second result:
`True` if nothing is left to do (all pairs done, or no test was answered with "dependent"). -/
def phaseR (o : SetOrder α) (ci : CITest α) (order : List α) (r baseIdx : Nat) (st : OIcdState α) :
    Py (OIcdState α × Bool) := do
  let base ← nth order baseIdx
  if (order.take baseIdx).all (fun anc => (base, anc) ∈ st.done) then return (st, true)
  let (t, S) ← st.graph.createPdsTree o base (some (order.take (baseIdx + 1)).toFinset) (some r)
  let conds := (t.subsetsList o S r).insertionSort (fun c d => c.2 ≤ d.2)
  (List.range baseIdx).foldlM (fun (acc : OIcdState α × Bool) ancIdx => do
    let anc ← nth order ancIdx
    if (base, anc) ∈ acc.1.done then return acc
    let st1 : OIcdState α := { acc.1 with done := insert (base, anc) acc.1.done }
    if !(← st1.graph.isConnected anc base) then return (st1, acc.2)
    let zs ← filterPy (fun c => if anc ∈ c.1 then return false
      else isPossibleAncestorSet o st1.graph c.1 order ancIdx baseIdx) conds
    let tup := zs.map (fun c => o.iter (anc, base) c.1)
    if tup.isEmpty then return (st1, acc.2)
    let (st2, found) := testPair ci st1 anc base tup
    if found then return (st2, acc.2 && ((Pc.firstIndep ci anc base tup st1.calls).2 == st1.calls + 1))
    else return ({ st2 with done := acc.1.done }, false)) (st, true)

/-- `ordered_icd.py:134-163`: the sizes `r`, …, `max` for one base node, `k` of them left; returns if all pairs are done. -/
def nodeSizes (o : SetOrder α) (ci : CITest α) (opts : OIcdOpts α) (baseIdx : Nat) : Nat → Nat → OIcdState α → Py (OIcdState α)
  | 0, _, st => return st
  | k + 1, r, st => do
    let base ← nth opts.order baseIdx
    if (opts.order.take baseIdx).all (fun anc => (base, anc) ∈ st.done) then return st
    let (st, _) ← phaseR o ci opts.order r baseIdx st
    let st ← orient o opts true st
    nodeSizes o ci opts baseIdx k (r + 1) st

/-- `ordered_icd.py:85-163` (`_learn_node_connection`). -/
def nodeConnection (o : SetOrder α) (ci : CITest α) (opts : OIcdOpts α) (idx : Nat) (st : OIcdState α) :
    Py (OIcdState α) := do
  if idx = 0 then throw .assertionError
  let maxSize := match opts.maxCond with
    | some m => min (idx - 1) m
    | none => idx - 1
  let st ← phase0 ci opts.order idx st
  let st ← orient o opts true st
  if maxSize = 0 then return st
  let st ← phase1 o ci opts.order idx st
  let st ← orient o opts true st
  if maxSize = 1 then return st
  nodeSizes o ci opts idx (maxSize - 1) 2 st

/-- `range(a, b)`. -/
def pyRange (a b : Nat) : List Nat := (List.range (b - a)).map (a + ·)

/-- `ordered_icd.py:178-183` (`learn_structure_local`). -/
def learnLocal (o : SetOrder α) (ci : CITest α) (opts : OIcdOpts α) (st : OIcdState α) : Py (OIcdState α) := do
  let st ← (pyRange 1 st.graph.nodes.card).foldlM (fun st idx => nodeConnection o ci opts idx st) st
  orient o opts false st

/-- `ordered_icd.py:312-319`: the sizes of the global variant, starting with `r`, `k` of them left; `done` is not reset between
the sizes. -/
def globalSizes (o : SetOrder α) (ci : CITest α) (opts : OIcdOpts α) : Nat → Nat → Bool → OIcdState α → Py (OIcdState α)
  | 0, _, _, st => return st
  | k + 1, r, done, st => do
    let (st, done) ← (pyRange (r + 1) st.graph.nodes.card).foldlM (fun (acc : OIcdState α × Bool) idx => do
      let (st, d) ← phaseR o ci opts.order r idx acc.1
      return (st, acc.2 && d)) (st, done)
    if done then return st
    let st ← orient o opts true st
    globalSizes o ci opts k (r + 1) done st

/-- `ordered_icd.py:276-321` (`learn_structure_global`). -/
def learnGlobal (o : SetOrder α) (ci : CITest α) (opts : OIcdOpts α) (st : OIcdState α) : Py (OIcdState α) := do
  let n := st.graph.nodes.card
  let st ← (pyRange 1 n).foldlM (fun st idx => phase0 ci opts.order idx st) st
  let st ← orient o opts true st
  let st ← (pyRange 2 n).foldlM (fun st idx => phase1 o ci opts.order idx st) st
  let st ← orient o opts true st
  let maxc := match opts.maxCond with
    | some m => m + 1
    | none => n - 2 + 1
  let st ← globalSizes o ci opts (maxc - 2) 2 true st
  orient o opts false st

/-- `ordered_icd.py:41-45` (`learn_structure`). -/
def learnStructure (o : SetOrder α) (ci : CITest α) (opts : OIcdOpts α) (isLocal : Bool) (st : OIcdState α) :
    Py (OIcdState α) :=
  if isLocal then learnLocal o ci opts st else learnGlobal o ci opts st

end OIcd
end Verif
