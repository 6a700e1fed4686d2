import Verif.Model.OrderedIcd
import Verif.Model.PcObject

/-!
# Model of `causal_discovery_algs/ordered_icd.py` with a test object

As `Model/OrderedIcd.lean`, but the conditional independence test is an object with a state of its own, and its exceptions are propagated;
see `Model/PcObject.lean`.
-/

namespace Verif
namespace OIcd
variable {α σ : Type} [LinearOrder α]

/-- The loop over conditioning sets `ordered_icd.py:122-129`, `ordered_icd.py:150-162`, `ordered_icd.py:216-223`,
`ordered_icd.py:257-273`. Second result: whether an independence was found. -/
def testPairObj (call : Pc.Call α σ) (st : OIcdState α) (s : σ) (anc base : α) (zs : List (List α)) : Py ((OIcdState α × Bool) × σ) := do
  match ← Pc.firstIndepObj call anc base zs st.calls s with
  | (none, k, s) => return (({ st with calls := k }, false), s)
  | (some z, k, s) =>
    return ((⟨st.graph.deleteEdge anc base, st.sep.set anc base z.toFinset, k, insert (base, anc) st.done⟩, true), s)

/-- `ordered_icd.py:102-107` and `ordered_icd.py:194-198`: the test of one pair without conditioning, as a loop over one tuple. -/
def pair0Obj (call : Pc.Call α σ) (base : α) (acc : OIcdState α × σ) (anc : α) : Py (OIcdState α × σ) := do
  if (base, anc) ∈ acc.1.done then return acc
  match ← Pc.firstIndepObj call anc base [[]] acc.1.calls acc.2 with
  | (none, k, s) => return ({ acc.1 with calls := k }, s)
  | (some _, k, s) =>
    return ({ acc.1 with graph := acc.1.graph.deleteEdge anc base, calls := k, done := insert (base, anc) acc.1.done }, s)

/-- `ordered_icd.py:102-108` and `ordered_icd.py:186-198` (`_learn_r0_connectivity_node`). -/
def phase0Obj (call : Pc.Call α σ) (order : List α) (baseIdx : Nat) (st : OIcdState α × σ) : Py (OIcdState α × σ) := do
  let base ← nth order baseIdx
  (order.take baseIdx).foldlM (pair0Obj call base) st

/-- `ordered_icd.py:114-125` and `ordered_icd.py:210-223`: one pair with one conditioning node. -/
def pair1Obj (o : SetOrder α) (call : Pc.Call α σ) (order : List α) (baseIdx : Nat) (base : α) (acc : OIcdState α × σ) (anc : α) :
    Py (OIcdState α × σ) := do
  if !(← acc.1.graph.isConnected anc base) then return acc
  if (base, anc) ∈ acc.1.done then return acc
  let r ← testPairObj call acc.1 acc.2 anc base ((o.iter (base, anc) (acc.1.graph.findAdjacentNodes base
    (some ((order.take baseIdx).toFinset.erase anc)) none)).map (fun z => [z]))
  return (r.1.1, r.2)

/-- `ordered_icd.py:114-129` and `ordered_icd.py:200-224` (`_learn_r1_connectivity_node`; its result is not used). -/
def phase1Obj (o : SetOrder α) (call : Pc.Call α σ) (order : List α) (baseIdx : Nat) (st : OIcdState α × σ) : Py (OIcdState α × σ) := do
  let base ← nth order baseIdx
  (o.iter baseIdx (order.take baseIdx).toFinset).foldlM (pair1Obj o call order baseIdx base) st

/-- `ordered_icd.py:143-162` and `ordered_icd.py:252-273`: one pair with `r ≥ 2` conditioning nodes; the legal sets are filtered before the
tests, as in `Model/OrderedIcd.lean`. -/
def pairRObj (o : SetOrder α) (call : Pc.Call α σ) (order : List α) (baseIdx : Nat) (base : α) (conds : List (Finset α × WithTop Nat))
    (acc : (OIcdState α × Bool) × σ) (ancIdx : Nat) : Py ((OIcdState α × Bool) × σ) := do
  let anc ← nth order ancIdx
  if (base, anc) ∈ acc.1.1.done then return acc
  let st1 : OIcdState α := { acc.1.1 with done := insert (base, anc) acc.1.1.done }
  if !(← st1.graph.isConnected anc base) then return ((st1, acc.1.2), acc.2)
  let zs ← filterPy (fun c => if anc ∈ c.1 then return false
    else isPossibleAncestorSet o st1.graph c.1 order ancIdx baseIdx) conds
  let tup := zs.map (fun c => o.iter (anc, base) c.1)
  if tup.isEmpty then return ((st1, acc.1.2), acc.2)
  let r ← testPairObj call st1 acc.2 anc base tup
  if r.1.2 then return ((r.1.1, acc.1.2 && (r.1.1.calls == st1.calls + 1)), r.2)
  else return (({ r.1.1 with done := acc.1.1.done }, false), r.2)

/-- `ordered_icd.py:135-162` and `ordered_icd.py:226-274` (`_learn_r_connectivity_node`). -/
def phaseRObj (o : SetOrder α) (call : Pc.Call α σ) (order : List α) (r baseIdx : Nat) (st : OIcdState α × σ) :
    Py ((OIcdState α × Bool) × σ) := do
  let base ← nth order baseIdx
  if (order.take baseIdx).all (fun anc => (base, anc) ∈ st.1.done) then return ((st.1, true), st.2)
  let (t, S) ← st.1.graph.createPdsTree o base (some (order.take (baseIdx + 1)).toFinset) (some r)
  let conds := (t.subsetsList o S r).insertionSort (fun c d => c.2 ≤ d.2)
  (List.range baseIdx).foldlM (pairRObj o call order baseIdx base conds) ((st.1, true), st.2)

/-- `ordered_icd.py:165-176` (`orient_graph`); the test object is not used. -/
def orientObj (o : SetOrder α) (opts : OIcdOpts α) (anytime : Bool) (st : OIcdState α × σ) : Py (OIcdState α × σ) := do
  let a ← orient o opts anytime st.1
  return (a, st.2)

/-- `ordered_icd.py:134-163`: the sizes `r`, …, `max` for one base node, `k` of them left. -/
def nodeSizesObj (o : SetOrder α) (call : Pc.Call α σ) (opts : OIcdOpts α) (baseIdx : Nat) :
    Nat → Nat → OIcdState α × σ → Py (OIcdState α × σ)
  | 0, _, st => return st
  | k + 1, r, st => do
    let base ← nth opts.order baseIdx
    if (opts.order.take baseIdx).all (fun anc => (base, anc) ∈ st.1.done) then return st
    let r' ← phaseRObj o call opts.order r baseIdx st
    let st ← orientObj o opts true (r'.1.1, r'.2)
    nodeSizesObj o call opts baseIdx k (r + 1) st

/-- `ordered_icd.py:85-163` (`_learn_node_connection`). -/
def nodeConnectionObj (o : SetOrder α) (call : Pc.Call α σ) (opts : OIcdOpts α) (st : OIcdState α × σ) (idx : Nat) :
    Py (OIcdState α × σ) := do
  if idx = 0 then throw .assertionError
  let maxSize := match opts.maxCond with
    | some m => min (idx - 1) m
    | none => idx - 1
  let st ← phase0Obj call opts.order idx st
  let st ← orientObj o opts true st
  if maxSize = 0 then return st
  let st ← phase1Obj o call opts.order idx st
  let st ← orientObj o opts true st
  if maxSize = 1 then return st
  nodeSizesObj o call opts idx (maxSize - 1) 2 st

/-- `ordered_icd.py:178-183` (`learn_structure_local`). -/
def learnLocalObj (o : SetOrder α) (call : Pc.Call α σ) (opts : OIcdOpts α) (st : OIcdState α × σ) : Py (OIcdState α × σ) := do
  let st ← (pyRange 1 st.1.graph.nodes.card).foldlM (nodeConnectionObj o call opts) st
  orientObj o opts false st

/-- `ordered_icd.py:314-316`: one base node in one round of the global variant. -/
def globalNodeObj (o : SetOrder α) (call : Pc.Call α σ) (opts : OIcdOpts α) (r : Nat) (acc : (OIcdState α × Bool) × σ) (idx : Nat) :
    Py ((OIcdState α × Bool) × σ) := do
  let r' ← phaseRObj o call opts.order r idx (acc.1.1, acc.2)
  return ((r'.1.1, acc.1.2 && r'.1.2), r'.2)

/-- `ordered_icd.py:312-319`: the sizes of the global variant, starting with `r`, `k` of them left. -/
def globalSizesObj (o : SetOrder α) (call : Pc.Call α σ) (opts : OIcdOpts α) :
    Nat → Nat → Bool → OIcdState α × σ → Py (OIcdState α × σ)
  | 0, _, _, st => return st
  | k + 1, r, done, st => do
    let r' ← (pyRange (r + 1) st.1.graph.nodes.card).foldlM (globalNodeObj o call opts r) ((st.1, done), st.2)
    if r'.1.2 then return (r'.1.1, r'.2)
    let st ← orientObj o opts true (r'.1.1, r'.2)
    globalSizesObj o call opts k (r + 1) r'.1.2 st

/-- `ordered_icd.py:276-321` (`learn_structure_global`). -/
def learnGlobalObj (o : SetOrder α) (call : Pc.Call α σ) (opts : OIcdOpts α) (st : OIcdState α × σ) : Py (OIcdState α × σ) := do
  let n := st.1.graph.nodes.card
  let st ← (pyRange 1 n).foldlM (fun (st : OIcdState α × σ) idx => phase0Obj call opts.order idx st) st
  let st ← orientObj o opts true st
  let st ← (pyRange 2 n).foldlM (fun (st : OIcdState α × σ) idx => phase1Obj o call opts.order idx st) st
  let st ← orientObj o opts true st
  let maxc := match opts.maxCond with
    | some m => m + 1
    | none => n - 2 + 1
  let st ← globalSizesObj o call opts (maxc - 2) 2 true st
  orientObj o opts false st

/-- `ordered_icd.py:20-39`: the state after `__init__`, as in `OIcd.init`. -/
def first (o : SetOrder α) (nodes : Finset α) : OIcdState α := ⟨MG.complete nodes MG.pagTypes .circle, SepSet.init o nodes, 0, ∅⟩

/-- `ordered_icd.py:41-45` (`learn_structure`) with the test object in state `s`. -/
def learnStructureObj (o : SetOrder α) (call : Pc.Call α σ) (opts : OIcdOpts α) (isLocal : Bool) (st : OIcdState α) (s : σ) :
    Py (OIcdState α × σ) :=
  if isLocal then learnLocalObj o call opts (st, s) else learnGlobalObj o call opts (st, s)

end OIcd
end Verif
