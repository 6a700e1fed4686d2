import Verif.Model.Pdag
import Verif.Model.Py
import Mathlib.Data.Rat.Defs

/-!
# Model of `causal_discovery_utils/performance_measures.py`: comparison of graphs

Lines 17-52 (`calc_skeleton_accuracy`), 55-97 (`structural_hamming_distance_cpdag`), 153-190
(`calc_structural_accuracy_pag`), 193-197 (`calc_skeleton_fnr_fpr`). Quotients of counts are exact rationals here; `/` raises
`ZeroDivisionError` as in Python. The type check of line 72 is not modelled. The nodes of the compared graphs can differ here, so
that the `KeyError` of a lookup is modelled.
-/

namespace Verif
variable {α : Type} [DecidableEq α]

/-- `basic_equivalance_class_graph.py:92-106` (`is_connected`) with the `KeyError` of `self._graph[node_c]`. -/
def MG.connK (G : MG α) (i j : α) : Py Bool := do
  if i = j then throw .assertionError
  if j ∉ G.nodes then throw .keyError
  if G.types.any (fun m => i ∈ G.g j m) then return true
  if i ∉ G.nodes then throw .keyError
  return G.types.any (fun m => j ∈ G.g i m)

namespace Perf

/-- The dictionaries of `performance_measures.py:75-76`. -/
structure Shd where
  edgeMissing : Nat
  edgeExtra : Nat
  headMissing : Nat
  headExtra : Nat
  headReversed : Nat
  deriving DecidableEq

/-- `performance_measures.py:95`. -/
def Shd.total (s : Shd) : Nat := (s.edgeMissing + s.edgeExtra) + (s.headMissing + s.headExtra + s.headReversed)

/-- `performance_measures.py:78-93`: the body of the loop over pairs. `T` is the tested graph, `C` the true one. -/
def shdStep (T C : MG α) (s : Shd) (ij : α × α) : Py Shd := do
  let (i, j) := ij
  if !(← T.connK i j) then
    if ← C.connK i j then return { s with edgeMissing := s.edgeMissing + 1 }
    else return s
  else if !(← C.connK i j) then return { s with edgeExtra := s.edgeExtra + 1 }
  else if i ∈ C.und j then
    if i ∈ T.parents j ∨ j ∈ T.parents i then return { s with headExtra := s.headExtra + 1 }
    else return s
  else if i ∈ T.und j then return { s with headMissing := s.headMissing + 1 }
  else
    let st := if i ∈ C.parents j then (i, j) else (j, i)
    if st.2 ∈ T.parents st.1 then return { s with headReversed := s.headReversed + 1 }
    else return s

/-- `performance_measures.py:55-97` (`structural_hamming_distance_cpdag`). -/
def shd (o : SetOrder α) (T C : MG α) : Py Shd :=
  (pairs (o.iter () C.nodes)).foldlM (shdStep T C) ⟨0, 0, 0, 0, 0⟩

/-- Python's `/`. -/
def pyDiv (a b : ℚ) : Py ℚ := if b = 0 then .error .zeroDivision else .ok (a / b)

/-- The counters of `performance_measures.py:18-22`; `num_edges_true` is `tp + fn`. -/
structure Counts where
  tp : Nat
  fn : Nat
  fp : Nat
  tn : Nat
  edges : Nat
  deriving DecidableEq

/-- `performance_measures.py:26-38`: the body of the loop over pairs; `connT`, `connC` are the methods `is_connected` of the tested
graph and the true graph (of any class). -/
def countStep (connT connC : α → α → Py Bool) (c : Counts) (ij : α × α) : Py Counts := do
  if ← connC ij.1 ij.2 then
    if ← connT ij.1 ij.2 then return { c with edges := c.edges + 1, tp := c.tp + 1 }
    else return { c with edges := c.edges + 1, fn := c.fn + 1 }
  else
    if ← connT ij.1 ij.2 then return { c with fp := c.fp + 1 }
    else return { c with tn := c.tn + 1 }

/-- The result of `performance_measures.py:45-51`. -/
structure SkelAcc where
  precision : ℚ
  recall : ℚ
  f1 : ℚ
  fpr : ℚ
  fnr : ℚ

/-- `performance_measures.py:40-44`. -/
def ratios (c : Counts) : Py SkelAcc := do
  let precision ← pyDiv c.tp (c.fp + c.tp)
  let recall ← pyDiv c.tp c.edges
  let f1 ← pyDiv (2 * precision * recall) (precision + recall)
  let fpr ← pyDiv c.fp (c.fp + c.tn)
  let fnr ← pyDiv c.fn (c.fn + c.tp)
  return ⟨precision, recall, f1, fpr, fnr⟩

/-- `performance_measures.py:17-52` (`calc_skeleton_accuracy`); `nodes` are the keys of the true graph. -/
def skeletonAccuracy (o : SetOrder α) (nodes : Finset α) (connT connC : α → α → Py Bool) : Py SkelAcc := do
  let c ← (pairs (o.iter () nodes)).foldlM (countStep connT connC) ⟨0, 0, 0, 0, 0⟩
  ratios c

/-- `performance_measures.py:193-197` (`calc_skeleton_fnr_fpr`): FPR and FNR. -/
def skeletonFnrFpr (o : SetOrder α) (nodes : Finset α) (connT connC : α → α → Py Bool) : Py (ℚ × ℚ) := do
  let r ← skeletonAccuracy o nodes connT connC
  return (r.fpr, r.fnr)

/-- `_graph[node][edge_mark]`. -/
def lookup (G : MG α) (v : α) (m : Mark) : Py (Finset α) :=
  if v ∈ G.nodes ∧ m ∈ G.types then .ok (G.g v m) else .error .keyError

/-- `performance_measures.py:171-174`: one comparison, the mark `m` at `b` on the edge with `a`. -/
def markStep (T C : MG α) (m : Mark) (n : Nat) (ab : α × α) : Py Nat := do
  if ab.1 ∈ (← lookup C ab.2 m) then
    if ab.1 ∈ (← lookup T ab.2 m) then return n + 1
    else return n
  else return n

/-- `performance_measures.py:168-174`: the body of the loop over pairs: correct and total number of marks. -/
def orientStep (T C : MG α) (acc : Nat × Nat) (ij : α × α) : Py (Nat × Nat) := do
  if ← C.connK ij.1 ij.2 then
    let n ← C.types.foldlM (fun n m => do
      let n ← markStep T C m n (ij.1, ij.2)
      markStep T C m n (ij.2, ij.1)) acc.1
    return (n, acc.2 + 2)
  else return acc

/-- `performance_measures.py:153-190` (`calc_structural_accuracy_pag`): the skeleton measures and the orientation correctness. -/
def pagAccuracy (o : SetOrder α) (T C : MG α) : Py (SkelAcc × ℚ) := do
  let (correct, total) ← (pairs (o.iter () C.nodes)).foldlM (orientStep T C) (0, 0)
  let acc ← skeletonAccuracy o C.nodes T.connK C.connK
  let orient ← pyDiv correct total
  return (acc, orient)

end Perf
end Verif
