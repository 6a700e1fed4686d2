import Verif.Model.Stats
import Verif.Model.Dag
import Verif.Model.Pdag

/-!
# Model of the BDeu score (`causal_discovery_utils/performance_measures.py`) and of the threshold search
(`experiment_utils/threshold_select_ci_test.py`)

Floating-point numbers are real numbers, `-inf` is `⊥`. `gammaln` is a parameter `L`. Running out of memory is not modelled.
-/

namespace Verif
namespace Score

/-- `performance_measures.py:140-154` (`score_family_dirichlet`) for matrices with the given numbers of rows and columns. -/
noncomputable def familyDirichlet (L : ℝ → ℝ) (counts prior : Nat → Nat → ℝ) (rows cols : Nat) : ℝ :=
  ((List.range rows).map (fun i =>
    let lu := ((List.range cols).map (fun k => L (prior i k + counts i k) - L (prior i k))).sum
    let alphaIj := ((List.range cols).map (fun k => prior i k)).sum
    let nIj := ((List.range cols).map (fun k => counts i k)).sum
    let lv := L alphaIj - L (alphaIj + nIj)
    lu + lv)).sum

/-- `performance_measures.py:119-135`: the score of one node and its parents. The reshape of line 129 is in Fortran order and raises
ValueError if the number of entries is not a multiple of the size of the child. -/
noncomputable def scoreNode (o : SetOrder Nat) (L : ℝ → ℝ) (G : Dag Nat) (data : List (List Int)) (nodeSize : List Int) (v : Nat) :
    Py ℝ := do
  let ps ← G.parents v
  let family := o.iter v ps ++ [v]
  let sizes ← pick nodeSize family
  let fdata ← data.mapM (fun row => pick row family)
  let H ← calcStats (W := Nat) fdata sizes none
  let c := sizes.getLastD 0
  if c ≤ 0 ∨ (H.length : Int) % c ≠ 0 then throw .valueError
  let cols := c.toNat
  let rows := H.length / cols
  return familyDirichlet L (fun i k => (H.getD (i + rows * k) 0 : Nat)) (fun _ _ => 1 / H.length) rows cols

/-- `performance_measures.py:100-137` (`score_bdeu`). -/
noncomputable def scoreBdeu (o : SetOrder Nat) (L : ℝ → ℝ) (dag : Option (Dag Nat)) (data : List (List Int)) (nodeSize : List Int)
    (enNodes : Option (Finset Nat)) : Py (WithBot ℝ) :=
  match dag with
  | none => .ok ⊥
  | some G => do
    let s ← (o.iter () (enNodes.getD G.nodes)).foldlM (fun score v => do
      let s ← scoreNode o L G data nodeSize v
      return score + s) (0 : ℝ)
    return (s : WithBot ℝ)

open Classical in
/-- `threshold_select_ci_test.py:17-39` (`search_threshold_bdeu`). `learn seen th` is the graph that a new instance of the algorithm learns
with threshold `th`, or its error; it may depend on the thresholds `seen` before, because the CI test is shared. The first component is
`best_th` (`none` is the initial `inf`), the second `best_score`, the third `score_list`. -/
noncomputable def searchLoop {τ : Type} (o : SetOrder Nat) (L : ℝ → ℝ) (learn : List τ → τ → Py (MG Nat)) (data : List (List Int))
    (nodeSize : List Int) : List τ → List τ → Option τ × WithBot ℝ × List (WithBot ℝ) →
    Py (Option τ × WithBot ℝ × List (WithBot ℝ))
  | _, [], s => .ok s
  | seen, th :: ths, s => do
    let P ← learn seen th
    let (D, isDag) ← P.convertToDag o (Dag.empty P.nodes)
    let score ← (if isDag then scoreBdeu o L (some D) data nodeSize none else pure ⊥)
    searchLoop o L learn data nodeSize (seen ++ [th]) ths
      (if s.2.1 ≤ score then (some th, score, s.2.2 ++ [score]) else (s.1, s.2.1, s.2.2 ++ [score]))

/-- `threshold_select_ci_test.py:4-39` (`search_threshold_bdeu`): the threshold and the list of scores. -/
noncomputable def searchThreshold {τ : Type} (o : SetOrder Nat) (L : ℝ → ℝ) (learn : List τ → τ → Py (MG Nat)) (data : List (List Int))
    (nodeSize : List Int) (ths : List τ) : Py (Option τ × List (WithBot ℝ)) := do
  let s ← searchLoop o L learn data nodeSize [] ths (none, ⊥, [])
  return (s.1, s.2.2)

end Score
end Verif
