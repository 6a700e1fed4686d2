import Verif.Model.Icd

/-!
# Model of `causal_reasoning/cleann_explainer.py` (`CLEANN`) and `experiment_utils/explanation.py`

The constructor computes a correlation matrix and a CI test from the attention matrix (`cov_to_corr` and `CondIndepParCorr` are
modelled in `Verif.Model.Stats`); here the outcome of the structure learner (`cleann_explainer.py:48-51`) is a parameter. The
explanation tester is a function of the list of tokens and the target.
-/

namespace Verif

/-- The dictionary stored for a target (`cleann_explainer.py:73-76,98`). -/
structure CleannResult (α : Type) where
  tree : PdsTree α
  full : Finset α
  depth : Nat
  expl : List (Finset α × WithTop Nat)

/-- The fields of the explainer that `explain` uses (`cleann_explainer.py:41-46`). -/
structure CleannState (α : Type) where
  graph : Option (MG α)
  results : Dict α (CleannResult α)
  tester : Option (List α → α → Bool)
  minimal : Bool

namespace Cleann
variable {α : Type} [DecidableEq α]

/-- `cleann_explainer.py:88-94`: the explanations of one size. `sort` is stable. -/
def sized (o : SetOrder α) (test : List α → α → Bool) (target : α) (t : PdsTree α) (full : Finset α) (k : Nat) :
    List (Finset α × WithTop Nat) :=
  ((t.subsetsList o full k).insertionSort (fun c d => c.2 ≤ d.2)).filter (fun c => test (o.iter target c.1) target)

/-- `cleann_explainer.py:86-96`: the loop over the sizes, with `explanations_list` and `found_explanation`. -/
def sizes (o : SetOrder α) (test : List α → α → Bool) (minimal : Bool) (target : α) (t : PdsTree α) (full : Finset α) :
    List Nat → List (Finset α × WithTop Nat) → Bool → List (Finset α × WithTop Nat)
  | [], acc, _ => acc
  | k :: ks, acc, found =>
    let new := sized o test target t full k
    let found := found || !new.isEmpty
    if found && minimal then acc ++ new else sizes o test minimal target t full ks (acc ++ new) found

/-- `cleann_explainer.py:53-100` (`explain`); `learn` is the result of `learn_graph`. Without a tester the second component of
the entry is `max_size`, not a distance (`cleann_explainer.py:84`). -/
def explain (o : SetOrder α) (learn : Py (MG α)) (st : CleannState α) (target : α) (maxSize : Option Int)
    (maxRange : Option Nat) : Py (CleannState α × List (Finset α × WithTop Nat)) := do
  let graph ← (match st.graph with
    | none => learn
    | some G => pure G)
  let (t, full) ← graph.createPdsTree o target none maxRange
  let size : Int := maxSize.getD full.card
  let expl := match st.tester with
    | none => if full.card ≤ size then [(full, (size.toNat : WithTop Nat))] else []
    | some test => sizes o test st.minimal target t full ((List.range size.toNat).map (· + 1)) [] false
  return ({ st with graph := some graph, results := Dict.set st.results target ⟨t, full, t.maxDepth, expl⟩ }, expl)

/-- `explanation.py:22-28`: the explanations of one size. -/
def exhaustSized (test : List α → α → Bool) (target : α) (tokens : List α) (k : Nat) : List (List α) :=
  (combs k tokens).filter (fun s => decide (target ∉ s) && test s target)

/-- `explanation.py:21-30`: the loop over the sizes. -/
def exhaustSizes (test : List α → α → Bool) (minimal : Bool) (target : α) (tokens : List α) :
    List Nat → List (List α) → Bool → List (List α)
  | [], acc, _ => acc
  | k :: ks, acc, found =>
    let new := exhaustSized test target tokens k
    let found := found || !new.isEmpty
    if minimal && found then acc ++ new else exhaustSizes test minimal target tokens ks (acc ++ new) found

/-- `explanation.py:4-30` (`exhaustive_search_explanation`). -/
def exhaustive (tokens : List α) (target : α) (test : List α → α → Bool) (minimal : Bool) : List (List α) :=
  exhaustSizes test minimal target tokens ((List.range (tokens.length - 1)).map (· + 1)) [] false

end Cleann
end Verif
