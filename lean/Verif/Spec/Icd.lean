import Verif.Spec.Fci
import Verif.Spec.PdsTree
import Verif.Spec.Pdag
import Verif.Model.Icd

/-!
# Specification vocabulary for ICD
-/

namespace Verif
variable {α : Type}
namespace MG

/-- `v` is a possible ancestor of `x`: there is a path from `v` to `x` along which every node is a possible parent of the next
one. -/
def PossAnc (G : MG α) (v x : α) : Prop := ∃ l, PathVia G.PossPar G.nodes v x l

/-- Every node of `T` is at the end of a possible-d-sep walk from `x` that is inside of `T` and has at most `r` edges (one edge
is always allowed). -/
def PdsInside (G : MG α) (x : α) (r : Nat) (T : Finset α) : Prop :=
  ∀ v ∈ T, ∃ l, G.PdsWalk G.nodes x (l ++ [v]) ∧ l.length + 1 ≤ max 1 r ∧ ∀ w ∈ l, w ∈ T

/-- The ICD-Sep conditions (Rohekar et al. 2021, as documented in `icd.py:191-238` and `possible_dsep_tree.py:78-90`): size `r`;
connected to `i` or to `j` by possible-d-sep walks inside of the set; all nodes are possible ancestors of `i` or `j`. -/
structure IcdSep (G : MG α) (i j : α) (r : Nat) (T : Finset α) : Prop where
  size : T.card = r
  mem : T ⊆ G.nodes
  left : i ∉ T
  right : j ∉ T
  path : G.PdsInside i r T ∨ G.PdsInside j r T
  anc : ∀ v ∈ T, G.PossAnc v i ∨ G.PossAnc v j

/-- ICD-Sep sets that consist of neighbours of `i` or of neighbours of `j`. -/
structure IcdNbr (G : MG α) (i j : α) (r : Nat) (T : Finset α) : Prop where
  size : T.card = r
  left : i ∉ T
  right : j ∉ T
  nbr : (∀ v ∈ T, G.MAdj i v) ∨ ∀ v ∈ T, G.MAdj j v
  anc : ∀ v ∈ T, G.PossAnc v i ∨ G.PossAnc v j

/-- `E` is `G` without some edges; the remaining edges have the same marks. -/
structure SubMarks (E G : MG α) : Prop where
  nodes : E.nodes = G.nodes
  marks : ∀ a b m, E.At a b m ↔ G.At a b m ∧ E.MAdj a b

end MG
namespace Icd
variable [LinearOrder α]
open MG

/-- What one iteration does to the skeleton: `E` is the graph after the pass, before new orientations. -/
structure Pruned (ci : CITest α) (r : Nat) (G E : MG α) : Prop where
  sub : SubMarks E G
  tested : ∀ i j, E.MAdj i j → ∀ T, E.IcdNbr i j r T → Fci.Dep ci i j T ∨ Fci.Dep ci j i T

/-- The arrowheads are the edges common to all Markov equivalent DAGs, if the skeleton is the one of a DAG in which the recorded
sets separate. -/
def Ess (N : Finset α) (G : MG α) (sep : SepSet α) : Prop :=
  ∀ D : Dag α, D.WF → D.Acyclic → D.nodes = N → (∀ a b, G.MAdj a b ↔ D.Adj a b) → SepIn sep.get D.toMg →
    ∀ a b, G.At a b .arrow ↔ ∀ H, D.Equivalent H → H.Edge a b

/-- Soundness of the marks, if the skeleton is the one of an ancestral graph in which the recorded sets separate; for a DAG also
completeness of the arrowheads. -/
def Snd (tails : Bool) (N : Finset α) (G : MG α) (sep : SepSet α) : Prop :=
  (∀ M, Ancestral M → M.nodes = N → (∀ a b, G.MAdj a b ↔ M.MAdj a b) → SepIn sep.get M →
    ArrowsOk G M ∧ (TailsOk tails M → Compatible G M)) ∧ Ess N G sep

/-- The state after a call of `learn_structure_iteration` or of `learn_structure` that did not raise. -/
def Call (o : SetOrder α) (ci : CITest α) (opts : IcdOpts) (st st' : IcdState α) : Prop :=
  (∃ d r, iteration o ci opts st = .ok (st', d, r)) ∨ learnStructure o ci opts st = .ok st'

/-- The states a learner can get to. -/
def Reachable (o : SetOrder α) (ci : CITest α) (opts : IcdOpts) (N : Finset α) (st : IcdState α) : Prop :=
  Relation.ReflTransGen (Call o ci opts) (init o N) st

end Icd
end Verif
