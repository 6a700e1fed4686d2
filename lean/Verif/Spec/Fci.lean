import Verif.Spec.PagRules
import Verif.Spec.Graph
import Verif.Spec.Pc
import Verif.Model.Pag

/-!
# Specification vocabulary for the algorithms that learn PAGs
-/

namespace Verif
variable {α : Type}
namespace MG

/-- `u *-* v *-* w` is an unshielded triple whose middle node is not in the separating set of its ends. -/
def VTriple (sep : α → α → Py (Finset α)) (G : MG α) (u v w : α) : Prop :=
  u ≠ w ∧ G.MAdj u v ∧ G.MAdj w v ∧ ¬ G.MAdj u w ∧ ∃ S, sep u w = .ok S ∧ v ∉ S

/-- `H` has the nodes, the mark types and the adjacencies of `G` and is well formed: what every orientation step keeps. -/
structure SameSkel (H G : MG α) : Prop where
  proper : H.Proper
  nodes : H.nodes = G.nodes
  types : H.types = G.types
  adj : ∀ a b, H.MAdj a b ↔ G.MAdj a b

/-- The tail rules are off, or the graph has no bidirected edges. (Rule 10 as coded is not sound in general, see
`C35_rule10_unsound`.) -/
def TailsOk (tails : Bool) (M : MG α) : Prop := tails = false ∨ ∀ a b, M.At a b .arrow → M.At b a .tail

/-- The test answers m-separation in `M` (for two distinct nodes and a conditioning set of other nodes). -/
def MPerfect [DecidableEq α] (ci : CITest α) (M : MG α) : Prop :=
  ∀ k i j l, i ∈ M.nodes → j ∈ M.nodes → i ≠ j → i ∉ l → j ∉ l → (∀ x ∈ l, x ∈ M.nodes) →
    (ci k i j l = true ↔ M.MSep i j l.toFinset)

end MG

/-- A DAG as a mixed graph: an arrowhead at the child and a tail at the parent. -/
def Dag.toMg [DecidableEq α] (D : Dag α) : MG α :=
  ⟨D.nodes, [.circle, .arrow, .tail], fun v m => match m with
    | .arrow => D.par v
    | .tail => D.nodes.filter (fun c => v ∈ D.par c)
    | .circle => ∅⟩

namespace Fci
variable [LinearOrder α]
open MG

/-- Invariant of the skeleton of a PAG learner: a well-formed PAG on the nodes `N`; separating sets are defined for all pairs;
for a pair that is not adjacent the recorded set is one for which the test answered "independent". -/
structure SkInv (ci : CITest α) (N : Finset α) (G : MG α) (sep : SepSet α) : Prop where
  proper : G.Proper
  nodes : G.nodes = N
  types : G.types = pagTypes
  key : ∀ i ∈ N, ∀ j ∈ N, i ≠ j → ∃ S, sep.get i j = .ok S
  witness : ∀ i ∈ N, ∀ j ∈ N, i ≠ j → ¬ G.MAdj i j → ∃ S, sep.get i j = .ok S ∧ Pc.Witness ci N i j S

/-- The test answered "dependent" for the pair and the set `S`, in some order of the conditioning tuple. -/
def Dep (ci : CITest α) (i j : α) (S : Finset α) : Prop := ∃ z k, z.toFinset = S ∧ z.Nodup ∧ ci k i j z = false

end Fci
end Verif
