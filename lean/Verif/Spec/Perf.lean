import Verif.Spec.Mixed
import Verif.Spec.Pdag
import Verif.Model.Perf
import Mathlib.Data.Set.Card

/-!
# Specification vocabulary for the comparison of graphs
-/

namespace Verif
variable {α : Type}

/-- Number of ordered pairs of distinct nodes with the property. -/
noncomputable def cnt (S : Finset α) (Q : α → α → Prop) : Nat := {p : α × α | p.1 ∈ S ∧ p.2 ∈ S ∧ p.1 ≠ p.2 ∧ Q p.1 p.2}.ncard

namespace MG

/-- No bi-directed edges. -/
def NoBi (G : MG α) : Prop := ∀ a b, G.Arrow a b → ¬ G.Arrow b a

/-- Between `a` and `b` both graphs have the same edge, or none. -/
def SameEdge (G H : MG α) (a b : α) : Prop :=
  (G.Arrow a b ↔ H.Arrow a b) ∧ (G.Arrow b a ↔ H.Arrow b a) ∧ (G.Und a b ↔ H.Und a b)

end MG

/-- The method `is_connected` of a graph answers the adjacency `Q` on the nodes `S`. -/
def Answers (S : Finset α) (conn : α → α → Py Bool) (Q : α → α → Prop) : Prop :=
  (∀ a b, Q a b → Q b a) ∧ ∀ i ∈ S, ∀ j ∈ S, i ≠ j → ∃ b, conn i j = .ok b ∧ (b = true ↔ Q i j)

end Verif
