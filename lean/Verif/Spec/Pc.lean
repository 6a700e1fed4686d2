import Verif.Spec.Graph
import Verif.Model.Pc

/-!
# Specification vocabulary for the constraint-based learners
-/

namespace Verif
namespace Pc
variable {α : Type} [LinearOrder α]

/-- The pair is recorded as separated: the stored set is the tuple of a CI test that answered "independent". -/
def Witness (ci : CITest α) (N : Finset α) (i j : α) (S : Finset α) : Prop :=
  ∃ l k, S = l.toFinset ∧ (ci k i j l = true ∨ ci k j i l = true) ∧ i ∉ l ∧ j ∉ l ∧ ∀ x ∈ l, x ∈ N

/-- The test answers d-separation in `D` (for two distinct nodes and a conditioning set of other nodes). -/
def Perfect (ci : CITest α) (D : Dag α) : Prop :=
  ∀ k i j l, i ∈ D.nodes → j ∈ D.nodes → i ≠ j → i ∉ l → j ∉ l → (∀ x ∈ l, x ∈ D.nodes) →
    (ci k i j l = true ↔ D.DSeparated i j l.toFinset)

end Pc
end Verif
