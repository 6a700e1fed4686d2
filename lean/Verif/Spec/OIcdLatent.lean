import Verif.Spec.OrderedIcd
import Verif.Spec.TruePag

/-!
# Specification vocabulary for ordered ICD with latent variables
-/

namespace Verif
variable {α : Type}

/-- The list is an order of the observed nodes in which ancestors come first. -/
structure Dag.CausalOrder (D : Dag α) (O : Finset α) (order : List α) : Prop where
  isOrder : OIcd.IsOrder order O
  anc : ∀ a ∈ O, ∀ b ∈ O, a ≠ b → D.DPath a b → Before order a b

end Verif
