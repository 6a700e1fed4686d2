import Verif.Spec.Stats

/-!
# Specification vocabulary: another coding of categorical data
-/

namespace Verif

/-- The second data set has the same records with another coding of the categories: the value `a` of column `v` is written `f v a`. -/
def Recoded (m : Nat) (f : Nat → Int → Int) (data data' : List (List Int)) : Prop :=
  List.Forall₂ (fun r r' => r.length = m ∧ r'.length = m ∧ ∀ v < m, r'.getD v 0 = f v (r.getD v 0)) data data'

end Verif
