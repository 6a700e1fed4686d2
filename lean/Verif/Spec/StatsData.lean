import Mathlib.Data.Real.Basic

/-!
# Specification vocabulary for data sets: change of units, constant columns
-/

namespace Verif

/-- The second data set has the same records in other units: column `v` is multiplied by `k v` and shifted by `c v`. -/
def Rescaled (m : Nat) (k c : Nat → ℝ) (data data' : List (List ℝ)) : Prop :=
  List.Forall₂ (fun r r' => ∀ v < m, r'.getD v 0 = k v * r.getD v 0 + c v) data data'

/-- All records have the same value in the column. -/
def ConstantCol (data : List (List ℝ)) (v : Nat) : Prop := ∀ r ∈ data, ∀ r' ∈ data, r.getD v 0 = r'.getD v 0

end Verif
