import Mathlib.Data.Real.Basic
import Mathlib.Algebra.BigOperators.Group.Finset.Basic
import Mathlib.Data.Finset.Pi
import Verif.Spec.Graph

/-!
# Specification of the BDeu score

Equivalent sample size 1. A configuration of a set of variables gives a value below its size to each variable.
-/

namespace Verif
namespace Score

/-- The configurations of the variables `S`. -/
def configs (sizes : List Int) (S : Finset Nat) : Finset ((v : Nat) → v ∈ S → Nat) :=
  S.pi (fun v => Finset.range (sizes.getD v 0).toNat)

/-- Number of records with the given values of the variables `S`. -/
noncomputable def countOf (data : List (List Int)) (S : Finset Nat) (c : (v : Nat) → v ∈ S → Nat) : Nat :=
  open Classical in
  (data.filter (fun r => decide (∀ v (h : v ∈ S), r[v]? = some (c v h : Int)))).length

/-- Prior weight of one configuration. -/
noncomputable def alpha (sizes : List Int) (S : Finset Nat) : ℝ := 1 / ∏ v ∈ S, ((sizes.getD v 0 : Int) : ℝ)

/-- The term of one variable: `Σ_j [lnΓ(α_ij) - lnΓ(α_ij + N_ij)] + Σ_jk [lnΓ(α_ijk + N_ijk) - lnΓ(α_ijk)]`, where `j` ranges over the
configurations of the parents and `(j, k)` over those of the variable and its parents; `L` is `lnΓ`. -/
noncomputable def bdeuTerm (L : ℝ → ℝ) (data : List (List Int)) (sizes : List Int) (pa : Finset Nat) (v : Nat) : ℝ :=
  (∑ c ∈ configs sizes pa, (L (alpha sizes pa) - L (alpha sizes pa + countOf data pa c))) +
  ∑ c ∈ configs sizes (insert v pa), (L (alpha sizes (insert v pa) + countOf data (insert v pa) c) - L (alpha sizes (insert v pa)))

/-- The BDeu score of the variables `T` of a DAG. -/
noncomputable def bdeu (L : ℝ → ℝ) (data : List (List Int)) (sizes : List Int) (G : Dag Nat) (T : Finset Nat) : ℝ :=
  ∑ v ∈ T, bdeuTerm L data sizes (G.par v) v

end Score
end Verif
