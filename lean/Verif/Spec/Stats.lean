import Mathlib.Analysis.SpecialFunctions.Log.Basic

/-!
# Specification of counts and of empirical conditional mutual information

Independent of the model: a record is a list of values; weights are carried along with the records.
-/

namespace Verif

/-- Total weight of the records that satisfy a predicate. -/
noncomputable def weightOf (recs : List (List Int × ℝ)) (p : List Int → Prop) : ℝ :=
  open Classical in
  ((recs.filter (fun r => decide (p r.1))).map Prod.snd).sum

/-- Two records agree on the columns `S`. -/
def AgreeOn (S : List Nat) (r s : List Int) : Prop := ∀ v ∈ S, r[v]? = s[v]?

/-- Empirical conditional mutual information of columns `x` and `y` given columns `zz`: the weighted mean, over the records, of
`log (n(x,y,z) n(z) / (n(x,z) n(y,z)))`, where `n(·)` is the weight of the records agreeing on these columns. -/
noncomputable def empiricalCmi (recs : List (List Int × ℝ)) (x y : Nat) (zz : List Nat) : ℝ :=
  (recs.map (fun r => r.2 * Real.log
    (weightOf recs (AgreeOn (x :: y :: zz) r.1) * weightOf recs (AgreeOn zz r.1) /
      (weightOf recs (AgreeOn (x :: zz) r.1) * weightOf recs (AgreeOn (y :: zz) r.1))))).sum / recs.length

/-- The empirical distribution factorises: columns `x` and `y` are independent given `zz`. For every combination of values the
weight of the records is as expected from the marginals. -/
def EmpiricalIndep (recs : List (List Int × ℝ)) (x y : Nat) (zz : List Nat) : Prop :=
  ∀ a b : Int, ∀ c : List Int,
    weightOf recs (fun r => r[x]? = some a ∧ r[y]? = some b ∧ AgreeOn zz r c) * weightOf recs (fun r => AgreeOn zz r c) =
    weightOf recs (fun r => r[x]? = some a ∧ AgreeOn zz r c) * weightOf recs (fun r => r[y]? = some b ∧ AgreeOn zz r c)

/-- Every value of the record is inside the given size. -/
def InSizes : List Int → List Int → Prop
  | [], [] => True
  | v :: vs, s :: ss => (0 ≤ v ∧ v < s) ∧ InSizes vs ss
  | _, _ => False

/-- Mixed-radix number of a combination of values: the first variable is the fastest. -/
def radix : List Int → List Int → Int
  | v :: vs, s :: ss => v + s * radix vs ss
  | _, _ => 0

end Verif
