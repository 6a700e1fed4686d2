import Verif.Model.Stats

/-!
# Model of the partial-correlation test on data: `cond_indep_tests.py:294-345`

Real arithmetic; NaN is `none`.
-/

namespace Verif

/-- The mean of a column (`np.cov`, called by `np.corrcoef` in `cond_indep_tests.py:305`). -/
noncomputable def colMean (data : List (List ℝ)) (v : Nat) : ℝ := (data.map (fun r => r.getD v 0)).sum / data.length

/-- An entry of `np.cov(data, rowvar=False)` (`cond_indep_tests.py:305`): deviations from the means, divided by the number of records
minus one. For one record numpy gives NaN and this definition zero, which `corrcoef` turns into NaN. -/
noncomputable def covOf (data : List (List ℝ)) (a b : Nat) : ℝ :=
  (data.map (fun r => (r.getD a 0 - colMean data a) * (r.getD b 0 - colMean data b))).sum / (data.length - 1)

/-- `np.corrcoef(data, rowvar=False)` (`cond_indep_tests.py:305`): the covariances divided by the standard deviations and clipped to
[-1, 1]; a standard deviation of zero gives 0/0, that is NaN. -/
noncomputable def corrcoef (data : List (List ℝ)) (a b : Nat) : Option ℝ :=
  open Classical in
  if covOf data a a = 0 ∨ covOf data b b = 0 then none
  else some (max (-1) (min 1 (covOf data a b / Real.sqrt (covOf data a a) / Real.sqrt (covOf data b b))))

/-- `cond_indep_tests.py:308-345` (`CondIndepParCorr.calc_statistic`) on an object constructed from data. If a correlation involved is
NaN: comparisons are false and the result is NaN (`⊥`), unless the early return of line 319 applies; for two or more conditioning
variables `nanInv` stands for what `np.linalg.inv` makes of a matrix with NaN, which is not modelled. -/
noncomputable def parCorrData (cdf : ℝ → ℝ) (nanInv : Nat → Nat → List Nat → Py (WithBot ℝ)) (data : List (List ℝ)) (x y : Nat)
    (zz : List Nat) : Py (WithBot ℝ) :=
  open Classical in
  if ∀ v ∈ x :: y :: zz, (corrcoef data v v).isSome then
    parCorrStatistic cdf data.length (fun a b => (corrcoef data a b).getD 0) x y zz
  else match zz with
    | [] => .ok ⊥
    | [z] => if (∃ c ∈ corrcoef data x z, c ≥ 1) ∨ (∃ c ∈ corrcoef data y z, c ≥ 1) then .ok (0 : ℝ) else .ok ⊥
    | zz => nanInv x y zz

end Verif
