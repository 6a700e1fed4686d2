import Mathlib.LinearAlgebra.Matrix.Determinant.Basic
import Mathlib.Analysis.Real.Sqrt

/-!
# Specification of partial correlation

Partial correlation is the correlation of the residuals of the linear regressions on the conditioning variables. `C` is a
correlation (or covariance) matrix; no matrix inverse is used.
-/

namespace Verif

/-- `β` are the coefficients of the regression of variable `a` on the variables `zz` (normal equations). -/
def IsRegression (C : Nat → Nat → ℝ) (zz : List Nat) (a : Nat) (β : Fin zz.length → ℝ) : Prop :=
  ∀ i, ∑ j, C (zz.get i) (zz.get j) * β j = C (zz.get i) a

/-- Covariance of variable `b` with the residual of variable `a` for the coefficients `β`. For regression coefficients this is the
covariance of the residuals of `a` and `b`. -/
def resCov (C : Nat → Nat → ℝ) (zz : List Nat) (a : Nat) (β : Fin zz.length → ℝ) (b : Nat) : ℝ :=
  C a b - ∑ j, β j * C (zz.get j) b

/-- Correlation of the residuals of `x` and `y`. -/
noncomputable def resCorr (C : Nat → Nat → ℝ) (zz : List Nat) (x : Nat) (β : Fin zz.length → ℝ) (y : Nat)
    (γ : Fin zz.length → ℝ) : ℝ :=
  resCov C zz x β y / Real.sqrt (resCov C zz x β x * resCov C zz y γ y)

/-- The determinant of the correlation matrix of the variables `l`. -/
noncomputable def corrDet (C : Nat → Nat → ℝ) (l : List Nat) : ℝ :=
  (Matrix.of fun i j : Fin l.length => C (l.get i) (l.get j)).det

end Verif
