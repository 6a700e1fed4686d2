import Verif.Lemmas.ParCorr
import Verif.Props.CiTest
import Mathlib.Analysis.Matrix.PosDef
import Mathlib.Analysis.SpecialFunctions.Artanh
import Mathlib.Data.Matrix.Mul

/-! # Properties C44 and C45: partial correlation, covariance to correlation -/

namespace Verif

open Matrix

/-! ## C44 -/

/-- The correlation matrix of the variables `l` is positive definite. -/
def CorrPosDef (C : Nat → Nat → ℝ) (l : List Nat) : Prop :=
  (Matrix.of fun i j : Fin l.length => C (l.get i) (l.get j)).PosDef

theorem CorrPosDef.det {C : Nat → Nat → ℝ} {l : List Nat} (h : CorrPosDef C l) : 0 < (subMatrix C l).det := Matrix.PosDef.det_pos h

theorem CorrPosDef.tail {C : Nat → Nat → ℝ} {a : Nat} {l : List Nat} (h : CorrPosDef C (a :: l)) : CorrPosDef C l :=
  Matrix.PosDef.submatrix (e := (Fin.succ : Fin l.length → Fin (l.length + 1))) h (Fin.succ_injective _)

theorem CorrPosDef.lt_one {C : Nat → Nat → ℝ} (hC : ∀ a b, C a b = C b a) (h1 : ∀ a, C a a = 1) {a : Nat} {l : List Nat}
    (h : CorrPosDef C (a :: l)) {b : Nat} (hb : b ∈ l) : |C a b| < 1 := by
  obtain ⟨j, rfl⟩ := List.get_of_mem hb
  have hinj : Function.Injective ![(0 : Fin (l.length + 1)), j.succ] := by
    intro u v huv
    fin_cases u <;> fin_cases v
    · rfl
    · exact absurd huv.symm (Fin.succ_ne_zero j)
    · exact absurd huv (Fin.succ_ne_zero j)
    · rfl
  have hp := (Matrix.PosDef.submatrix h hinj).det_pos
  rw [det_fin_two] at hp
  change 0 < C a a * C (l.get j) (l.get j) - C a (l.get j) * C (l.get j) a at hp
  rw [h1, h1, hC (l.get j) a] at hp
  rw [abs_lt]
  constructor <;> nlinarith

/-- C44: for every correlation matrix whose restriction to the variables is positive definite, the quantity computed by each of the
three branches (no, one, more conditioning variables) is the correlation of the residuals of the regressions on the conditioning
variables; it equals the general inverse-matrix formula and lies strictly between -1 and 1. -/
theorem C44_residual {C : Nat → Nat → ℝ} (hC : ∀ a b, C a b = C b a) (h1 : ∀ a, C a a = 1) {x y : Nat} {zz : List Nat}
    (hp : CorrPosDef C (x :: y :: zz)) :
    (∃ β γ, IsRegression C zz x β ∧ IsRegression C zz y γ) ∧
    ∀ β γ, IsRegression C zz x β → IsRegression C zz y γ →
      parCorr C x y zz = .ok (some (.fin (resCorr C zz x β y γ))) ∧
      invParCorr C x y zz = .ok (.fin (resCorr C zz x β y γ)) ∧
      |resCorr C zz x β y γ| < 1 := by
  have hD := hp.tail.tail.det
  have hM := hp.det
  refine ⟨?_, fun β γ hβ hγ => ?_⟩
  · obtain ⟨β, hβ⟩ := regression_exists (C := C) (zz := zz) x hD.ne'
    obtain ⟨γ, hγ⟩ := regression_exists (C := C) (zz := zz) y hD.ne'
    exact ⟨β, γ, hβ, hγ⟩
  have e : resCorr C zz x β y γ = schur C zz x y / Real.sqrt (schur C zz x x * schur C zz y y) := by
    rw [resCorr, resCov_schur hC hβ hD.ne', resCov_schur hC hβ hD.ne', resCov_schur hC hγ hD.ne', schur_symm hC y x]
  obtain ⟨hpos, hinv⟩ := invParCorr_schur hC hD hM
  obtain ⟨hdet, -⟩ := inv_corner hC hD.ne' hM.ne'
  have hd : schur C zz x y ^ 2 < schur C zz x x * schur C zz y y := by
    rw [hdet] at hM
    have := (mul_pos_iff_of_pos_left hD).1 hM
    linarith
  rw [e]
  refine ⟨parCorr_schur hC h1 hD hM ⟨?_, fun z hz => ⟨?_, ?_⟩⟩, hinv, ?_⟩
  · exact (abs_lt.1 (hp.lt_one hC h1 (by simp))).2
  · exact (abs_lt.1 (hp.lt_one hC h1 (by simp [hz]))).2
  · exact (abs_lt.1 (hp.tail.lt_one hC h1 hz)).2
  · rw [abs_div, abs_of_pos (Real.sqrt_pos.2 hpos), div_lt_one (Real.sqrt_pos.2 hpos), ← Real.sqrt_sq_eq_abs]
    exact Real.sqrt_lt_sqrt (sq_nonneg _) hd

/-- C44 (p-value): with at least `len(zz) + 3` records the statistic is twice the upper tail at `√(n - len(zz) - 3) · |artanh r|`;
with fewer records it is NaN, and the variables are never reported independent. -/
theorem C44_pvalue (cdf : ℝ → ℝ) (n : Nat) {C : Nat → Nat → ℝ} {x y : Nat} {zz : List Nat} {r : ℝ}
    (hr : parCorr C x y zz = .ok (some (.fin r))) (hlt : |r| < 1) :
    (zz.length + 3 ≤ n → parCorrStatistic cdf n C x y zz =
      .ok ((2 * (1 - cdf (Real.sqrt (n - zz.length - 3) * |Real.artanh r|)) : ℝ) : WithBot ℝ)) ∧
    (n < zz.length + 3 → ∃ s, parCorrStatistic cdf n C x y zz = .ok s ∧ ∀ t : ℝ, ¬ (t : WithBot ℝ) < s) := by
  obtain ⟨h1, h2⟩ := abs_lt.1 hlt
  have hdof : ((n : ℝ) - (zz.length + 2)) - 1 = n - zz.length - 3 := by ring
  have hz : 1 / 2 * Real.log (1 + 2 * r / (1 - r)) = Real.artanh r := by
    rw [Real.artanh_eq_half_log ⟨h1.le, h2.le⟩]
    congr 2
    have : 1 - r ≠ 0 := by linarith
    field_simp
    ring
  rw [parCorrStatistic, hr]
  simp only [Except.map, fisherP, hz, hdof, ge_iff_le, not_le.2 hlt, if_false]
  constructor
  · intro hn
    have : (zz.length : ℝ) + 3 ≤ n := by exact_mod_cast hn
    rw [if_neg (by linarith), abs_mul, abs_of_nonneg (Real.sqrt_nonneg _)]
  · intro hn
    have : (n : ℝ) < zz.length + 3 := by exact_mod_cast hn
    rw [if_pos (by linarith)]
    exact ⟨⊥, rfl, fun t h => absurd h not_lt_bot⟩

/-- C44 (monotone): for a monotone distribution function a larger partial correlation never has a larger p-value. -/
theorem C44_monotone {cdf : ℝ → ℝ} (hc : Monotone cdf) (n : Nat) {C C' : Nat → Nat → ℝ} {x y x' y' : Nat} {zz zz' : List Nat}
    {r r' : ℝ} (hr : parCorr C x y zz = .ok (some (.fin r))) (hr' : parCorr C' x' y' zz' = .ok (some (.fin r')))
    (hlen : zz.length = zz'.length) (hle : |r| ≤ |r'|) (hlt : |r'| < 1) :
    ∃ s s', parCorrStatistic cdf n C x y zz = .ok s ∧ parCorrStatistic cdf n C' x' y' zz' = .ok s' ∧ s' ≤ s := by
  have hlt0 := lt_of_le_of_lt hle hlt
  have habs : ∀ r : ℝ, |r| < 1 → |Real.artanh r| = Real.artanh |r| := by
    intro r h
    rcases le_total 0 r with h0 | h0
    · rw [abs_of_nonneg h0, abs_of_nonneg (Real.artanh_nonneg h0)]
    · rw [abs_of_nonpos h0, abs_of_nonpos (Real.artanh_nonpos h0)]
      rw [abs_of_nonpos h0] at h
      rw [Real.artanh_eq_half_log ⟨by linarith, by linarith⟩, Real.artanh_eq_half_log ⟨by linarith, by linarith⟩]
      have e : (1 + -r) / (1 - -r) = ((1 + r) / (1 - r))⁻¹ := by rw [inv_div, sub_neg_eq_add]; rfl
      rw [e, Real.log_inv]; ring
  by_cases hn : zz.length + 3 ≤ n
  · refine ⟨_, _, (C44_pvalue cdf n hr hlt0).1 hn, (C44_pvalue cdf n hr' hlt).1 (hlen ▸ hn), ?_⟩
    rw [WithBot.coe_le_coe, ← hlen]
    have : Real.sqrt (n - zz.length - 3) * |Real.artanh r| ≤ Real.sqrt (n - zz.length - 3) * |Real.artanh r'| := by
      refine mul_le_mul_of_nonneg_left ?_ (Real.sqrt_nonneg _)
      rw [habs r hlt0, habs r' hlt]
      exact Real.artanh_le_artanh (by linarith [abs_nonneg r]) hlt hle
    have := hc this
    linarith
  · obtain ⟨s, h1, h2⟩ := (C44_pvalue cdf n hr hlt0).2 (by omega)
    obtain ⟨s', h3, h4⟩ := (C44_pvalue cdf n hr' hlt).2 (by omega)
    refine ⟨s, s', h1, h3, ?_⟩
    cases s' with
    | bot => exact bot_le
    | coe a => exact absurd (WithBot.coe_lt_coe.2 (by linarith : a - 1 < a)) (h4 (a - 1))

/-- C44 (symmetry): for every symmetric matrix, singular or not, the statistic is symmetric in x and y and does not depend on the
order of the conditioning variables. -/
theorem C44_symm (cdf : ℝ → ℝ) (n : Nat) {C : Nat → Nat → ℝ} (hC : ∀ a b, C a b = C b a) (x y : Nat) (zz : List Nat) :
    parCorrStatistic cdf n C x y zz = parCorrStatistic cdf n C y x zz ∧
    ∀ zz', zz.Perm zz' → parCorrStatistic cdf n C x y zz = parCorrStatistic cdf n C x y zz' := by
  constructor
  · rw [parCorrStatistic, parCorrStatistic, parCorr_symm hC]
  · intro zz' h
    rw [parCorrStatistic, parCorrStatistic, parCorr_perm C x y h, h.length_eq]

/-- C44 with C39: answers of the partial-correlation test do not depend on caching. -/
theorem C44_cached (cdf : ℝ → ℝ) (n m : Nat) {C : Nat → Nat → ℝ} (hC : ∀ a b, C a b = C b a) (t : WithBot ℝ) (U : UGraph Int)
    (hU : ∀ x, x ∈ U.nodes ↔ 0 ≤ x ∧ x < m) (ops : List CiOp)
    (hops : ∀ x y zz, CiOp.query x y zz ∈ ops → ValidQuery m x y zz) (countTests : Bool) :
    let stat := fun (x y : Int) (zz : List Int) => parCorrStatistic cdf n C x.toNat y.toNat (zz.map Int.toNat)
    answers (statCondIndep U stat t) (CiState.init m countTests true) ops =
      answers (statCondIndep U stat t) (CiState.init m countTests false) ops := by
  intro stat
  have hsym : SymTest m stat := fun x y zz _ =>
    ⟨(C44_symm cdf n hC _ _ _).1, fun zz' hp => (C44_symm cdf n hC _ _ _).2 _ (hp.map _)⟩
  rw [(C39_statistic hsym t U hU ops hops countTests true).1, (C39_statistic hsym t U hU ops hops countTests false).1]

/-- All variables have correlation one half. -/
noncomputable def exCorr (a b : Nat) : ℝ := if a = b then 1 else 1 / 2

/-- Hypotheses of C44 are met for two conditioning variables. -/
example : (∀ a b, exCorr a b = exCorr b a) ∧ (∀ a, exCorr a a = 1) ∧ CorrPosDef exCorr [4, 7, 2, 0] := by
  refine ⟨fun a b => by simp [exCorr, eq_comm], fun a => by simp [exCorr], ?_⟩
  refine Matrix.PosDef.of_dotProduct_mulVec_pos ?_ fun v hv => ?_
  · ext i j; fin_cases i <;> fin_cases j <;> simp [exCorr]
  · change 0 < ∑ i : Fin 4, v i * ∑ j : Fin 4, exCorr ([4, 7, 2, 0].get i) ([4, 7, 2, 0].get j) * v j
    simp only [Fin.sum_univ_four]
    have hne : ∃ i : Fin 4, v i ≠ 0 := by
      by_contra h
      push Not at h
      exact hv (funext h)
    have hpos : 0 < v (0 : Fin 4) ^ 2 + v (1 : Fin 4) ^ 2 + v (2 : Fin 4) ^ 2 + v (3 : Fin 4) ^ 2 := by
      obtain ⟨i, hi⟩ := hne
      have h2 := sq_pos_of_ne_zero hi
      have a0 := sq_nonneg (v (0 : Fin 4))
      have a1 := sq_nonneg (v (1 : Fin 4))
      have a2 := sq_nonneg (v (2 : Fin 4))
      have a3 := sq_nonneg (v (3 : Fin 4))
      fin_cases i <;> simp only at h2 <;> (first | linarith | (simp at h2; linarith))
    have e : v (0 : Fin 4) * (exCorr 4 4 * v (0 : Fin 4) + exCorr 4 7 * v (1 : Fin 4) + exCorr 4 2 * v (2 : Fin 4) + exCorr 4 0 * v (3 : Fin 4)) +
        v (1 : Fin 4) * (exCorr 7 4 * v (0 : Fin 4) + exCorr 7 7 * v (1 : Fin 4) + exCorr 7 2 * v (2 : Fin 4) + exCorr 7 0 * v (3 : Fin 4)) +
        v (2 : Fin 4) * (exCorr 2 4 * v (0 : Fin 4) + exCorr 2 7 * v (1 : Fin 4) + exCorr 2 2 * v (2 : Fin 4) + exCorr 2 0 * v (3 : Fin 4)) +
        v (3 : Fin 4) * (exCorr 0 4 * v (0 : Fin 4) + exCorr 0 7 * v (1 : Fin 4) + exCorr 0 2 * v (2 : Fin 4) + exCorr 0 0 * v (3 : Fin 4)) =
        1 / 2 * (v (0 : Fin 4) ^ 2 + v (1 : Fin 4) ^ 2 + v (2 : Fin 4) ^ 2 + v (3 : Fin 4) ^ 2) +
        1 / 2 * (v (0 : Fin 4) + v (1 : Fin 4) + v (2 : Fin 4) + v (3 : Fin 4)) ^ 2 := by
      norm_num [exCorr]; ring
    refine lt_of_lt_of_eq ?_ e.symm
    have := sq_nonneg (v (0 : Fin 4) + v (1 : Fin 4) + v (2 : Fin 4) + v (3 : Fin 4))
    linarith

/-! ## C45 -/

/-- C45: `cov_to_corr` raises exactly if a standard deviation is not above 1e-8; otherwise, for every positive semi-definite
matrix, the result has entries `C i j / (√C i i √C j j)`, is symmetric with unit diagonal and entries in [-1, 1], and is again
positive semi-definite; it is a fixed point. -/
theorem C45_cov_to_corr {n : Nat} {C : Nat → Nat → ℝ} (hp : (Matrix.of fun i j : Fin n => C i j).PosSemidef) :
    (covToCorr n C = .error .assertionError ↔ ∃ i < n, Real.sqrt (C i i) ≤ 1e-8) ∧
    ((∀ i < n, Real.sqrt (C i i) > 1e-8) → ∃ R, covToCorr n C = .ok R ∧
      (∀ i < n, ∀ j < n, R i j = C i j / (Real.sqrt (C i i) * Real.sqrt (C j j)) ∧ R i j = R j i ∧ R i i = 1 ∧ |R i j| ≤ 1) ∧
      (Matrix.of fun i j : Fin n => R i j).PosSemidef ∧
      ∃ R', covToCorr n R = .ok R' ∧ ∀ i < n, ∀ j < n, R' i j = R i j) := by
  constructor
  · rw [covToCorr]
    by_cases h : ∀ i < n, Real.sqrt (C i i) > 1e-8
    · rw [if_pos h]
      constructor
      · intro h'; cases h'
      · rintro ⟨i, hi, h'⟩; exact absurd (h i hi) (not_lt.2 h')
    · rw [if_neg h]
      push Not at h
      simpa using h
  · intro h
    have hs : ∀ i < n, 0 < Real.sqrt (C i i) := fun i hi => lt_trans (by norm_num) (h i hi)
    have hsym : ∀ i < n, ∀ j < n, C i j = C j i := by
      intro i hi j hj
      have := congrFun (congrFun hp.isHermitian ⟨j, hj⟩) ⟨i, hi⟩
      simpa using this
    have hdiag : ∀ i < n, 0 < C i i := fun i hi => Real.sqrt_pos.1 (hs i hi)
    have hcs : ∀ i < n, ∀ j < n, C i j ^ 2 ≤ C i i * C j j := by
      intro i hi j hj
      have := (hp.submatrix ![⟨i, hi⟩, ⟨j, hj⟩]).det_nonneg
      rw [det_fin_two] at this
      change 0 ≤ C i i * C j j - C i j * C j i at this
      rw [← hsym i hi j hj] at this
      nlinarith
    have hval : ∀ i < n, ∀ j < n, C i j * (1 / Real.sqrt (C j j)) * (1 / Real.sqrt (C i i)) =
        C i j / (Real.sqrt (C i i) * Real.sqrt (C j j)) := by
      intro i hi j hj
      have h1 := (hs i hi).ne'
      have h2 := (hs j hj).ne'
      field_simp
    have hone : ∀ i < n, C i i * (1 / Real.sqrt (C i i)) * (1 / Real.sqrt (C i i)) = 1 := by
      intro i hi
      rw [hval i hi i hi, Real.mul_self_sqrt (hdiag i hi).le, div_self (hdiag i hi).ne']
    refine ⟨_, by rw [covToCorr, if_pos h], fun i hi j hj => ⟨hval i hi j hj, ?_, hone i hi, ?_⟩, ?_, ?_⟩
    · rw [hval i hi j hj, hval j hj i hi, hsym i hi j hj, mul_comm (Real.sqrt (C i i))]
    · rw [hval i hi j hj, abs_div, abs_of_pos (mul_pos (hs i hi) (hs j hj)), div_le_one (mul_pos (hs i hi) (hs j hj)),
        ← Real.sqrt_sq_eq_abs, ← Real.sqrt_mul (hdiag i hi).le]
      exact Real.sqrt_le_sqrt (hcs i hi j hj)
    · have := hp.conjTranspose_mul_mul_same (Matrix.diagonal fun i : Fin n => 1 / Real.sqrt (C i i))
      convert this using 1
      ext i j
      rw [Matrix.diagonal_conjTranspose, Matrix.mul_diagonal, Matrix.diagonal_mul]
      simp only [Matrix.of_apply, Pi.star_apply, star_trivial]
      ring
    · have h1 : ∀ i < n, Real.sqrt (C i i * (1 / Real.sqrt (C i i)) * (1 / Real.sqrt (C i i))) = 1 := fun i hi => by
        rw [hone i hi, Real.sqrt_one]
      refine ⟨_, by rw [covToCorr, if_pos (fun i hi => by rw [h1 i hi]; norm_num)], fun i hi j hj => ?_⟩
      rw [h1 i hi, h1 j hj, div_one, mul_one, mul_one]

/-- A covariance matrix with variances 4 and 9 meets the hypotheses. -/
example : ∃ C : Nat → Nat → ℝ, (Matrix.of fun i j : Fin 2 => C i j).PosSemidef ∧ (∀ i < 2, Real.sqrt (C i i) > 1e-8) ∧
    C 0 1 = 3 := by
  refine ⟨fun i j => if i = j then (if i = 0 then 4 else 9) else 3, ?_, ?_, by simp⟩
  · refine Matrix.PosSemidef.of_dotProduct_mulVec_nonneg ?_ fun v => ?_
    · ext i j; fin_cases i <;> fin_cases j <;> simp
    · simp only [dotProduct, mulVec, Fin.sum_univ_two, Matrix.of_apply]
      simp
      nlinarith [sq_nonneg (v 0 + v 1), sq_nonneg (v 0), sq_nonneg (v 1)]
  · intro i hi
    have : (1 : ℝ) ≤ Real.sqrt (if i = 0 then 4 else 9) := by
      rw [Real.one_le_sqrt]; split_ifs <;> norm_num
    simp only [if_true]
    exact lt_of_lt_of_le (by norm_num) this

end Verif
