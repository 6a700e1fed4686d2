import Verif.Lemmas.StatsData
import Verif.Props.ParCorr

/-!
# C83: the partial-correlation test on data
-/

namespace Verif

variable {data data' : List (List ℝ)}

/-- C83 (correlation matrix): for at least two records and columns that are not constant, the matrix the test is built on is symmetric with
unit diagonal, entries in [-1, 1], and positive semi-definite: a correlation matrix, to which C44 applies. -/
theorem C83_corr (h2 : 2 ≤ data.length) {m : Nat} (hm : ∀ v < m, ¬ ConstantCol data v) :
    (∀ a < m, ∀ b < m, ∃ c, corrcoef data a b = some c ∧ corrcoef data b a = some c ∧ |c| ≤ 1) ∧ (∀ a < m, corrcoef data a a = some 1) ∧
    (Matrix.of fun i j : Fin m => (corrcoef data i j).getD 0).PosSemidef := by
  have hv : ∀ v < m, covOf data v v ≠ 0 := fun v hv h => hm v hv ((covOf_self_eq_zero h2).mp h)
  have hpos : ∀ v < m, 0 < Real.sqrt (covOf data v v) := fun v h =>
    Real.sqrt_pos.mpr (lt_of_le_of_ne (covOf_self_nonneg v) (hv v h).symm)
  refine ⟨fun a ha b hb => ⟨_, corrcoef_some (hv a ha) (hv b hb), ?_, corr_abs_le a b⟩, fun a ha => ?_, ?_⟩
  · rw [corrcoef_some (hv b hb) (hv a ha), covOf_symm b a, div_right_comm]
  · rw [corrcoef_some (hv a ha) (hv a ha), div_div, Real.mul_self_sqrt (covOf_self_nonneg a), div_self (hv a ha)]
  · have hent : ∀ i j : Fin m, (corrcoef data i j).getD 0 =
        covOf data i j / Real.sqrt (covOf data i i) / Real.sqrt (covOf data j j) := fun i j => by
      rw [corrcoef_some (hv i i.2) (hv j j.2)]; rfl
    refine Matrix.PosSemidef.of_dotProduct_mulVec_nonneg ?_ fun v => ?_
    · ext i j
      simp only [Matrix.conjTranspose_apply, Matrix.of_apply, star_trivial, hent, covOf_symm (j : Nat) i]
      rw [div_right_comm]
    · have := covOf_quad (data := data) (fun i : Fin m => (i : Nat)) (fun i => v i / Real.sqrt (covOf data i i))
      refine le_of_le_of_eq this ?_
      simp only [dotProduct, Matrix.mulVec, Matrix.of_apply, hent, Finset.mul_sum, Pi.star_apply, star_trivial]
      refine Finset.sum_congr rfl fun i _ => Finset.sum_congr rfl fun j _ => ?_
      have h1 := (hpos i i.2).ne'
      have h2 := (hpos j j.2).ne'
      field_simp

theorem parCorrData_eq {cdf : ℝ → ℝ} {nanInv : Nat → Nat → List Nat → Py (WithBot ℝ)} {x y : Nat} {zz : List Nat}
    (h : ∀ v ∈ x :: y :: zz, covOf data v v ≠ 0) :
    parCorrData cdf nanInv data x y zz = parCorrStatistic cdf data.length (fun a b => (corrcoef data a b).getD 0) x y zz := by
  unfold parCorrData
  rw [if_pos fun v hv => corrcoef_isSome.mpr (h v hv)]

/-- The statistic with integer labels, as the cache uses them. -/
noncomputable def parCorrQuery (cdf : ℝ → ℝ) (nanInv : Nat → Nat → List Nat → Py (WithBot ℝ)) (data : List (List ℝ)) (x y : Int)
    (zz : List Int) : Py (WithBot ℝ) :=
  parCorrData cdf nanInv data x.toNat y.toNat (zz.map Int.toNat)

theorem query_lt {m : Nat} {x y : Int} {zz : List Int} (hv : ValidQuery m x y zz) :
    ∀ v ∈ x.toNat :: y.toNat :: zz.map Int.toNat, v < m := by
  obtain ⟨⟨a1, a2, a3, a4, _⟩, _, a6⟩ := hv
  intro v hv
  simp only [List.mem_cons, List.mem_map] at hv
  rcases hv with rfl | rfl | ⟨z, hz, rfl⟩
  · omega
  · omega
  · have := a6 z hz
    omega

theorem corr_symm (a b : Nat) : (corrcoef data a b).getD 0 = (corrcoef data b a).getD 0 := by
  unfold corrcoef
  rw [covOf_symm b a, div_right_comm]
  by_cases h : covOf data a a = 0 ∨ covOf data b b = 0
  · rw [if_pos h, if_pos h.symm]
  · rw [if_neg h, if_neg fun h' => h h'.symm]

theorem parCorrQuery_symm {m : Nat} (hv : ∀ v < m, covOf data v v ≠ 0) (cdf : ℝ → ℝ) (nanInv : Nat → Nat → List Nat → Py (WithBot ℝ)) :
    SymTest m (parCorrQuery cdf nanInv data) := by
  intro x y zz hq
  have key := query_lt hq
  have e : ∀ {x y zz}, ValidQuery m x y zz → parCorrQuery cdf nanInv data x y zz =
      parCorrStatistic cdf data.length (fun a b => (corrcoef data a b).getD 0) x.toNat y.toNat (zz.map Int.toNat) :=
    fun h => parCorrData_eq fun v hv' => hv v (query_lt h v hv')
  rw [e hq]
  refine ⟨?_, fun zz' hp => ?_⟩
  · rw [e hq.symm]
    exact (C44_symm cdf data.length corr_symm _ _ _).1
  · rw [e (hq.perm hp)]
    exact (C44_symm cdf data.length corr_symm _ _ _).2 _ (hp.map _)

theorem pureAnswers_congr {m : Nat} {f g : Int → Int → List Int → Py Bool} (h : ∀ x y zz, ValidQuery m x y zz → f x y zz = g x y zz) :
    ∀ (ops : List CiOp), (∀ x y zz, CiOp.query x y zz ∈ ops → ValidQuery m x y zz) → pureAnswers f ops = pureAnswers g ops := by
  intro ops
  induction ops with
  | nil => intro _; rfl
  | cons op ops ih =>
    intro hops
    have ih := ih fun x y zz h => hops x y zz (List.mem_cons_of_mem _ h)
    cases op with
    | delete x y zz => exact ih
    | query x y zz =>
      simp only [pureAnswers]
      rw [ih, h x y zz (hops x y zz (by simp))]

/-- C83 (units): if every column is given in other units (multiplied by a factor other than zero, possibly negative, and shifted), the
test gives the same answers, in every history of queries and deletions, with or without cache and counter, for every threshold that
is not negative. -/
theorem C83_units {m : Nat} {k c : Nat → ℝ} (hr : Rescaled m k c data data') (hk : ∀ v < m, k v ≠ 0) (h2 : 2 ≤ data.length)
    (hm : ∀ v < m, ¬ ConstantCol data v) (cdf : ℝ → ℝ) (nanInv nanInv' : Nat → Nat → List Nat → Py (WithBot ℝ)) {t : ℝ} (ht : 0 ≤ t)
    (U : UGraph Int) (hU : ∀ x, x ∈ U.nodes ↔ 0 ≤ x ∧ x < m) (ops : List CiOp)
    (hops : ∀ x y zz, CiOp.query x y zz ∈ ops → ValidQuery m x y zz) (countTests useCache countTests' useCache' : Bool) :
    answers (statCondIndep U (parCorrQuery cdf nanInv' data') (t : WithBot ℝ)) (CiState.init m countTests' useCache') ops =
      answers (statCondIndep U (parCorrQuery cdf nanInv data) (t : WithBot ℝ)) (CiState.init m countTests useCache) ops := by
  have hv : ∀ v < m, covOf data v v ≠ 0 := fun v hv h => hm v hv ((covOf_self_eq_zero h2).mp h)
  have hv' : ∀ v < m, covOf data' v v ≠ 0 := fun v h => by
    rw [hr.cov h h]
    exact mul_ne_zero (mul_ne_zero (hk v h) (hk v h)) (hv v h)
  rw [(C39_statistic (parCorrQuery_symm hv cdf nanInv) _ U hU ops hops countTests useCache).1,
    (C39_statistic (parCorrQuery_symm hv' cdf nanInv') _ U hU ops hops countTests' useCache').1]
  refine pureAnswers_congr (fun x y zz hq => ?_) ops hops
  simp only [pDecision]
  split_ifs
  · rfl
  have hlt := query_lt hq
  rw [parCorrQuery, parCorrQuery, parCorrData_eq fun v h => hv v (hlt v h), parCorrData_eq fun v h => hv' v (hlt v h), hr.length]
  refine parCorr_sign (s := fun v => k v / |k v|) (fun a ha => ?_) (fun a ha b hb => ?_) (fun a ha b hb => ?_) cdf data.length ht
  · have := hk a (hlt a ha)
    rcases lt_or_gt_of_ne this with h | h
    · right
      rw [abs_of_neg h, div_neg, div_self this]
    · left
      rw [abs_of_pos h, div_self this]
  · have ha := hlt a ha
    have hb := hlt b hb
    rw [corrcoef_some (hv a ha) (hv b hb), corrcoef_some (hv' a ha) (hv' b hb), hr.cov ha hb, hr.cov ha ha, hr.cov hb hb]
    simp only [Option.getD_some]
    rw [Real.sqrt_mul (mul_self_nonneg _), Real.sqrt_mul (mul_self_nonneg _), Real.sqrt_mul_self_eq_abs, Real.sqrt_mul_self_eq_abs]
    simp only [div_eq_mul_inv, mul_inv]
    ring
  · have ha := hlt a ha
    have hb := hlt b hb
    rw [corrcoef_some (hv a ha) (hv b hb)]
    exact corr_abs_le a b

theorem cov_perm (h : data.Perm data') (a b : Nat) : covOf data a b = covOf data' a b := by
  have hm : ∀ v, colMean data v = colMean data' v := fun v => by
    rw [colMean, colMean, h.length_eq, (h.map _).sum_eq]
  rw [covOf, covOf, h.length_eq, hm a, hm b, (h.map _).sum_eq]

/-- C83 (records): the statistic does not depend on the order of the records. -/
theorem C83_records (h : data.Perm data') (cdf : ℝ → ℝ) (nanInv : Nat → Nat → List Nat → Py (WithBot ℝ)) (x y : Nat) (zz : List Nat) :
    parCorrData cdf nanInv data x y zz = parCorrData cdf nanInv data' x y zz := by
  have e : ∀ a b, corrcoef data a b = corrcoef data' a b := fun a b => by
    simp only [corrcoef, cov_perm h]
  simp only [parCorrData, e, h.length_eq]

/-- C83, a disagreement: a variable that does not vary is reported dependent on every other variable, without or with one conditioning
variable, for every data set and every threshold that is not negative (the correlation is NaN, which is above no threshold). -/
theorem C83_constant {x y : Nat} (h : ConstantCol data x ∨ ConstantCol data y) (h2 : 2 ≤ data.length) (cdf : ℝ → ℝ)
    (nanInv : Nat → Nat → List Nat → Py (WithBot ℝ)) {t : ℝ} (ht : 0 ≤ t) {zz : List Nat} (hz : zz.length ≤ 1) :
    ∃ p, parCorrData cdf nanInv data x y zz = .ok p ∧ ¬ (t : WithBot ℝ) < p := by
  have hn : ¬ ∀ v ∈ x :: y :: zz, (corrcoef data v v).isSome := by
    intro hall
    rcases h with h | h
    · exact corrcoef_isSome.mp (hall x (by simp)) ((covOf_self_eq_zero h2).mpr h)
    · exact corrcoef_isSome.mp (hall y (by simp)) ((covOf_self_eq_zero h2).mpr h)
  unfold parCorrData
  rw [if_neg hn]
  match zz, hz with
  | [], _ => exact ⟨⊥, rfl, by simp⟩
  | [z], _ =>
    simp only
    split_ifs
    · exact ⟨_, rfl, by rw [WithBot.coe_lt_coe]; linarith⟩
    · exact ⟨⊥, rfl, by simp⟩

/-- C83 (uncorrelated): two columns without sample covariance are reported independent, for every threshold below 1, if there are at
least three records (and the distribution function is 1/2 at 0). -/
theorem C83_uncorrelated {x y : Nat} (hx : ¬ ConstantCol data x) (hy : ¬ ConstantCol data y) (h3 : 3 ≤ data.length)
    (h0 : covOf data x y = 0) {cdf : ℝ → ℝ} (hc : cdf 0 = 1 / 2) (nanInv : Nat → Nat → List Nat → Py (WithBot ℝ)) :
    parCorrData cdf nanInv data x y [] = .ok (1 : ℝ) := by
  have hvx : covOf data x x ≠ 0 := fun h => hx ((covOf_self_eq_zero (by omega)).mp h)
  have hvy : covOf data y y ≠ 0 := fun h => hy ((covOf_self_eq_zero (by omega)).mp h)
  rw [parCorrData_eq (by simp [hvx, hvy]), parCorrStatistic, parCorr]
  have e : (corrcoef data x y).getD 0 = 0 := by
    rw [corrcoef_some hvx hvy, h0]
    simp
  have hdof : ¬ ((data.length : ℝ) - (((0 : ℕ) : ℝ) + 2) - 1 < 0) := by
    have : (3 : ℝ) ≤ data.length := by exact_mod_cast h3
    push_cast
    linarith
  simp only [e]
  rw [if_neg (by norm_num)]
  simp only [Except.map, fisherP, List.length_nil, abs_zero]
  rw [if_neg (by norm_num), if_neg hdof]
  simp only [mul_zero, sub_zero, zero_div, add_zero, Real.log_one, abs_zero, hc]
  norm_num

/-- A data set with three records; the first column is not constant, the last one is. -/
def exObs : List (List ℝ) := [[0, 1, 5], [1, -1, 5], [2, 1, 5]]

example : 2 ≤ exObs.length ∧ (∀ v < 2, ¬ ConstantCol exObs v) ∧ ConstantCol exObs 2 ∧ covOf exObs 0 1 = 0 ∧
    Rescaled 2 (fun v => if v = 0 then -2 else 3) (fun _ => 7) exObs [[7, 10], [5, 4], [3, 10]] := by
  refine ⟨by simp [exObs], ?_, ?_, ?_, ?_⟩
  · intro v hv h
    have h := h [0, 1, 5] (by simp [exObs]) [1, -1, 5] (by simp [exObs])
    obtain rfl | rfl : v = 0 ∨ v = 1 := by omega
    · norm_num at h
    · norm_num at h
  · intro r hr r' hr'
    simp only [exObs, List.mem_cons, List.not_mem_nil, or_false] at hr hr'
    rcases hr with rfl | rfl | rfl <;> rcases hr' with rfl | rfl | rfl <;> rfl
  · norm_num [covOf, colMean, exObs]
  · refine .cons ?_ (.cons ?_ (.cons ?_ .nil)) <;> intro v hv <;> obtain rfl | rfl : v = 0 ∨ v = 1 := by omega
    all_goals norm_num

end Verif
