import Verif.Model.StatsData
import Verif.Spec.StatsData
import Verif.Lemmas.ParCorr
import Mathlib.Analysis.Matrix.PosDef
import Mathlib.Algebra.BigOperators.Group.List.Basic
import Mathlib.LinearAlgebra.Matrix.NonsingularInverse

/-!
# Lemmas about correlations of data
-/

namespace Verif

variable {data data' : List (List ℝ)}

/-! ### sums over records -/

theorem sum_map_mul_left' (l : List (List ℝ)) (f : List ℝ → ℝ) (c : ℝ) : (l.map (fun r => c * f r)).sum = c * (l.map f).sum := by
  induction l with
  | nil => simp
  | cons a l ih => simp [ih, mul_add]

theorem sum_map_add' (l : List (List ℝ)) (f g : List ℝ → ℝ) : (l.map (fun r => f r + g r)).sum = (l.map f).sum + (l.map g).sum := by
  induction l with
  | nil => simp
  | cons a l ih => simp only [List.map_cons, List.sum_cons, ih]; ring

theorem sum_map_const' (l : List (List ℝ)) (c : ℝ) : (l.map (fun _ => c)).sum = l.length * c := by
  induction l with
  | nil => simp
  | cons a l ih => simp only [List.map_cons, List.sum_cons, ih, List.length_cons]; push_cast; ring

theorem sum_map_nonneg' {l : List (List ℝ)} {f : List ℝ → ℝ} (h : ∀ r ∈ l, 0 ≤ f r) : 0 ≤ (l.map f).sum :=
  List.sum_nonneg (by simpa using h)

theorem sum_map_eq_zero {l : List (List ℝ)} {f : List ℝ → ℝ} (h : ∀ r ∈ l, 0 ≤ f r) (h0 : (l.map f).sum = 0) : ∀ r ∈ l, f r = 0 := by
  induction l with
  | nil => simp
  | cons a l ih =>
    have h1 := h a (by simp)
    have h2 : 0 ≤ (l.map f).sum := sum_map_nonneg' fun r hr => h r (List.mem_cons_of_mem _ hr)
    simp only [List.map_cons, List.sum_cons] at h0
    intro r hr
    rcases List.mem_cons.mp hr with rfl | hr
    · linarith
    · exact ih (fun r hr => h r (List.mem_cons_of_mem _ hr)) (by linarith) r hr

theorem sum_map_fin {k : Nat} (l : List (List ℝ)) (f : Fin k → List ℝ → ℝ) :
    (l.map (fun r => ∑ i, f i r)).sum = ∑ i, (l.map (f i)).sum := by
  induction l with
  | nil => simp
  | cons a l ih => simp [ih, Finset.sum_add_distrib]

/-! ### covariances -/

theorem covOf_symm (a b : Nat) : covOf data a b = covOf data b a := by
  simp only [covOf, mul_comm]

theorem denom_nonneg (h : data ≠ []) : (0 : ℝ) ≤ data.length - 1 := by
  have : 1 ≤ data.length := List.length_pos_iff.mpr h
  have : (1 : ℝ) ≤ data.length := by exact_mod_cast this
  linarith

/-- Variances and covariances are a Gram matrix. -/
theorem covOf_quad {k : Nat} (e : Fin k → Nat) (v : Fin k → ℝ) : 0 ≤ ∑ i, ∑ j, v i * v j * covOf data (e i) (e j) := by
  rcases eq_or_ne data [] with rfl | hne
  · simp [covOf]
  have : ∑ i, ∑ j, v i * v j * covOf data (e i) (e j) =
      (data.map (fun r => (∑ i, v i * (r.getD (e i) 0 - colMean data (e i))) * (∑ j, v j * (r.getD (e j) 0 - colMean data (e j))))).sum /
        (data.length - 1) := by
    simp only [Finset.sum_mul_sum]
    rw [sum_map_fin data (fun i r => ∑ j, v i * (r.getD (e i) 0 - colMean data (e i)) * (v j * (r.getD (e j) 0 - colMean data (e j)))),
      Finset.sum_div]
    refine Finset.sum_congr rfl fun i _ => ?_
    rw [sum_map_fin data (fun j r => v i * (r.getD (e i) 0 - colMean data (e i)) * (v j * (r.getD (e j) 0 - colMean data (e j)))),
      Finset.sum_div]
    refine Finset.sum_congr rfl fun j _ => ?_
    rw [covOf, ← mul_div_assoc, ← sum_map_mul_left']
    congr 2
    refine List.map_congr_left fun r _ => ?_
    ring
  rw [this]
  exact div_nonneg (sum_map_nonneg' fun r _ => mul_self_nonneg _) (denom_nonneg hne)

theorem covOf_self_nonneg (a : Nat) : 0 ≤ covOf data a a := by
  have := covOf_quad (data := data) (k := 1) (fun _ => a) (fun _ => 1)
  simpa using this

theorem covOf_sq_le (a b : Nat) : covOf data a b ^ 2 ≤ covOf data a a * covOf data b b := by
  have h : ∀ s t : ℝ, 0 ≤ s * s * covOf data a a + 2 * (s * t) * covOf data a b + t * t * covOf data b b := by
    intro s t
    have := covOf_quad (data := data) (k := 2) ![a, b] ![s, t]
    simp only [Fin.sum_univ_two, Matrix.cons_val_zero, Matrix.cons_val_one] at this
    rw [covOf_symm b a] at this
    linarith
  have h0 := covOf_self_nonneg (data := data) a
  rcases h0.eq_or_lt with h0 | h0
  · -- without variance there is no covariance
    have hz : covOf data a b = 0 := by
      by_contra hne
      have := h (-(covOf data b b + 1) / (2 * covOf data a b)) 1
      rw [← h0] at this
      have e : 2 * (-(covOf data b b + 1) / (2 * covOf data a b) * 1) * covOf data a b = -(covOf data b b + 1) := by
        field_simp
      rw [e] at this
      linarith
    rw [hz, ← h0]
    simp
  · have := h (-covOf data a b) (covOf data a a)
    nlinarith

/-- The variance is zero exactly for constant columns. -/
theorem covOf_self_eq_zero {v : Nat} (h2 : 2 ≤ data.length) : covOf data v v = 0 ↔ ConstantCol data v := by
  have hn : (0 : ℝ) < data.length - 1 := by
    have : (2 : ℝ) ≤ data.length := by exact_mod_cast h2
    linarith
  constructor
  · intro h
    rw [covOf, div_eq_zero_iff] at h
    have h := h.resolve_right hn.ne'
    have := sum_map_eq_zero (fun r _ => mul_self_nonneg _) h
    have hv : ∀ r ∈ data, r.getD v 0 = colMean data v := fun r hr => by
      have := mul_self_eq_zero.mp (this r hr)
      linarith
    intro r hr r' hr'
    rw [hv r hr, hv r' hr']
  · intro h
    obtain ⟨r0, hr0⟩ := List.exists_mem_of_length_pos (by omega : 0 < data.length)
    have hm : colMean data v = r0.getD v 0 := by
      rw [colMean, List.map_congr_left (g := fun _ => r0.getD v 0) (fun r hr => h r hr r0 hr0), sum_map_const']
      have : (data.length : ℝ) ≠ 0 := by
        have : 0 < data.length := by omega
        exact_mod_cast this.ne'
      field_simp
    rw [covOf, List.map_congr_left (g := fun _ => (0 : ℝ)) (fun r hr => ?_), sum_map_const']
    · simp
    · rw [hm, h r hr r0 hr0]
      simp

/-! ### change of units -/

theorem Rescaled.sum {m : Nat} {k c : Nat → ℝ} (h : Rescaled m k c data data') {f f' : List ℝ → ℝ}
    (hf : ∀ r r', (∀ v < m, r'.getD v 0 = k v * r.getD v 0 + c v) → f' r' = f r) : (data'.map f').sum = (data.map f).sum := by
  induction h with
  | nil => rfl
  | cons h1 _ ih => simp only [List.map_cons, List.sum_cons, ih, hf _ _ h1]

theorem Rescaled.length {m : Nat} {k c : Nat → ℝ} (h : Rescaled m k c data data') : data'.length = data.length :=
  (List.Forall₂.length_eq h).symm

theorem Rescaled.mean {m : Nat} {k c : Nat → ℝ} (h : Rescaled m k c data data') (hne : data ≠ []) {v : Nat} (hv : v < m) :
    colMean data' v = k v * colMean data v + c v := by
  have hn : (data.length : ℝ) ≠ 0 := by
    have := List.length_pos_iff.mpr hne
    exact_mod_cast this.ne'
  rw [colMean, h.length, h.sum (f := fun r => k v * r.getD v 0 + c v) (fun r r' hr => hr v hv), sum_map_add', sum_map_mul_left',
    sum_map_const', colMean]
  field_simp

theorem Rescaled.cov {m : Nat} {k c : Nat → ℝ} (h : Rescaled m k c data data') {a b : Nat} (ha : a < m) (hb : b < m) :
    covOf data' a b = k a * k b * covOf data a b := by
  rcases eq_or_ne data [] with rfl | hne
  · cases h
    simp [covOf]
  rw [covOf, h.length, h.sum (f := fun r => k a * k b * ((r.getD a 0 - colMean data a) * (r.getD b 0 - colMean data b)))
    (fun r r' hr => ?_), sum_map_mul_left', covOf, mul_div_assoc]
  rw [hr a ha, hr b hb, h.mean hne ha, h.mean hne hb]
  ring

/-! ### correlations -/

theorem corr_abs_le (a b : Nat) : |covOf data a b / Real.sqrt (covOf data a a) / Real.sqrt (covOf data b b)| ≤ 1 := by
  rw [div_div, ← Real.sqrt_mul (covOf_self_nonneg a), abs_div, abs_of_nonneg (Real.sqrt_nonneg _)]
  refine div_le_one_of_le₀ ?_ (Real.sqrt_nonneg _)
  rw [← Real.sqrt_sq_eq_abs]
  exact Real.sqrt_le_sqrt (covOf_sq_le a b)

/-- The clipping has no effect. -/
theorem corrcoef_some {a b : Nat} (ha : covOf data a a ≠ 0) (hb : covOf data b b ≠ 0) :
    corrcoef data a b = some (covOf data a b / Real.sqrt (covOf data a a) / Real.sqrt (covOf data b b)) := by
  rw [corrcoef, if_neg (by simp [ha, hb])]
  have := abs_le.mp (corr_abs_le (data := data) a b)
  rw [min_eq_right this.2, max_eq_right this.1]

theorem corrcoef_isSome {v : Nat} : (corrcoef data v v).isSome ↔ covOf data v v ≠ 0 := by
  unfold corrcoef
  split_ifs with h
  · simpa using h
  · simpa using h

/-! ### signs -/

theorem fisherP_neg (cdf : ℝ → ℝ) (n k : Nat) (r : ℝ) : fisherP cdf n k (.fin (-r)) = fisherP cdf n k (.fin r) := by
  simp only [fisherP, abs_neg]
  by_cases h : |r| ≥ 1
  · rw [if_pos h, if_pos h]
  · rw [if_neg h, if_neg h]
    have hlt := abs_lt.mp (not_le.mp h)
    have e : Real.log (1 + 2 * -r / (1 - -r)) = -Real.log (1 + 2 * r / (1 - r)) := by
      rw [← Real.log_inv]
      congr 1
      have h1 : (1 : ℝ) - r ≠ 0 := by linarith
      have h2 : (1 : ℝ) - -r ≠ 0 := by linarith
      have h3 : (1 : ℝ) + 2 * r / (1 - r) ≠ 0 := by
        have : (1 : ℝ) + 2 * r / (1 - r) = (1 + r) / (1 - r) := by field_simp; ring
        rw [this]
        exact div_ne_zero (by linarith) h1
      refine eq_inv_of_mul_eq_one_left ?_
      field_simp
      ring
    rw [e]
    simp only [mul_neg, abs_neg]

theorem fisherP_sign (cdf : ℝ → ℝ) (n k : Nat) {s : ℝ} (hs : s = 1 ∨ s = -1) (a b : ℝ) :
    fisherP cdf n k (Flt.divSqrt (s * a) b) = fisherP cdf n k (Flt.divSqrt a b) := by
  rcases hs with rfl | rfl
  · rw [one_mul]
  · unfold Flt.divSqrt
    split_ifs with h1 h2 h3 h4 h5
    · rfl
    · rfl
    · simp at h3; contradiction
    · simp_all
    · rfl
    · rw [neg_mul, one_mul, neg_div, fisherP_neg]

theorem invParCorr_sign {C C' : Nat → Nat → ℝ} {s : Nat → ℝ} {x y : Nat} {zz : List Nat} (hs : ∀ a ∈ x :: y :: zz, s a = 1 ∨ s a = -1)
    (hC : ∀ a ∈ x :: y :: zz, ∀ b ∈ x :: y :: zz, C' a b = s a * s b * C a b) (cdf : ℝ → ℝ) (n k : Nat) :
    (invParCorr C' x y zz).map (fisherP cdf n k) = (invParCorr C x y zz).map (fisherP cdf n k) := by
  let D : Matrix (Fin (x :: y :: zz).length) (Fin (x :: y :: zz).length) ℝ := Matrix.diagonal fun i => s ((x :: y :: zz).get i)
  have hsq : ∀ i, s ((x :: y :: zz).get i) * s ((x :: y :: zz).get i) = 1 := by
    intro i
    rcases hs _ (List.get_mem _ i) with h | h <;> rw [h] <;> ring
  have hDD : D * D = 1 := by
    rw [Matrix.diagonal_mul_diagonal]
    simp only [hsq, Matrix.diagonal_one]
  have hsub : subMatrix C' (x :: y :: zz) = D * subMatrix C (x :: y :: zz) * D := by
    ext i j
    rw [Matrix.mul_diagonal, Matrix.diagonal_mul, subMatrix, subMatrix, hC _ (List.get_mem _ i) _ (List.get_mem _ j)]
    ring
  have hdD : D.det * D.det = 1 := by rw [← Matrix.det_mul, hDD, Matrix.det_one]
  have hdet : (subMatrix C' (x :: y :: zz)).det = (subMatrix C (x :: y :: zz)).det := by
    rw [hsub, Matrix.det_mul, Matrix.det_mul]
    calc D.det * (subMatrix C (x :: y :: zz)).det * D.det = (D.det * D.det) * (subMatrix C (x :: y :: zz)).det := by ring
      _ = _ := by rw [hdD, one_mul]
  have hinvD : D⁻¹ = D := Matrix.inv_eq_left_inv hDD
  have hinv : (subMatrix C' (x :: y :: zz))⁻¹ = D * (subMatrix C (x :: y :: zz))⁻¹ * D := by
    rw [hsub, Matrix.mul_inv_rev, Matrix.mul_inv_rev, hinvD, Matrix.mul_assoc]
  have hent : ∀ i j, (subMatrix C' (x :: y :: zz))⁻¹ i j =
      s ((x :: y :: zz).get i) * s ((x :: y :: zz).get j) * (subMatrix C (x :: y :: zz))⁻¹ i j := by
    intro i j
    rw [hinv, Matrix.mul_diagonal, Matrix.diagonal_mul]
    ring
  unfold invParCorr
  simp only [hdet]
  split_ifs with h0
  · rfl
  · simp only [Except.map]
    congr 1
    simp only [Matrix.neg_apply, hent, hsq, one_mul]
    have hss : s x * s y = 1 ∨ s x * s y = -1 := by
      rcases hs x (by simp) with h | h <;> rcases hs y (by simp) with h' | h' <;> rw [h, h'] <;> norm_num
    have := fisherP_sign cdf n k hss (-(subMatrix C (x :: y :: zz))⁻¹ ⟨0, by simp⟩ ⟨1, by simp⟩)
      |-(subMatrix C (x :: y :: zz))⁻¹ ⟨0, by simp⟩ ⟨0, by simp⟩ * -(subMatrix C (x :: y :: zz))⁻¹ ⟨1, by simp⟩ ⟨1, by simp⟩|
    rw [← this]
    congr 2
    simp only [List.get_eq_getElem, List.getElem_cons_zero, List.getElem_cons_succ]
    ring

/-- If the signs of some variables are inverted, the decision stays the same for every threshold that is not negative. -/
theorem parCorr_sign {C C' : Nat → Nat → ℝ} {s : Nat → ℝ} {x y : Nat} {zz : List Nat} (hs : ∀ a ∈ x :: y :: zz, s a = 1 ∨ s a = -1)
    (hC : ∀ a ∈ x :: y :: zz, ∀ b ∈ x :: y :: zz, C' a b = s a * s b * C a b)
    (hle : ∀ a ∈ x :: y :: zz, ∀ b ∈ x :: y :: zz, |C a b| ≤ 1) (cdf : ℝ → ℝ) (n : Nat) {t : ℝ} (ht : 0 ≤ t) :
    (parCorrStatistic cdf n C' x y zz).map (fun p => decide ((t : WithBot ℝ) < p)) =
      (parCorrStatistic cdf n C x y zz).map (fun p => decide ((t : WithBot ℝ) < p)) := by
  have hsign : ∀ a ∈ x :: y :: zz, ∀ b ∈ x :: y :: zz, s a * s b = 1 ∨ s a * s b = -1 := by
    intro a ha b hb
    rcases hs a ha with h | h <;> rcases hs b hb with h' | h' <;> rw [h, h'] <;> norm_num
  match zz with
  | [] =>
    have hxy := hC x (by simp) y (by simp)
    have e : ∀ c : ℝ, |c| ≤ 1 → (match (if c ≥ 1 then (.ok none : Py (Option Flt)) else .ok (some (.fin c))) with
        | .ok none => ((0 : ℝ) : WithBot ℝ) | .ok (some r) => fisherP cdf n 0 r | .error _ => ⊥) = fisherP cdf n 0 (.fin c) := by
      intro c hc
      by_cases h : c ≥ 1
      · simp only [if_pos h, fisherP]
        rw [if_pos (h.trans (le_abs_self c))]
      · simp only [if_neg h]
    have e2 : ∀ C : Nat → Nat → ℝ, |C x y| ≤ 1 → parCorrStatistic cdf n C x y [] = .ok (fisherP cdf n 0 (.fin (C x y))) := by
      intro C hc
      rw [← e _ hc]
      simp only [parCorrStatistic, parCorr]
      split_ifs <;> rfl
    have hl := hle x (by simp) y (by simp)
    have hl' : |C' x y| ≤ 1 := by
      rw [hxy]
      rcases hsign x (by simp) y (by simp) with h | h <;> rw [h] <;> simpa using hl
    rw [e2 C hl, e2 C' hl', hxy]
    congr 2
    rcases hsign x (by simp) y (by simp) with h | h
    · rw [h, one_mul]
    · rw [h, neg_mul, one_mul, fisherP_neg]
  | [z] =>
    have hxy := hC x (by simp) y (by simp)
    have hxz := hC x (by simp) z (by simp)
    have hyz := hC y (by simp) z (by simp)
    have lxz := hle x (by simp) z (by simp)
    have lyz := hle y (by simp) z (by simp)
    -- with a perfect correlation the answer is "dependent"
    have e : ∀ C : Nat → Nat → ℝ, |C x z| ≤ 1 → |C y z| ≤ 1 → (parCorrStatistic cdf n C x y [z]).map (fun p => decide ((t : WithBot ℝ) < p)) =
        .ok (if |C x z| = 1 ∨ |C y z| = 1 then false else
          decide ((t : WithBot ℝ) < fisherP cdf n 1 (Flt.divSqrt (C x y - C x z * C y z) ((1 - C x z ^ 2) * (1 - C y z ^ 2))))) := by
      intro C h1 h2
      have hz0 : decide ((t : WithBot ℝ) < ((0 : ℝ) : WithBot ℝ)) = false := by
        rw [decide_eq_false_iff_not, WithBot.coe_lt_coe]
        linarith
      simp only [parCorrStatistic, parCorr]
      by_cases hone : C x z ≥ 1 ∨ C y z ≥ 1
      · rw [if_pos hone]
        have : |C x z| = 1 ∨ |C y z| = 1 := hone.imp (fun h => le_antisymm h1 (h.trans (le_abs_self _)))
          (fun h => le_antisymm h2 (h.trans (le_abs_self _)))
        rw [if_pos this]
        simp only [Except.map, hz0]
      · rw [if_neg hone]
        simp only [Except.map, List.length_cons, List.length_nil, Nat.zero_add]
        congr 1
        by_cases habs : |C x z| = 1 ∨ |C y z| = 1
        · rw [if_pos habs]
          have hb : (1 - C x z ^ 2) * (1 - C y z ^ 2) = 0 := by
            rcases habs with h | h
            · have : C x z ^ 2 = 1 := by rw [← sq_abs, h]; norm_num
              rw [this]; ring
            · have : C y z ^ 2 = 1 := by rw [← sq_abs, h]; norm_num
              rw [this]; ring
          rw [hb, Flt.divSqrt, if_neg (lt_irrefl _), if_pos rfl]
          split_ifs
          · simp [fisherP]
          · simp only [fisherP]
            exact hz0
        · rw [if_neg habs]
    have habs : ∀ a ∈ [x, y, z], ∀ b ∈ [x, y, z], |C' a b| = |C a b| := by
      intro a ha b hb
      rw [hC a ha b hb, abs_mul]
      rcases hsign a ha b hb with h | h <;> rw [h] <;> simp
    rw [e C lxz lyz, e C' (by rw [habs x (by simp) z (by simp)]; exact lxz) (by rw [habs y (by simp) z (by simp)]; exact lyz),
      habs x (by simp) z (by simp), habs y (by simp) z (by simp)]
    congr 1
    split_ifs
    · rfl
    · have hsz : s z * s z = 1 := by rcases hs z (by simp) with h | h <;> rw [h] <;> ring
      have h1 : C' x y - C' x z * C' y z = (s x * s y) * (C x y - C x z * C y z) := by
        rw [hxy, hxz, hyz]
        linear_combination (-(s x * s y * C x z * C y z)) * hsz
      have h2 : ∀ a ∈ [x, y, z], ∀ b ∈ [x, y, z], C' a b ^ 2 = C a b ^ 2 := by
        intro a ha b hb
        rw [← sq_abs, habs a ha b hb, sq_abs]
      rw [h1, h2 x (by simp) z (by simp), h2 y (by simp) z (by simp), fisherP_sign cdf n 1 (hsign x (by simp) y (by simp))]
  | z :: w :: zz =>
    have h := invParCorr_sign hs hC cdf n (z :: w :: zz).length
    have e : ∀ C : Nat → Nat → ℝ, parCorrStatistic cdf n C x y (z :: w :: zz) =
        (invParCorr C x y (z :: w :: zz)).map (fisherP cdf n (z :: w :: zz).length) := by
      intro C
      simp only [parCorrStatistic, parCorr]
      cases invParCorr C x y (z :: w :: zz) <;> rfl
    rw [e, e, h]

end Verif
