import Verif.Model.Stats
import Verif.Spec.ParCorr
import Mathlib.LinearAlgebra.Matrix.SchurComplement
import Mathlib.Tactic.FieldSimp
import Mathlib.Tactic.Positivity
import Mathlib.Tactic.LinearCombination

/-! # Lemmas about partial correlation -/

namespace Verif

open Matrix

section
variable {C : Nat → Nat → ℝ} (hC : ∀ a b, C a b = C b a) {x y : Nat} {zz : List Nat}

/-- Positions of the two variables and of the conditioning variables. -/
def splitEquiv (x y : Nat) (zz : List Nat) : Fin 2 ⊕ Fin zz.length ≃ Fin (x :: y :: zz).length :=
  finSumFinEquiv.trans (finCongr (by simp; omega))

theorem splitEquiv_get (C : Nat → Nat → ℝ) (x y : Nat) (zz : List Nat) :
    (subMatrix C (x :: y :: zz)).submatrix (splitEquiv x y zz) (splitEquiv x y zz) =
      fromBlocks (Matrix.of ![![C x x, C x y], ![C y x, C y y]]) (fun i j => C (![x, y] i) (zz.get j))
        (fun i j => C (zz.get i) (![x, y] j)) (subMatrix C zz) := by
  have e0 : ∀ i : Fin 2, (x :: y :: zz).get (splitEquiv x y zz (Sum.inl i)) = ![x, y] i := by
    intro i; fin_cases i <;> rfl
  have e1 : ∀ i : Fin zz.length, (x :: y :: zz).get (splitEquiv x y zz (Sum.inr i)) = zz.get i := by
    intro i
    have : (splitEquiv x y zz (Sum.inr i)).val = i.val + 1 + 1 := by simp [splitEquiv]
    simp only [List.get_eq_getElem, this, List.getElem_cons_succ]
  ext i j
  rcases i with i | i <;> rcases j with j | j
  · simp only [submatrix_apply, subMatrix, e0]
    fin_cases i <;> fin_cases j <;> rfl
  · simp only [submatrix_apply, subMatrix, e0, e1]
    rfl
  · simp only [submatrix_apply, subMatrix, e0, e1]
    rfl
  · simp only [submatrix_apply, subMatrix, e1]
    rfl

theorem regression_eq {a : Nat} {β : Fin zz.length → ℝ} (h : IsRegression C zz a β) (hD : (subMatrix C zz).det ≠ 0) :
    β = (subMatrix C zz)⁻¹ *ᵥ (fun i => C (zz.get i) a) := by
  have h1 : subMatrix C zz *ᵥ β = fun i => C (zz.get i) a := by
    funext i; exact h i
  rw [← h1, mulVec_mulVec, nonsing_inv_mul _ (Ne.isUnit hD), one_mulVec]

theorem regression_exists (a : Nat) (hD : (subMatrix C zz).det ≠ 0) : ∃ β, IsRegression C zz a β := by
  refine ⟨(subMatrix C zz)⁻¹ *ᵥ (fun i => C (zz.get i) a), fun i => ?_⟩
  have : subMatrix C zz *ᵥ ((subMatrix C zz)⁻¹ *ᵥ (fun i => C (zz.get i) a)) = fun i => C (zz.get i) a := by
    rw [mulVec_mulVec, mul_nonsing_inv _ (Ne.isUnit hD), one_mulVec]
  exact congrFun this i

/-- Entry of the Schur complement. -/
noncomputable def schur (C : Nat → Nat → ℝ) (zz : List Nat) (a b : Nat) : ℝ :=
  C a b - (fun j => C a (zz.get j)) ⬝ᵥ ((subMatrix C zz)⁻¹ *ᵥ (fun i => C (zz.get i) b))

include hC in
theorem resCov_schur {a b : Nat} {β : Fin zz.length → ℝ} (h : IsRegression C zz a β) (hD : (subMatrix C zz).det ≠ 0) :
    resCov C zz a β b = schur C zz b a := by
  rw [resCov, schur, ← regression_eq h hD, hC b a, dotProduct]
  congr 1
  exact Finset.sum_congr rfl fun j _ => by rw [hC b]; ring

include hC in
theorem schur_symm (a b : Nat) : schur C zz a b = schur C zz b a := by
  have hT : (subMatrix C zz)ᵀ = subMatrix C zz := by ext i j; exact hC _ _
  have hI : ((subMatrix C zz)⁻¹)ᵀ = (subMatrix C zz)⁻¹ := by rw [transpose_nonsing_inv, hT]
  have e : ∀ c, (fun j => C c (zz.get j)) = fun i => C (zz.get i) c := fun c => funext fun i => hC _ _
  rw [schur, schur, hC a b, e a, e b]
  congr 1
  rw [dotProduct_mulVec, ← mulVec_transpose, hI, dotProduct_comm]

include hC in
/-- The 2 × 2 corner of the inverse. -/
theorem inv_corner (hD : (subMatrix C zz).det ≠ 0) (hM : (subMatrix C (x :: y :: zz)).det ≠ 0) :
    let d := schur C zz x x * schur C zz y y - schur C zz x y ^ 2
    (subMatrix C (x :: y :: zz)).det = (subMatrix C zz).det * d ∧
    (subMatrix C (x :: y :: zz))⁻¹ ⟨0, by simp⟩ ⟨0, by simp⟩ = schur C zz y y / d ∧
    (subMatrix C (x :: y :: zz))⁻¹ ⟨0, by simp⟩ ⟨1, by simp⟩ = - schur C zz x y / d ∧
    (subMatrix C (x :: y :: zz))⁻¹ ⟨1, by simp⟩ ⟨1, by simp⟩ = schur C zz x x / d := by
  intro d
  let e := splitEquiv x y zz
  set A : Matrix (Fin 2) (Fin 2) ℝ := Matrix.of ![![C x x, C x y], ![C y x, C y y]] with hA
  set B : Matrix (Fin 2) (Fin zz.length) ℝ := fun i j => C (![x, y] i) (zz.get j) with hB
  set B' : Matrix (Fin zz.length) (Fin 2) ℝ := fun i j => C (zz.get i) (![x, y] j) with hB'
  set D := subMatrix C zz with hDd
  have hsplit : (subMatrix C (x :: y :: zz)).submatrix e e = fromBlocks A B B' D := splitEquiv_get C x y zz
  let _ : Invertible D := invertibleOfIsUnitDet D (Ne.isUnit hD)
  have hdet : (subMatrix C (x :: y :: zz)).det = D.det * (A - B * ⅟D * B').det := by
    rw [← det_submatrix_equiv_self e, hsplit, det_fromBlocks₂₂]
  have hS : A - B * ⅟D * B' = Matrix.of ![![schur C zz x x, schur C zz x y], ![schur C zz y x, schur C zz y y]] := by
    have hBD : ∀ i j, (B * ⅟D * B') i j = (fun k => C (![x, y] i) (zz.get k)) ⬝ᵥ (D⁻¹ *ᵥ (fun k => C (zz.get k) (![x, y] j))) := by
      intro i j
      rw [invOf_eq_nonsing_inv, Matrix.mul_assoc, mul_apply]
      rfl
    ext i j
    rw [Matrix.sub_apply, hBD]
    fin_cases i <;> fin_cases j <;> rfl
  have hdS : (A - B * ⅟D * B').det = d := by
    rw [hS, det_fin_two]
    simp only [of_apply, cons_val_zero, cons_val_one]
    rw [schur_symm hC y x]; ring
  have hd : d ≠ 0 := by
    intro h0
    rw [hdS, h0, mul_zero] at hdet
    exact hM hdet
  let _ : Invertible (A - B * ⅟D * B') := invertibleOfIsUnitDet _ (by rw [hdS]; exact Ne.isUnit hd)
  let _ : Invertible (fromBlocks A B B' D) := fromBlocks₂₂Invertible A B B' D
  have hinv : ∀ i j : Fin 2, (subMatrix C (x :: y :: zz))⁻¹ (e (Sum.inl i)) (e (Sum.inl j)) = (A - B * ⅟D * B')⁻¹ i j := by
    intro i j
    have : (subMatrix C (x :: y :: zz))⁻¹.submatrix e e = (fromBlocks A B B' D)⁻¹ := by
      rw [← hsplit, inv_submatrix_equiv]
    have h2 := congrFun (congrFun this (Sum.inl i)) (Sum.inl j)
    rw [submatrix_apply] at h2
    rw [h2, ← invOf_eq_nonsing_inv, invOf_fromBlocks₂₂_eq, fromBlocks_apply₁₁, invOf_eq_nonsing_inv]
  have hadj : (A - B * ⅟D * B')⁻¹ = d⁻¹ • (Matrix.of ![![schur C zz y y, -schur C zz x y], ![-schur C zz y x, schur C zz x x]]) := by
    rw [Matrix.inv_def, hdS, Ring.inverse_eq_inv', hS, adjugate_fin_two]
    rfl
  have e00 : e (Sum.inl 0) = (⟨0, by simp⟩ : Fin (x :: y :: zz).length) := rfl
  have e01 : e (Sum.inl 1) = (⟨1, by simp⟩ : Fin (x :: y :: zz).length) := rfl
  refine ⟨by rw [hdet, hdS], ?_, ?_, ?_⟩
  · rw [← e00, hinv, hadj]; simp [div_eq_inv_mul]
  · rw [← e00, ← e01, hinv, hadj]; simp [div_eq_inv_mul]
  · rw [← e01, hinv, hadj]; simp [div_eq_inv_mul]

include hC in
/-- The general branch computes the correlation of the residuals. -/
theorem invParCorr_schur (hD : 0 < (subMatrix C zz).det) (hM : 0 < (subMatrix C (x :: y :: zz)).det) :
    0 < schur C zz x x * schur C zz y y ∧
    invParCorr C x y zz = .ok (.fin (schur C zz x y / Real.sqrt (schur C zz x x * schur C zz y y))) := by
  obtain ⟨h1, h2, h3, h4⟩ := inv_corner hC hD.ne' hM.ne'
  set d := schur C zz x x * schur C zz y y - schur C zz x y ^ 2 with hd
  have hdp : 0 < d := by
    rw [h1] at hM
    exact (mul_pos_iff_of_pos_left hD).1 hM
  have hprod : 0 < schur C zz x x * schur C zz y y := by nlinarith [sq_nonneg (schur C zz x y)]
  refine ⟨hprod, ?_⟩
  rw [invParCorr]
  dsimp only
  rw [if_neg hM.ne']
  change (Except.ok (Flt.divSqrt (-((subMatrix C (x :: y :: zz))⁻¹ ⟨0, by simp⟩ ⟨1, by simp⟩))
    |-((subMatrix C (x :: y :: zz))⁻¹ ⟨0, by simp⟩ ⟨0, by simp⟩) * -((subMatrix C (x :: y :: zz))⁻¹ ⟨1, by simp⟩ ⟨1, by simp⟩)|) :
    Py Flt) = _
  rw [h2, h3, h4]
  have e1 : -(schur C zz y y / d) * -(schur C zz x x / d) = (schur C zz x x * schur C zz y y) / d ^ 2 := by field_simp
  have e2 : |(schur C zz x x * schur C zz y y) / d ^ 2| = (schur C zz x x * schur C zz y y) / d ^ 2 := abs_of_pos (by positivity)
  have hpos : 0 < (schur C zz x x * schur C zz y y) / d ^ 2 := by positivity
  rw [e1, e2, Flt.divSqrt, if_neg (not_lt.2 hpos.le), if_neg hpos.ne', Real.sqrt_div hprod.le, Real.sqrt_sq hdp.le]
  congr 2
  have hs : Real.sqrt (schur C zz x x * schur C zz y y) ≠ 0 := (Real.sqrt_pos.2 hprod).ne'
  field_simp

end

/-! ### order of the variables -/

/-- Relabelling of positions that carries one list to another. -/
def Relabel (l l' : List Nat) (e : Fin l.length ≃ Fin l'.length) : Prop := ∀ i, l'.get (e i) = l.get i

/-- Extend a relabelling by a common head. -/
def consEquiv (a : Nat) {l l' : List Nat} (e : Fin l.length ≃ Fin l'.length) : Fin (a :: l).length ≃ Fin (a :: l').length :=
  ((finSuccEquiv l.length).trans (Equiv.optionCongr e)).trans (finSuccEquiv l'.length).symm

theorem consEquiv_zero (a : Nat) {l l' : List Nat} (e : Fin l.length ≃ Fin l'.length) :
    consEquiv a e ⟨0, by simp⟩ = ⟨0, by simp⟩ := by
  change (finSuccEquiv l'.length).symm ((Equiv.optionCongr e) (finSuccEquiv l.length 0)) = 0
  simp

theorem consEquiv_succ (a : Nat) {l l' : List Nat} (e : Fin l.length ≃ Fin l'.length) (i : Fin l.length) :
    consEquiv a e i.succ = (e i).succ := by
  change (finSuccEquiv l'.length).symm ((Equiv.optionCongr e) (finSuccEquiv l.length i.succ)) = _
  simp

theorem Relabel.cons (a : Nat) {l l' : List Nat} {e : Fin l.length ≃ Fin l'.length} (h : Relabel l l' e) :
    Relabel (a :: l) (a :: l') (consEquiv a e) := by
  intro i
  refine Fin.cases (motive := fun i => (a :: l').get (consEquiv a e i) = (a :: l).get i) ?_ ?_ i
  · rw [show (0 : Fin (l.length + 1)) = ⟨0, by simp⟩ from rfl]
    rw [consEquiv_zero]; rfl
  · intro j
    rw [consEquiv_succ]
    exact h j

theorem relabel_swap (a b : Nat) (l : List Nat) :
    ∃ e : Fin (a :: b :: l).length ≃ Fin (b :: a :: l).length, Relabel (a :: b :: l) (b :: a :: l) e ∧
      e ⟨0, by simp⟩ = ⟨1, by simp⟩ ∧ e ⟨1, by simp⟩ = ⟨0, by simp⟩ := by
  refine ⟨Equiv.swap (0 : Fin (l.length + 2)) 1, ?_, Equiv.swap_apply_left _ _, Equiv.swap_apply_right _ _⟩
  intro i
  change (b :: a :: l).get (Equiv.swap (0 : Fin (l.length + 2)) 1 i) = _
  by_cases h0 : i = (0 : Fin (l.length + 2))
  · subst h0; rw [Equiv.swap_apply_left]; rfl
  · by_cases h1 : i = (1 : Fin (l.length + 2))
    · subst h1; rw [Equiv.swap_apply_right]; rfl
    · rw [Equiv.swap_apply_of_ne_of_ne h0 h1]
      obtain ⟨i, hi⟩ := i
      match i, hi, h0, h1 with
      | 0, _, h0, _ => exact absurd rfl h0
      | 1, _, _, h1 => exact absurd (Fin.ext rfl) h1
      | i + 2, _, _, _ => rfl

theorem relabel_perm {l l' : List Nat} (h : l.Perm l') : ∃ e, Relabel l l' e := by
  induction h with
  | nil => exact ⟨Equiv.refl _, fun _ => rfl⟩
  | cons a _ ih => obtain ⟨e, he⟩ := ih; exact ⟨_, he.cons a⟩
  | swap a b l => obtain ⟨e, he, _⟩ := relabel_swap b a l; exact ⟨e, he⟩
  | trans _ _ ih1 ih2 =>
    obtain ⟨e1, h1⟩ := ih1
    obtain ⟨e2, h2⟩ := ih2
    exact ⟨e1.trans e2, fun i => (h2 (e1 i)).trans (h1 i)⟩

theorem relabel_matrix (C : Nat → Nat → ℝ) {l l' : List Nat} {e : Fin l.length ≃ Fin l'.length} (h : Relabel l l' e) :
    (subMatrix C l).det = (subMatrix C l').det ∧ ∀ i j, (subMatrix C l)⁻¹ i j = (subMatrix C l')⁻¹ (e i) (e j) := by
  have hs : subMatrix C l = (subMatrix C l').submatrix e e := by
    ext i j
    change C _ _ = C _ _
    rw [h i, h j]
  constructor
  · rw [hs, det_submatrix_equiv_self]
  · intro i j
    rw [hs, inv_submatrix_equiv, submatrix_apply]

theorem invParCorr_perm (C : Nat → Nat → ℝ) (x y : Nat) {zz zz' : List Nat} (h : zz.Perm zz') :
    invParCorr C x y zz = invParCorr C x y zz' := by
  obtain ⟨e, he⟩ := relabel_perm h
  obtain ⟨h1, h2⟩ := relabel_matrix C ((he.cons y).cons x)
  have e0 := consEquiv_zero x (consEquiv y e)
  have e1 : consEquiv x (consEquiv y e) ⟨1, by simp⟩ = ⟨1, by simp⟩ := by
    have h3 := consEquiv_succ x (consEquiv y e) ⟨0, by simp⟩
    rw [consEquiv_zero] at h3
    exact h3
  have g := fun i j => h2 i j
  have g00 := g ⟨0, by simp⟩ ⟨0, by simp⟩
  have g01 := g ⟨0, by simp⟩ ⟨1, by simp⟩
  have g11 := g ⟨1, by simp⟩ ⟨1, by simp⟩
  rw [e0] at g00 g01
  rw [e1] at g01 g11
  rw [invParCorr, invParCorr]
  dsimp only
  rw [h1]
  by_cases hd : (subMatrix C (x :: y :: zz')).det = 0
  · rw [if_pos hd, if_pos hd]
  · rw [if_neg hd, if_neg hd]
    change (Except.ok (Flt.divSqrt (-_) |(-_) * (-_)|) : Py Flt) = Except.ok (Flt.divSqrt (-_) |(-_) * (-_)|)
    rw [g00, g01, g11]

theorem invParCorr_symm {C : Nat → Nat → ℝ} (hC : ∀ a b, C a b = C b a) (x y : Nat) (zz : List Nat) :
    invParCorr C x y zz = invParCorr C y x zz := by
  obtain ⟨e, he, e0, e1⟩ := relabel_swap x y zz
  obtain ⟨h1, h2⟩ := relabel_matrix C he
  have g00 := h2 ⟨0, by simp⟩ ⟨0, by simp⟩
  have g01 := h2 ⟨0, by simp⟩ ⟨1, by simp⟩
  have g11 := h2 ⟨1, by simp⟩ ⟨1, by simp⟩
  rw [e0] at g00 g01
  rw [e1] at g01 g11
  have hT : (subMatrix C (y :: x :: zz))ᵀ = subMatrix C (y :: x :: zz) := by ext i j; exact hC _ _
  have hI : ∀ i j, (subMatrix C (y :: x :: zz))⁻¹ i j = (subMatrix C (y :: x :: zz))⁻¹ j i := by
    intro i j
    have : ((subMatrix C (y :: x :: zz))⁻¹)ᵀ = (subMatrix C (y :: x :: zz))⁻¹ := by rw [transpose_nonsing_inv, hT]
    exact congrFun (congrFun this j) i
  rw [hI] at g01
  rw [invParCorr, invParCorr]
  dsimp only
  rw [h1]
  by_cases hd : (subMatrix C (y :: x :: zz)).det = 0
  · rw [if_pos hd, if_pos hd]
  · rw [if_neg hd, if_neg hd]
    change (Except.ok (Flt.divSqrt (-_) |(-_) * (-_)|) : Py Flt) = Except.ok (Flt.divSqrt (-_) |(-_) * (-_)|)
    rw [g00, g01, g11, mul_comm (-(subMatrix C (y :: x :: zz))⁻¹ ⟨1, _⟩ ⟨1, _⟩)]

theorem parCorr_symm {C : Nat → Nat → ℝ} (hC : ∀ a b, C a b = C b a) (x y : Nat) : ∀ zz : List Nat,
    parCorr C x y zz = parCorr C y x zz
  | [] => by simp only [parCorr]; rw [hC x y]
  | [z] => by
    simp only [parCorr]
    rw [hC x y, mul_comm (C x z), mul_comm (1 - C x z ^ 2)]
    simp only [or_comm]
  | z :: w :: zz => by simp only [parCorr]; rw [invParCorr_symm hC]

theorem parCorr_perm (C : Nat → Nat → ℝ) (x y : Nat) {zz zz' : List Nat} (h : zz.Perm zz') :
    parCorr C x y zz = parCorr C x y zz' := by
  match zz, zz', h with
  | [], zz', h => rw [List.nil_perm.1 h]
  | [z], zz', h => rw [List.singleton_perm.1 h]
  | z :: w :: zz, [], h => exact absurd h.length_eq (by simp)
  | z :: w :: zz, [_], h => exact absurd h.length_eq (by simp)
  | z :: w :: zz, z' :: w' :: zz', h => simp only [parCorr]; rw [invParCorr_perm C x y h]

/-! ### the closed formulas -/

theorem schur_nil (C : Nat → Nat → ℝ) (a b : Nat) : schur C [] a b = C a b := by
  simp [schur, dotProduct]

theorem schur_single {C : Nat → Nat → ℝ} {z : Nat} (hz : C z z = 1) (a b : Nat) : schur C [z] a b = C a b - C a z * C z b := by
  have h1 : subMatrix C [z] = 1 := by
    ext i j
    have hi : i = 0 := Subsingleton.elim (α := Fin 1) i 0
    have hj : j = 0 := Subsingleton.elim (α := Fin 1) j 0
    subst hi; subst hj
    change C z z = _
    rw [hz]; rfl
  rw [schur, h1, inv_one, one_mulVec, dotProduct]
  congr 1
  change ∑ i : Fin 1, C a ([z].get i) * C ([z].get i) b = _
  rw [Fin.sum_univ_one]; rfl

/-- All three branches compute the same quantity. -/
theorem parCorr_schur {C : Nat → Nat → ℝ} (hC : ∀ a b, C a b = C b a) (h1 : ∀ a, C a a = 1) {x y : Nat} {zz : List Nat}
    (hD : 0 < (subMatrix C zz).det) (hM : 0 < (subMatrix C (x :: y :: zz)).det)
    (hlt : C x y < 1 ∧ ∀ z ∈ zz, C x z < 1 ∧ C y z < 1) :
    parCorr C x y zz = .ok (some (.fin (schur C zz x y / Real.sqrt (schur C zz x x * schur C zz y y)))) := by
  match zz, hD, hM, hlt with
  | [], _, _, hlt =>
    simp only [parCorr, schur_nil, h1, mul_one, Real.sqrt_one, div_one]
    rw [if_neg (not_le.2 hlt.1)]
  | [z], hD, hM, hlt =>
    obtain ⟨hpos, _⟩ := invParCorr_schur hC hD hM
    simp only [parCorr]
    simp only [schur_single (h1 z), h1, hC z] at hpos ⊢
    have hxz := (hlt.2 z (by simp))
    rw [if_neg (by rintro (h | h); exacts [not_le.2 hxz.1 h, not_le.2 hxz.2 h])]
    have e : (1 - C x z ^ 2) * (1 - C y z ^ 2) = (1 - C x z * C x z) * (1 - C y z * C y z) := by ring
    rw [e, Flt.divSqrt, if_neg (not_lt.2 hpos.le), if_neg hpos.ne']
  | z :: w :: zz, hD, hM, _ =>
    simp only [parCorr]
    rw [(invParCorr_schur hC hD hM).2]
    rfl

end Verif
