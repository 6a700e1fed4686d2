import Verif.Spec.CmiCoding
import Verif.Props.Stats

/-!
# The empirical conditional mutual information under recoding, reordering, repetition and scaling
-/

namespace Verif

/-- Records with weights, recoded. -/
def RecodedW (m : Nat) (f : Nat → Int → Int) (recs recs' : List (List Int × ℝ)) : Prop :=
  List.Forall₂ (fun r r' => r.1.length = m ∧ r'.1.length = m ∧ r'.2 = r.2 ∧ ∀ v < m, r'.1.getD v 0 = f v (r.1.getD v 0)) recs recs'

theorem getElem?_of_col {r : List Int} {v m : Nat} (h : r.length = m) (hv : v < m) : r[v]? = some (r.getD v 0) := by
  rw [List.getD, List.getElem?_eq_getElem (by omega)]
  rfl

theorem agreeOn_recoded {m : Nat} {f : Nat → Int → Int} (hf : ∀ v < m, Function.Injective (f v)) {S : List Nat} (hS : ∀ v ∈ S, v < m)
    {r s r' s' : List Int} (hr : r.length = m ∧ r'.length = m ∧ ∀ v < m, r'.getD v 0 = f v (r.getD v 0))
    (hs : s.length = m ∧ s'.length = m ∧ ∀ v < m, s'.getD v 0 = f v (s.getD v 0)) : AgreeOn S r' s' ↔ AgreeOn S r s := by
  unfold AgreeOn
  refine forall₂_congr fun v hv => ?_
  have hvm := hS v hv
  rw [getElem?_of_col hr.1 hvm, getElem?_of_col hr.2.1 hvm, getElem?_of_col hs.1 hvm, getElem?_of_col hs.2.1 hvm, hr.2.2 v hvm, hs.2.2 v hvm]
  simp only [Option.some.injEq]
  exact (hf v hvm).eq_iff

theorem weightOf_recoded {m : Nat} {f : Nat → Int → Int} (hf : ∀ v < m, Function.Injective (f v)) {S : List Nat} (hS : ∀ v ∈ S, v < m)
    {r r' : List Int} (hr : r.length = m ∧ r'.length = m ∧ ∀ v < m, r'.getD v 0 = f v (r.getD v 0)) {recs recs' : List (List Int × ℝ)}
    (h : RecodedW m f recs recs') : weightOf recs' (AgreeOn S r') = weightOf recs (AgreeOn S r) := by
  classical
  unfold weightOf
  induction h with
  | nil => rfl
  | @cons a b l l' h1 _ ih =>
    have e := agreeOn_recoded hf hS hr ⟨h1.1, h1.2.1, h1.2.2.2⟩
    by_cases hd : AgreeOn S r a.1
    · have hd' := e.mpr hd
      simp only [List.filter_cons, hd, hd', decide_true, if_true, List.map_cons, List.sum_cons, h1.2.2.1]
      rw [ih]
    · have hd' : ¬ AgreeOn S r' b.1 := fun h => hd (e.mp h)
      simp only [List.filter_cons, hd, hd', decide_false, Bool.false_eq_true, if_false]
      exact ih

theorem empiricalCmi_recoded {m : Nat} {f : Nat → Int → Int} (hf : ∀ v < m, Function.Injective (f v)) {x y : Nat} {zz : List Nat}
    (hx : x < m) (hy : y < m) (hz : ∀ v ∈ zz, v < m) {recs recs' : List (List Int × ℝ)} (h : RecodedW m f recs recs') :
    empiricalCmi recs' x y zz = empiricalCmi recs x y zz := by
  have key : ∀ (l l' : List (List Int × ℝ)), RecodedW m f l l' →
      (l'.map (fun r => r.2 * Real.log (weightOf recs' (AgreeOn (x :: y :: zz) r.1) * weightOf recs' (AgreeOn zz r.1) /
        (weightOf recs' (AgreeOn (x :: zz) r.1) * weightOf recs' (AgreeOn (y :: zz) r.1))))).sum =
      (l.map (fun r => r.2 * Real.log (weightOf recs (AgreeOn (x :: y :: zz) r.1) * weightOf recs (AgreeOn zz r.1) /
        (weightOf recs (AgreeOn (x :: zz) r.1) * weightOf recs (AgreeOn (y :: zz) r.1))))).sum := by
    intro l l' hl
    induction hl with
    | nil => rfl
    | @cons a b l l' h1 _ ih =>
      have hr := And.intro h1.1 (And.intro h1.2.1 h1.2.2.2)
      have e : ∀ S : List Nat, (∀ v ∈ S, v < m) → weightOf recs' (AgreeOn S b.1) = weightOf recs (AgreeOn S a.1) :=
        fun S hS => weightOf_recoded hf hS hr h
      simp only [List.map_cons, List.sum_cons]
      rw [ih, h1.2.2.1, e (x :: y :: zz) (by simpa [hx, hy] using hz), e zz hz, e (x :: zz) (by simpa [hx] using hz),
        e (y :: zz) (by simpa [hy] using hz)]
  rw [empiricalCmi, empiricalCmi, key recs recs' h, (List.Forall₂.length_eq h).symm]

theorem Recoded.zip {m : Nat} {f : Nat → Int → Int} {data data' : List (List Int)} (h : Recoded m f data data') :
    ∀ w : List ℝ, RecodedW m f (data.zip w) (data'.zip w) := by
  induction h with
  | nil => intro w; exact List.Forall₂.nil
  | @cons a b l l' h1 _ ih =>
    intro w
    cases w with
    | nil => exact List.Forall₂.nil
    | cons u w => exact List.Forall₂.cons ⟨h1.1, h1.2.1, rfl, h1.2.2⟩ (ih w)

theorem Recoded.left {m : Nat} {f : Nat → Int → Int} {data data' : List (List Int)} (h : Recoded m f data data') :
    (∀ r ∈ data, r.length = m) ∧ (∀ r ∈ data', r.length = m) := by
  induction h with
  | nil => simp
  | cons h1 _ ih => simp only [List.forall_mem_cons]; exact ⟨⟨h1.1, ih.1⟩, h1.2.1, ih.2⟩

theorem empiricalCmi_records {recs recs' : List (List Int × ℝ)} (hp : recs.Perm recs') (x y : Nat) (zz : List Nat) :
    empiricalCmi recs x y zz = empiricalCmi recs' x y zz := by
  have hw : ∀ p, weightOf recs p = weightOf recs' p := fun p => by
    unfold weightOf
    exact ((hp.filter _).map _).sum_eq
  simp only [empiricalCmi, hw, hp.length_eq]
  rw [(hp.map _).sum_eq]

theorem weightOf_append (l l' : List (List Int × ℝ)) (p : List Int → Prop) : weightOf (l ++ l') p = weightOf l p + weightOf l' p := by
  classical
  simp [weightOf, List.filter_append]

theorem empiricalCmi_twice (recs : List (List Int × ℝ)) (x y : Nat) (zz : List Nat) :
    empiricalCmi (recs ++ recs) x y zz = empiricalCmi recs x y zz := by
  simp only [empiricalCmi, weightOf_append, List.map_append, List.sum_append, List.length_append, Nat.cast_add]
  have e : ∀ a b c d : ℝ, (a + a) * (b + b) / ((c + c) * (d + d)) = a * b / (c * d) := by
    intro a b c d
    rw [← two_mul, ← two_mul, ← two_mul, ← two_mul, show 2 * a * (2 * b) = 4 * (a * b) by ring, show 2 * c * (2 * d) = 4 * (c * d) by ring,
      mul_div_mul_left _ _ (by norm_num)]
  simp only [e]
  rw [← two_mul, ← two_mul, mul_div_mul_left _ _ (by norm_num)]

theorem empiricalCmi_scale (recs : List (List Int × ℝ)) {c : ℝ} (hc : 0 < c) (x y : Nat) (zz : List Nat) :
    empiricalCmi (recs.map (fun r => (r.1, c * r.2))) x y zz = c * empiricalCmi recs x y zz := by
  have hw : ∀ p, weightOf (recs.map (fun r => (r.1, c * r.2))) p = c * weightOf recs p := by
    classical
    intro p
    unfold weightOf
    induction recs with
    | nil => simp
    | cons a l ih =>
      by_cases h : p a.1
      · simp only [List.map_cons, List.filter_cons, h, decide_true, if_true, List.sum_cons, mul_add]
        rw [ih]
      · simp only [List.map_cons, List.filter_cons, h, decide_false, Bool.false_eq_true, if_false]
        exact ih
  have e : ∀ a b d e : ℝ, (c * a) * (c * b) / ((c * d) * (c * e)) = a * b / (d * e) := by
    intro a b d e
    rw [show c * a * (c * b) = (c * c) * (a * b) by ring, show c * d * (c * e) = (c * c) * (d * e) by ring,
      mul_div_mul_left _ _ (by positivity)]
  simp only [empiricalCmi, hw, e, List.map_map, List.length_map, Function.comp_def]
  simp only [mul_assoc c]
  have hs : ∀ (l : List (List Int × ℝ)) (g : List Int × ℝ → ℝ), (l.map (fun r => c * g r)).sum = c * (l.map g).sum := by
    intro l g
    induction l with
    | nil => simp
    | cons a l ih => simp [ih, mul_add]
  rw [hs recs (fun r => r.2 * Real.log (weightOf recs (AgreeOn (x :: y :: zz) r.1) * weightOf recs (AgreeOn zz r.1) /
    (weightOf recs (AgreeOn (x :: zz) r.1) * weightOf recs (AgreeOn (y :: zz) r.1)))), mul_div_assoc]

theorem empiricalCmi_log2 : empiricalCmi [([0, 0], 1), ([1, 1], 1)] 0 1 [] = Real.log 2 := by
  have h2 : ∀ S : List Nat, S ≠ [] → (∀ v ∈ S, v < 2) → ∀ a b : Int, AgreeOn S [a, a] [b, b] ↔ a = b := by
    intro S hS hv a b
    constructor
    · intro h
      obtain ⟨v, hvS⟩ := List.exists_mem_of_ne_nil _ hS
      have h1 := h v hvS
      have := hv v hvS
      obtain rfl | rfl : v = 0 ∨ v = 1 := by omega
      all_goals simpa using h1
    · rintro rfl; exact fun _ _ => rfl
  have e0 : AgreeOn [] = fun _ _ => True := by funext r s; simp [AgreeOn]
  simp only [empiricalCmi, List.map_cons, List.map_nil, weightOf, List.filter_cons, List.filter_nil]
  rw [e0]
  simp only [h2 [0, 1] (by simp) (by simp), h2 [0] (by simp) (by simp), h2 [1] (by simp) (by simp)]
  norm_num

end Verif
