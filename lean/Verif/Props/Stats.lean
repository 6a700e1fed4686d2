import Verif.Lemmas.VarSize
import Verif.Props.CiTest

/-! # Properties C42 and C43: contingency counts and conditional mutual information -/

namespace Verif

open Finset

/-! ## C42 -/

/-- C42 (index): combinations of values inside the sizes are numbered without gaps or collisions. -/
theorem C42_index {l : List Int} (hp : ∀ s ∈ l, 0 < s) :
    (∀ r, InSizes r l → 0 ≤ radix r l ∧ radix r l < l.prod) ∧
    (∀ r r', InSizes r l → InSizes r' l → radix r l = radix r' l → r = r') ∧
    (∀ k, 0 ≤ k → k < l.prod → ∃ r, InSizes r l ∧ radix r l = k) :=
  ⟨fun _ h => h.radix_lt, fun _ _ h h' e => h.radix_inj h' e, fun k h0 h1 => radix_surj l k hp h0 h1⟩

/-- C42 (counts): without weights the entry of a combination is the number of records with this combination, and there is one
entry per combination. -/
theorem C42_counts {data : List (List Int)} {l : List Int} (hl : l ≠ []) (hp : ∀ s ∈ l, 0 < s)
    (hd : ∀ a ∈ data, InSizes a l) :
    ∃ H : List Nat, calcStats data l none = .ok H ∧ (H.length : Int) = l.prod ∧
      ∀ r, InSizes r l → H[(radix r l).toNat]? = some (data.count r) := by
  obtain ⟨H, h1, h2, h3⟩ := calcStats_run (W := Nat) hl hp hd none (by simp)
  have hpos : 0 < l.prod := List.prod_pos (fun t ht => hp t ht)
  refine ⟨H, h1, by omega, fun r hr => ?_⟩
  have hlt := hr.radix_lt
  rw [h3 _ (by omega), Option.getD_none, Int.toNat_of_nonneg hlt.1, filter_zip_map l data _ hr hd, List.map_map]
  congr 1
  clear h3 h2 h1
  induction data with
  | nil => simp
  | cons a data ih =>
    have := ih (fun b hb => hd b (by simp [hb]))
    simp only [List.length_cons, List.replicate_succ, List.zip_cons_cons, List.filter_cons, decide_eq_true_eq, List.count_cons,
      beq_iff_eq]
    split_ifs <;> simp_all [Nat.add_comm]

/-- C42 (weights): with weights the entry of a combination is the total weight of the records with this combination. -/
theorem C42_weights {data : List (List Int)} {l : List Int} (hl : l ≠ []) (hp : ∀ s ∈ l, 0 < s)
    (hd : ∀ a ∈ data, InSizes a l) (ws : List ℝ) (hw : ws.length = data.length) :
    ∃ H : List ℝ, calcStats data l (some ws) = .ok H ∧ (H.length : Int) = l.prod ∧
      ∀ r, InSizes r l → H[(radix r l).toNat]? = some (weightOf (data.zip ws) (fun a => a = r)) := by
  obtain ⟨H, h1, h2, h3⟩ := calcStats_run (W := ℝ) hl hp hd (some ws) (by rintro _ ⟨⟩; exact hw)
  have hpos : 0 < l.prod := List.prod_pos (fun t ht => hp t ht)
  refine ⟨H, h1, by omega, fun r hr => ?_⟩
  have hlt := hr.radix_lt
  rw [h3 _ (by omega), Option.getD_some, Int.toNat_of_nonneg hlt.1, filter_sum_wsum, weightOf_eq_wsum]
  refine congrArg some (wsum_congr fun a ha => ?_)
  have := hd a.1 (List.of_mem_zip (show (a.1, a.2) ∈ _ from ha)).1
  exact ⟨this.radix_inj hr, fun e => by rw [e]⟩

/-- C42 (errors): no variables, or weights of the wrong length, raise. -/
theorem C42_errors {W : Type} [AddCommMonoidWithOne W] (data : List (List Int)) (weights : Option (List W)) :
    calcStats data [] weights = .error .indexError ∧
    ∀ l : List Int, l ≠ [] → (∀ s ∈ l, 0 < s) → (∀ a ∈ data, InSizes a l) → ∀ ws : List W, ws.length ≠ data.length →
      calcStats data l (some ws) = .error .valueError := by
  refine ⟨rfl, fun l hl hp hd ws hw => ?_⟩
  obtain ⟨s, h1, h2⟩ := getLast_prod hl
  have hmap := mapM_ok (f := flatIndex (szCumProd l)) (g := fun a => radix a l) data (fun a ha => flatIndex_eq hl (hd a ha))
  rw [calcStats, h1]
  dsimp only
  rw [py_bind hmap, bincount]
  simp only [Option.getD_some, List.length_map, ne_eq, hw, not_false_eq_true, if_true, ite_self]

/-- C42 (variable sizes): `get_var_size` gives the least sizes that contain all values of non-negative data, and an empty data set
with at least one variable raises ValueError. -/
theorem C42_var_size {data : List (List Int)} {m : Nat} (hne : data ≠ []) (hm : ∀ r ∈ data, r.length = m)
    (h0 : ∀ r ∈ data, ∀ a ∈ r, 0 ≤ a) :
    ∃ l, getVarSize data m = .ok l ∧ (∀ r ∈ data, InSizes r l) ∧
      ∀ l' : List Int, (∀ r ∈ data, InSizes r l') → ∀ v < m, l.getD v 0 ≤ l'.getD v 0 := by
  obtain ⟨l, h1, h2, h3⟩ := getVarSize_spec hne hm
  obtain ⟨l1, h4, _, h6⟩ := getVarSize_inSizes hne hm h0
  rw [h1] at h4
  cases h4
  refine ⟨l, h1, h6, fun l' hl' v hv => ?_⟩
  obtain ⟨r, hr, he⟩ := (h3 v hv).2
  have := (hl' r hr).get v (by rw [← (hl' r hr).length, hm r hr]; exact hv)
  omega

theorem C42_var_size_empty (m : Nat) : getVarSize [] (m + 1) = .error .valueError := by
  rw [getVarSize, List.range_succ_eq_map, List.mapM_cons]
  rfl

/-- The hypotheses are met, and the counts of a data set with two variables. -/
example : (∀ a ∈ [[0, 2], [1, 0], [0, 2]], InSizes a [2, 3]) ∧ getVarSize [[0, 2], [1, 0], [0, 2]] 2 = .ok [2, 3] ∧
    calcStats (W := Nat) [[0, 2], [1, 0], [0, 2]] [2, 3] none = .ok [0, 1, 0, 0, 2, 0] := by
  refine ⟨?_, by decide +kernel, by decide +kernel⟩
  intro a ha
  simp only [List.mem_cons, List.not_mem_nil, or_false] at ha
  rcases ha with rfl | rfl | rfl <;> simp [InSizes]

/-- Outside the sizes combinations collide: the records (2, 0) and (0, 1) are counted together. -/
example : calcStats (W := Nat) [[2, 0], [0, 1]] [2, 2] none = .ok [0, 0, 2, 0] := by decide +kernel

/-! ## C43 -/

/-- C43 (count tables): for every non-negative table the statistic is non-negative, symmetric, and zero iff in every stratum the
table is the product of its margins. -/
theorem C43_table {H : Nat → Nat → Nat → ℝ} (hH : ∀ i j z, 0 ≤ H i j z) (xs ys cs : Nat) {N : ℝ} (hN : 0 < N) :
    0 ≤ cmiFromCounts H xs ys cs N ∧
    cmiFromCounts H xs ys cs N = cmiFromCounts (fun j i z => H i j z) ys xs cs N ∧
    (cmiFromCounts H xs ys cs N = 0 ↔
      ∀ z < cs, ∀ i < xs, ∀ j < ys, H i j z * ∑ a ∈ range xs, ∑ b ∈ range ys, H a b z =
        (∑ a ∈ range xs, H a j z) * ∑ b ∈ range ys, H i b z) :=
  ⟨(cmi_nonneg hH xs ys cs hN).1, cmi_symm H xs ys cs N, (cmi_nonneg hH xs ys cs hN).2⟩

theorem empiricalCmi_symm (recs : List (List Int × ℝ)) (x y : Nat) (zz : List Nat) :
    empiricalCmi recs x y zz = empiricalCmi recs y x zz := by
  have e : ∀ r, AgreeOn (x :: y :: zz) r = AgreeOn (y :: x :: zz) r := by
    intro r; funext s; simp only [agree_cons, eq_iff_iff]; tauto
  simp only [empiricalCmi, e, mul_comm (weightOf recs (AgreeOn (x :: zz) _))]

theorem empiricalCmi_perm (recs : List (List Int × ℝ)) (x y : Nat) {zz zz' : List Nat} (h : zz.Perm zz') :
    empiricalCmi recs x y zz = empiricalCmi recs x y zz' := by
  have e0 : ∀ r, AgreeOn zz r = AgreeOn zz' r := by
    intro r; funext s; simp only [AgreeOn, h.mem_iff]
  have e : ∀ v r, AgreeOn (v :: zz) r = AgreeOn (v :: zz') r := by
    intro v r; funext s; simp only [agree_cons, e0]
  have e2 : ∀ v w r, AgreeOn (v :: w :: zz) r = AgreeOn (v :: w :: zz') r := by
    intro v w r; funext s; simp only [agree_cons, e0]
  simp only [empiricalCmi, e, e2, e0]

/-- C43 (data): for every data set of non-negative integers and every list of non-negative weights, the statistic is the empirical
conditional mutual information; it is non-negative, symmetric, does not depend on the order of the condition set, and is zero iff
the variables are independent given the condition set in the empirical distribution. -/
theorem C43_data {data : List (List Int)} {m : Nat} (hne : data ≠ []) (hm : ∀ r ∈ data, r.length = m)
    (h0 : ∀ r ∈ data, ∀ a ∈ r, 0 ≤ a) (weights : Option (List ℝ))
    (hw : ∀ w, weights = some w → w.length = data.length ∧ ∀ a ∈ w, 0 ≤ a) :
    ∃ l, getVarSize data m = .ok l ∧ ∀ x < m, ∀ y < m, ∀ zz : List Nat, (∀ v ∈ zz, v < m) →
      let cmi := empiricalCmi (data.zip (weights.getD (List.replicate data.length 1))) x y zz
      cmiStatistic data l weights x y zz = .ok cmi ∧
      cmiStatistic data l weights y x zz = .ok cmi ∧
      (∀ zz', zz.Perm zz' → cmiStatistic data l weights x y zz' = .ok cmi) ∧
      0 ≤ cmi ∧
      (cmi = 0 ↔ EmpiricalIndep (data.zip (weights.getD (List.replicate data.length 1))) x y zz) := by
  obtain ⟨l, h1, h2, h3⟩ := getVarSize_inSizes hne hm h0
  refine ⟨l, h1, fun x hx y hy zz hz => ?_⟩
  rw [← h2] at hx hy
  have hz : ∀ v ∈ zz, v < l.length := fun v hv => by rw [h2]; exact hz v hv
  intro cmi
  have hstat : cmiStatistic data l weights x y zz = .ok cmi := cmiStatistic_eq hne h3 weights hw hx hy hz
  have htab := cmiStatistic_table hne h3 weights (fun w h => (hw w h).1) hx hy hz
  rw [hstat] at htab
  have htab := Except.ok.inj htab
  set recs := data.zip (weights.getD (List.replicate data.length 1)) with hrecs
  have hin : ∀ r ∈ recs, InSizes r.1 l := fun r hr => h3 _ (List.of_mem_zip (show (r.1, r.2) ∈ _ from hr)).1
  have hwr : ∀ r ∈ recs, 0 ≤ r.2 := by
    intro r hr
    have := (List.of_mem_zip (show (r.1, r.2) ∈ _ from hr)).2
    cases weights with
    | none => rw [Option.getD_none, List.mem_replicate] at this; rw [this.2]; exact zero_le_one
    | some w => exact (hw w rfl).2 _ this
  have hN : (0 : ℝ) < data.length := by exact_mod_cast List.length_pos_iff.2 hne
  have hnn := cmi_nonneg (fun i j z => wsum_nonneg hwr
    (fun r => (r.getD x 0).toNat = i ∧ (r.getD y 0).toNat = j ∧ zcode l zz r = z)) (l.getD x 0).toNat (l.getD y 0).toNat
    ((zz.map (l.getD · 0)).prod).toNat hN
  refine ⟨hstat, ?_, fun zz' hp => ?_, htab ▸ hnn.1, ?_⟩
  · rw [cmiStatistic_eq hne h3 weights hw hy hx hz, empiricalCmi_symm]
  · rw [cmiStatistic_eq hne h3 weights hw hx hy (fun v hv => hz v (hp.mem_iff.2 hv)), ← empiricalCmi_perm _ x y hp]
  · rw [htab, hnn.2, ← factor_iff hin hx hy hz]
    have b1 : ∀ r ∈ recs, (fun r : List Int => (r.getD x 0).toNat) r.1 < (l.getD x 0).toNat :=
      fun r hr => by have := (hin r hr).get x hx; dsimp only; omega
    have b2 : ∀ r ∈ recs, (fun r : List Int => (r.getD y 0).toNat) r.1 < (l.getD y 0).toNat :=
      fun r hr => by have := (hin r hr).get y hy; dsimp only; omega
    have e1 := fun z => rec_tot (recs := recs) (fi := fun r : List Int => (r.getD x 0).toNat) (fj := fun r : List Int => (r.getD y 0).toNat)
      (fk := zcode l zz) b1 b2 z
    have e2 := fun j z => rec_col (recs := recs) (fi := fun r : List Int => (r.getD x 0).toNat)
      (fj := fun r : List Int => (r.getD y 0).toNat) (fk := zcode l zz) b1 j z
    have e3 := fun i z => rec_row (recs := recs) (fi := fun r : List Int => (r.getD x 0).toNat)
      (fj := fun r : List Int => (r.getD y 0).toNat) (fk := zcode l zz) b2 i z
    simp only [e1, e2, e3]

/-- C43 with C39: on every data set of non-negative integers the answers of the mutual-information test do not depend on caching,
for every history of queries and deletions; for pairs without a retained edge the answer is "independent" iff the empirical
conditional mutual information is at most the threshold. -/
theorem C43_cached {data : List (List Int)} {m : Nat} (hne : data ≠ []) (hm : ∀ r ∈ data, r.length = m)
    (h0 : ∀ r ∈ data, ∀ a ∈ r, 0 ≤ a) (weights : Option (List ℝ))
    (hw : ∀ w, weights = some w → w.length = data.length ∧ ∀ a ∈ w, 0 ≤ a) (t : ℝ) (U : UGraph Int)
    (hU : ∀ x, x ∈ U.nodes ↔ 0 ≤ x ∧ x < m) (ops : List CiOp)
    (hops : ∀ x y zz, CiOp.query x y zz ∈ ops → ValidQuery m x y zz) (countTests useCache : Bool) :
    ∃ l, getVarSize data m = .ok l ∧
      answers (cmiCondIndep U (fun x y zz => cmiStatistic data l weights x.toNat y.toNat (zz.map Int.toNat)) t)
        (CiState.init m countTests useCache) ops =
      pureAnswers (fun x y zz => .ok (decide ((x ∈ U.adj y ∨ y ∈ U.adj x) ∨
        empiricalCmi (data.zip (weights.getD (List.replicate data.length 1))) x.toNat y.toNat (zz.map Int.toNat) ≤ t))) ops := by
  obtain ⟨l, h1, h2⟩ := C43_data hne hm h0 weights hw
  refine ⟨l, h1, ?_⟩
  have hval : ∀ {x y : Int} {zz : List Int}, ValidQuery m x y zz → x.toNat < m ∧ y.toNat < m ∧
      ∀ v ∈ zz.map Int.toNat, v < m := by
    intro x y zz hv
    obtain ⟨⟨a1, a2, a3, a4, _⟩, _, a6⟩ := hv
    refine ⟨by omega, by omega, fun v hv => ?_⟩
    obtain ⟨z, hz, rfl⟩ := List.mem_map.1 hv
    have := a6 z hz
    omega
  have hsym : SymTest m (fun x y zz => cmiStatistic data l weights x.toNat y.toNat (zz.map Int.toNat)) := by
    intro x y zz hv
    obtain ⟨b1, b2, b3⟩ := hval hv
    obtain ⟨c1, c2, c3, _⟩ := h2 _ b1 _ b2 _ b3
    exact ⟨c1.trans c2.symm, fun zz' hp => c1.trans (c3 _ (hp.map _)).symm⟩
  rw [(C39_statistic hsym t U hU ops hops countTests useCache).2]
  induction ops with
  | nil => rfl
  | cons op ops ih =>
    have ih := ih fun x y zz h => hops x y zz (List.mem_cons_of_mem _ h)
    cases op with
    | delete x y zz => exact ih
    | query x y zz =>
      simp only [pureAnswers]
      rw [ih]
      congr 1
      obtain ⟨b1, b2, b3⟩ := hval (hops x y zz (by simp))
      rw [pDecision]
      by_cases h : x ∈ U.adj y ∨ y ∈ U.adj x
      · rw [if_pos h]; simp only [h, true_or, decide_true]; rfl
      · rw [if_neg h, (h2 _ b1 _ b2 _ b3).1]
        simp only [h, false_or, Except.map]
        congr 1
        rw [Bool.eq_iff_iff]
        simp

/-- Data meeting the hypotheses of C43, with weights. -/
example : ∃ (data : List (List Int)) (w : List ℝ), data ≠ [] ∧ (∀ r ∈ data, r.length = 3) ∧ (∀ r ∈ data, ∀ a ∈ r, 0 ≤ a) ∧
    w.length = data.length ∧ ∀ a ∈ w, 0 ≤ a := by
  refine ⟨[[0, 1, 0], [1, 0, 2], [0, 0, 1]], [1, 2, 0], by simp, by simp, by simp, by simp, by simp⟩

/-- The statistic is not constant: two equal binary columns have mutual information log 2. -/
example : empiricalCmi [([0, 0], 1), ([1, 1], 1)] 0 1 [] = Real.log 2 := by
  have h2 : ∀ S : List Nat, S ≠ [] → (∀ v ∈ S, v < 2) → ∀ a b : Int, AgreeOn S [a, a] [b, b] ↔ a = b := by
    intro S hS hv a b
    constructor
    · intro h
      obtain ⟨v, hvS⟩ := List.exists_mem_of_ne_nil _ hS
      have h1 := h v hvS
      have := hv v hvS
      obtain rfl | rfl : v = 0 ∨ v = 1 := by omega
      all_goals simpa using h1
    · rintro rfl; exact fun _ _ => rfl
  have e0 : AgreeOn [] = fun _ _ => True := by funext r s; simp [AgreeOn]
  simp only [empiricalCmi, List.map_cons, List.map_nil, weightOf, List.filter_cons, List.filter_nil]
  rw [e0]
  simp only [h2 [0, 1] (by simp) (by simp), h2 [0] (by simp) (by simp), h2 [1] (by simp) (by simp)]
  norm_num

end Verif
