import Verif.Lemmas.CmiCoding

/-!
# C84: the mutual-information test does not depend on the coding of the categories or on the order of the records
-/

namespace Verif

/-- C84 (coding): if the categories of every column are coded by other non-negative integers, distinct ones by distinct ones, the test
gives the same answers, in every history of queries and deletions, with or without weights, cache and counter. The number of codes and
the largest code may differ. -/
theorem C84_coding {m : Nat} {f : Nat → Int → Int} {data data' : List (List Int)} (hr : Recoded m f data data')
    (hf : ∀ v < m, Function.Injective (f v)) (hne : data ≠ []) (h0 : ∀ r ∈ data, ∀ a ∈ r, 0 ≤ a) (h0' : ∀ r ∈ data', ∀ a ∈ r, 0 ≤ a)
    (weights : Option (List ℝ)) (hw : ∀ w, weights = some w → w.length = data.length ∧ ∀ a ∈ w, 0 ≤ a) (t : ℝ) (U : UGraph Int)
    (hU : ∀ x, x ∈ U.nodes ↔ 0 ≤ x ∧ x < m) (ops : List CiOp) (hops : ∀ x y zz, CiOp.query x y zz ∈ ops → ValidQuery m x y zz)
    (countTests useCache countTests' useCache' : Bool) :
    ∃ l l', getVarSize data m = .ok l ∧ getVarSize data' m = .ok l' ∧
      answers (cmiCondIndep U (fun x y zz => cmiStatistic data' l' weights x.toNat y.toNat (zz.map Int.toNat)) t)
        (CiState.init m countTests' useCache') ops =
      answers (cmiCondIndep U (fun x y zz => cmiStatistic data l weights x.toNat y.toNat (zz.map Int.toNat)) t)
        (CiState.init m countTests useCache) ops := by
  have hlen : data.length = data'.length := List.Forall₂.length_eq hr
  have hne' : data' ≠ [] := by
    rw [← List.length_pos_iff, ← hlen]
    exact List.length_pos_iff.mpr hne
  obtain ⟨l, h1, h2⟩ := C43_cached hne hr.left.1 h0 weights hw t U hU ops hops countTests useCache
  obtain ⟨l', h3, h4⟩ := C43_cached hne' hr.left.2 h0' weights (by rw [← hlen]; exact hw) t U hU ops hops countTests' useCache'
  refine ⟨l, l', h1, h3, ?_⟩
  rw [h2, h4, ← hlen]
  have hz := hr.zip (weights.getD (List.replicate data.length 1))
  clear h2 h4
  induction ops with
  | nil => rfl
  | cons op ops ih =>
    have ih := ih fun x y zz h => hops x y zz (List.mem_cons_of_mem _ h)
    cases op with
    | delete x y zz => exact ih
    | query x y zz =>
      simp only [pureAnswers]
      rw [ih]
      obtain ⟨⟨a1, a2, a3, a4, _⟩, _, a6⟩ := hops x y zz (by simp)
      rw [empiricalCmi_recoded hf (by omega) (by omega) (fun v hv => ?_) hz]
      obtain ⟨z, hz, rfl⟩ := List.mem_map.1 hv
      have := a6 z hz
      omega

/-- C84 (records): the statistic does not depend on the order of the records, if the weights are reordered with them. -/
theorem C84_records {m : Nat} {data data' : List (List Int)} (hne : data ≠ []) (hm : ∀ r ∈ data, r.length = m)
    (h0 : ∀ r ∈ data, ∀ a ∈ r, 0 ≤ a) (hp : data.Perm data') :
    ∃ l l', getVarSize data m = .ok l ∧ getVarSize data' m = .ok l' ∧ ∀ x < m, ∀ y < m, ∀ zz : List Nat, (∀ v ∈ zz, v < m) →
      cmiStatistic data' l' none x y zz = cmiStatistic data l none x y zz ∧
      ∀ w w' : List ℝ, w.length = data.length → w'.length = data.length → (∀ a ∈ w, 0 ≤ a) → (∀ a ∈ w', 0 ≤ a) →
        (data.zip w).Perm (data'.zip w') → cmiStatistic data' l' (some w') x y zz = cmiStatistic data l (some w) x y zz := by
  have hne' : data' ≠ [] := fun h => hne (by rw [h] at hp; exact hp.eq_nil)
  have hm' : ∀ r ∈ data', r.length = m := fun r hr => hm r (hp.mem_iff.mpr hr)
  have h0' : ∀ r ∈ data', ∀ a ∈ r, 0 ≤ a := fun r hr => h0 r (hp.mem_iff.mpr hr)
  obtain ⟨l, e, h1⟩ := C43_data hne hm h0 none (by simp)
  obtain ⟨l', e', h1'⟩ := C43_data hne' hm' h0' none (by simp)
  refine ⟨l, l', e, e', fun x hx y hy zz hz => ⟨?_, fun w w' hw hw' hn hn' hz2 => ?_⟩⟩
  · rw [(h1 x hx y hy zz hz).1, (h1' x hx y hy zz hz).1]
    congr 1
    refine empiricalCmi_records ?_ x y zz
    have hr : ∀ d : List (List Int), d.zip (List.replicate d.length (1 : ℝ)) = d.map (fun r => (r, 1)) := by
      intro d
      induction d with
      | nil => rfl
      | cons a d ih => simp [List.replicate_succ, ih]
    simp only [Option.getD_none, hr]
    exact (hp.map _).symm
  · obtain ⟨l2, e2, h2⟩ := C43_data hne hm h0 (some w) (by rintro _ ⟨⟩; exact ⟨hw, hn⟩)
    obtain ⟨l2', e2', h2'⟩ := C43_data hne' hm' h0' (some w') (by rintro _ ⟨⟩; exact ⟨hw'.trans hp.length_eq, hn'⟩)
    cases e.symm.trans e2
    cases e'.symm.trans e2'
    rw [(h2 x hx y hy zz hz).1, (h2' x hx y hy zz hz).1]
    exact congrArg _ (empiricalCmi_records hz2.symm x y zz)

/-- C84 (repetition): if all records are there twice, the statistic is the same. -/
theorem C84_twice {m : Nat} {data : List (List Int)} (hne : data ≠ []) (hm : ∀ r ∈ data, r.length = m)
    (h0 : ∀ r ∈ data, ∀ a ∈ r, 0 ≤ a) :
    ∃ l l', getVarSize data m = .ok l ∧ getVarSize (data ++ data) m = .ok l' ∧ ∀ x < m, ∀ y < m, ∀ zz : List Nat, (∀ v ∈ zz, v < m) →
      cmiStatistic (data ++ data) l' none x y zz = cmiStatistic data l none x y zz := by
  obtain ⟨l, e, h1⟩ := C43_data hne hm h0 none (by simp)
  obtain ⟨l', e', h1'⟩ := C43_data (data := data ++ data) (m := m) (by simp [hne])
    (by simpa [or_imp, forall_and] using hm) (by simpa [or_imp, forall_and] using h0) none (by simp)
  refine ⟨l, l', e, e', fun x hx y hy zz hz => ?_⟩
  rw [(h1 x hx y hy zz hz).1, (h1' x hx y hy zz hz).1]
  refine congrArg _ (.trans ?_ (empiricalCmi_twice _ x y zz))
  simp only [Option.getD_none, List.length_append, ← List.replicate_append_replicate]
  rw [List.zip_append (by simp)]

/-- C84 (weights): if all weights are multiplied by a positive number, so is the statistic. -/
theorem C84_scale {m : Nat} {data : List (List Int)} (hne : data ≠ []) (hm : ∀ r ∈ data, r.length = m)
    (h0 : ∀ r ∈ data, ∀ a ∈ r, 0 ≤ a) {w : List ℝ} (hw : w.length = data.length) (hn : ∀ a ∈ w, 0 ≤ a) {c : ℝ} (hc : 0 < c) :
    ∃ l, getVarSize data m = .ok l ∧ ∀ x < m, ∀ y < m, ∀ zz : List Nat, (∀ v ∈ zz, v < m) →
      cmiStatistic data l (some (w.map (c * ·))) x y zz = (cmiStatistic data l (some w) x y zz).map (c * ·) := by
  obtain ⟨l, e, h1⟩ := C43_data hne hm h0 (some w) (by rintro _ ⟨⟩; exact ⟨hw, hn⟩)
  obtain ⟨l', e', h1'⟩ := C43_data hne hm h0 (some (w.map (c * ·))) (by
    rintro _ ⟨⟩
    refine ⟨by simpa using hw, fun a ha => ?_⟩
    obtain ⟨b, hb, rfl⟩ := List.mem_map.1 ha
    exact mul_nonneg hc.le (hn b hb))
  cases e.symm.trans e'
  refine ⟨l, e, fun x hx y hy zz hz => ?_⟩
  rw [(h1 x hx y hy zz hz).1, (h1' x hx y hy zz hz).1]
  refine congrArg _ (.trans ?_ (empiricalCmi_scale _ hc x y zz))
  simp only [Option.getD_some, List.zip_map_right]
  rfl

/-- C84, a disagreement: giving every record the weight 2 is not the same as having every record twice. For two equal binary columns
and the threshold 1 the repeated records are reported independent, the weighted ones dependent. -/
theorem C84_weights_fails : ∃ (data : List (List Int)) (l l' : List Int) (a b : ℝ), getVarSize data 2 = .ok l ∧
    getVarSize (data ++ data) 2 = .ok l' ∧ cmiStatistic (data ++ data) l' none 0 1 [] = .ok a ∧
    cmiStatistic data l (some (data.map fun _ => 2)) 0 1 [] = .ok b ∧ a ≤ 1 ∧ ¬ b ≤ 1 := by
  have hne : [[0, 0], [1, (1 : Int)]] ≠ [] := by simp
  have hm : ∀ r ∈ [[0, 0], [1, (1 : Int)]], r.length = 2 := by decide
  have h0 : ∀ r ∈ [[0, 0], [1, (1 : Int)]], ∀ a ∈ r, 0 ≤ a := by decide
  obtain ⟨l, e, h1⟩ := C43_data hne hm h0 none (by simp)
  obtain ⟨l2, l', e2, e', h2⟩ := C84_twice hne hm h0
  obtain ⟨l3, e3, h3⟩ := C84_scale hne hm h0 (w := [1, 1]) rfl (by simp) (c := 2) (by norm_num)
  obtain ⟨l4, e4, h4⟩ := C43_data hne hm h0 (some [1, 1]) (by rintro _ ⟨⟩; simp)
  cases e.symm.trans e2
  cases e.symm.trans e3
  cases e.symm.trans e4
  have f1 := (h1 0 (by simp) 1 (by simp) [] (by simp)).1
  have f2 := h2 0 (by simp) 1 (by simp) [] (by simp)
  have f3 := h3 0 (by simp) 1 (by simp) [] (by simp)
  have f4 := (h4 0 (by simp) 1 (by simp) [] (by simp)).1
  simp only [Option.getD_none, List.length_cons, List.length_nil, List.replicate, List.zip_cons_cons, List.zip_nil_left, empiricalCmi_log2] at f1
  simp only [Option.getD_some, List.zip_cons_cons, List.zip_nil_left, empiricalCmi_log2] at f4
  rw [f1] at f2
  rw [f4] at f3
  refine ⟨_, l, l', _, Real.log 2 * 2, e, e', f2, ?_, ?_, ?_⟩
  · simpa [Except.map, mul_comm] using f3
  · linarith [Real.log_lt_sub_one_of_pos (x := 2) (by norm_num) (by norm_num)]
  · have := Real.log_lt_sub_one_of_pos (x := 2⁻¹) (by norm_num) (by norm_num)
    rw [Real.log_inv] at this
    linarith

/-- Two orders of the same weighted records, as in `C84_records`. -/
example : [[0, 1], [1, (0 : Int)]].Perm [[1, 0], [0, 1]] ∧
    ([[0, 1], [1, (0 : Int)]].zip [1, (2 : ℝ)]).Perm ([[1, 0], [0, 1]].zip [2, 1]) :=
  ⟨List.Perm.swap _ _ _, List.Perm.swap _ _ _⟩

/-- The hypotheses of `C84_coding` are met: three categories, coded in another order and with gaps. -/
example : Recoded 2 (fun v a => if v = 0 then 2 - a else 3 * a) [[0, 1], [1, 0], [2, 1]] [[2, 3], [1, 0], [0, 3]] ∧
    (∀ v < 2, Function.Injective (fun a : Int => if v = 0 then 2 - a else 3 * a)) ∧
    (∀ r ∈ [[0, 1], [1, 0], [2, (1 : Int)]], ∀ a ∈ r, 0 ≤ a) ∧ (∀ r ∈ [[2, 3], [1, 0], [0, (3 : Int)]], ∀ a ∈ r, 0 ≤ a) := by
  refine ⟨?_, ?_, by decide, by decide⟩
  · refine .cons ?_ (.cons ?_ (.cons ?_ .nil)) <;> refine ⟨rfl, rfl, ?_⟩ <;> decide
  · intro v _ a b h
    dsimp only at h
    split_ifs at h <;> omega

end Verif
