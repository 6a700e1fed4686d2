import Verif.Spec.DataObject
import Verif.Props.PcObject
import Verif.Props.FciObject
import Verif.Props.IcdObject
import Verif.Props.RaiObject
import Verif.Props.OIcdObject

/-!
# C103: what the learners learn from data depends only on what the data say
-/

namespace Verif

section
variable {R R' : Type} {m : Nat} {N : Finset Int}

/-- C103 (objects): from two test objects that answer alike in every history of valid queries, all learners learn the same. -/
theorem C103_objects (hN : ∀ x ∈ N, 0 ≤ x ∧ x < m)
    {ask : CiState R → Int → Int → List Int → Py Bool × CiState R} {ask' : CiState R' → Int → Int → List Int → Py Bool × CiState R'}
    {s : CiState R} {s' : CiState R'}
    (h : ∀ ops, (∀ x y zz, CiOp.query x y zz ∈ ops → ValidQuery m x y zz) → answers ask s ops = answers ask' s' ops) :
    SameLearned N ask s ask' s' where
  pc o overwrite := by
    rcases Pc.learnStructureObj_same (Pc.alike_objects hN ask ask') o overwrite h with ⟨e, h1, h2⟩ | ⟨a, s1, s2, h1, h2, -⟩
    · rw [h1, h2]; rfl
    · rw [h1, h2]; rfl
  fci o selection tails := C99_objects o selection tails hN h
  icd o opts := C100_objects o opts hN h
  rai o overwrite := C101_objects o overwrite hN h
  ordered o _ isLocal ho := C102_objects o ho isLocal hN h

end

section
variable {m : Nat} {N : Finset Int}

/-- Two data sets with weights whose empirical conditional mutual informations are the same up to a positive factor: with thresholds in the same
ratio the learners learn the same. -/
theorem cmi_sameLearned {data data' : List (List Int)} (hN : ∀ x ∈ N, 0 ≤ x ∧ x < m) (hne : data ≠ []) (hne' : data' ≠ [])
    (hm : ∀ r ∈ data, r.length = m) (hm' : ∀ r ∈ data', r.length = m) (h0 : ∀ r ∈ data, ∀ a ∈ r, 0 ≤ a)
    (h0' : ∀ r ∈ data', ∀ a ∈ r, 0 ≤ a) {weights weights' : Option (List ℝ)}
    (hw : ∀ w, weights = some w → w.length = data.length ∧ ∀ a ∈ w, 0 ≤ a)
    (hw' : ∀ w, weights' = some w → w.length = data'.length ∧ ∀ a ∈ w, 0 ≤ a) {c : ℝ} (hc : 0 < c) (t : ℝ)
    (he : ∀ x < m, ∀ y < m, ∀ zz : List Nat, (∀ v ∈ zz, v < m) →
      empiricalCmi (data'.zip (weights'.getD (List.replicate data'.length 1))) x y zz =
        c * empiricalCmi (data.zip (weights.getD (List.replicate data.length 1))) x y zz)
    (U : UGraph Int) (hU : ∀ x, x ∈ U.nodes ↔ 0 ≤ x ∧ x < m) (countTests useCache countTests' useCache' : Bool) :
    ∃ l l', getVarSize data m = .ok l ∧ getVarSize data' m = .ok l' ∧
      SameLearned N (cmiCondIndep U (fun x y zz => cmiStatistic data' l' weights' x.toNat y.toNat (zz.map Int.toNat)) (c * t))
        (CiState.init m countTests' useCache')
        (cmiCondIndep U (fun x y zz => cmiStatistic data l weights x.toNat y.toNat (zz.map Int.toNat)) t)
        (CiState.init m countTests useCache) := by
  obtain ⟨l, h1, -⟩ := C43_cached hne hm h0 weights hw t U hU [] (by simp) countTests useCache
  obtain ⟨l', h1', -⟩ := C43_cached hne' hm' h0' weights' hw' (c * t) U hU [] (by simp) countTests' useCache'
  refine ⟨l, l', h1, h1', C103_objects hN fun ops hops => ?_⟩
  obtain ⟨k, g1, g2⟩ := C43_cached hne hm h0 weights hw t U hU ops hops countTests useCache
  obtain ⟨k', g1', g2'⟩ := C43_cached hne' hm' h0' weights' hw' (c * t) U hU ops hops countTests' useCache'
  cases h1.symm.trans g1
  cases h1'.symm.trans g1'
  rw [g2, g2']
  refine pureAnswers_congr (fun x y zz hv => ?_) ops hops
  obtain ⟨⟨a1, a2, a3, a4, -⟩, -, a6⟩ := hv
  have e := he x.toNat (by omega) y.toNat (by omega) (zz.map Int.toNat) fun v hv => by
    obtain ⟨z, hz, rfl⟩ := List.mem_map.1 hv
    have := a6 z hz
    omega
  rw [e]
  simp only [mul_le_mul_iff_right₀ hc]

theorem zip_ones (d : List (List Int)) : d.zip (List.replicate d.length (1 : ℝ)) = d.map (fun r => (r, 1)) := by
  induction d with
  | nil => rfl
  | cons a d ih => simp [List.replicate_succ, ih]

/-- C103 (coding): what the learners learn from categorical data does not depend on how the categories are coded. -/
theorem C103_coding {f : Nat → Int → Int} {data data' : List (List Int)} (hN : ∀ x ∈ N, 0 ≤ x ∧ x < m) (hr : Recoded m f data data')
    (hf : ∀ v < m, Function.Injective (f v)) (hne : data ≠ []) (h0 : ∀ r ∈ data, ∀ a ∈ r, 0 ≤ a) (h0' : ∀ r ∈ data', ∀ a ∈ r, 0 ≤ a)
    (weights : Option (List ℝ)) (hw : ∀ w, weights = some w → w.length = data.length ∧ ∀ a ∈ w, 0 ≤ a) (t : ℝ) (U : UGraph Int)
    (hU : ∀ x, x ∈ U.nodes ↔ 0 ≤ x ∧ x < m) (countTests useCache countTests' useCache' : Bool) :
    ∃ l l', getVarSize data m = .ok l ∧ getVarSize data' m = .ok l' ∧
      SameLearned N (cmiCondIndep U (fun x y zz => cmiStatistic data' l' weights x.toNat y.toNat (zz.map Int.toNat)) t)
        (CiState.init m countTests' useCache')
        (cmiCondIndep U (fun x y zz => cmiStatistic data l weights x.toNat y.toNat (zz.map Int.toNat)) t)
        (CiState.init m countTests useCache) := by
  obtain ⟨l, l', h1, h2, -⟩ := C84_coding hr hf hne h0 h0' weights hw t U hU [] (by simp) countTests useCache countTests' useCache'
  refine ⟨l, l', h1, h2, C103_objects hN fun ops hops => ?_⟩
  obtain ⟨k, k', g1, g2, g3⟩ := C84_coding hr hf hne h0 h0' weights hw t U hU ops hops countTests useCache countTests' useCache'
  cases h1.symm.trans g1
  cases h2.symm.trans g2
  exact g3

/-- C103 (order of the records, categorical data): nor on the order of the records, if the weights are reordered with them. -/
theorem C103_records {data data' : List (List Int)} (hN : ∀ x ∈ N, 0 ≤ x ∧ x < m) (hne : data ≠ [])
    (hm : ∀ r ∈ data, r.length = m) (h0 : ∀ r ∈ data, ∀ a ∈ r, 0 ≤ a) {w w' : List ℝ} (hw : w.length = data.length)
    (hw' : w'.length = data'.length) (hn : ∀ a ∈ w, 0 ≤ a) (hp : (data.zip w).Perm (data'.zip w')) (t : ℝ)
    (U : UGraph Int) (hU : ∀ x, x ∈ U.nodes ↔ 0 ≤ x ∧ x < m) (countTests useCache countTests' useCache' : Bool) :
    ∃ l l', getVarSize data m = .ok l ∧ getVarSize data' m = .ok l' ∧
      SameLearned N (cmiCondIndep U (fun x y zz => cmiStatistic data' l' (some w') x.toNat y.toNat (zz.map Int.toNat)) t)
        (CiState.init m countTests' useCache')
        (cmiCondIndep U (fun x y zz => cmiStatistic data l (some w) x.toNat y.toNat (zz.map Int.toNat)) t)
        (CiState.init m countTests useCache) := by
  have hp1 : data.Perm data' := by
    have := hp.map Prod.fst
    rwa [List.map_fst_zip hw.ge, List.map_fst_zip hw'.ge] at this
  have hp2 : w.Perm w' := by
    have := hp.map Prod.snd
    rwa [List.map_snd_zip hw.le, List.map_snd_zip hw'.le] at this
  have := cmi_sameLearned hN hne (fun h => hne (by rw [h] at hp1; exact hp1.eq_nil)) hm (fun r hr => hm r (hp1.mem_iff.mpr hr)) h0
    (fun r hr => h0 r (hp1.mem_iff.mpr hr)) (weights := some w) (weights' := some w') (by rintro _ ⟨⟩; exact ⟨hw, hn⟩)
    (by rintro _ ⟨⟩; exact ⟨hw', fun a ha => hn a (hp2.mem_iff.mpr ha)⟩) one_pos t
    (fun x _ y _ zz _ => by rw [one_mul]; exact empiricalCmi_records hp.symm x y zz) U hU countTests useCache countTests' useCache'
  rwa [one_mul] at this

/-- C103 (order of the records, without weights). -/
theorem C103_shuffle {data data' : List (List Int)} (hN : ∀ x ∈ N, 0 ≤ x ∧ x < m) (hne : data ≠ [])
    (hm : ∀ r ∈ data, r.length = m) (h0 : ∀ r ∈ data, ∀ a ∈ r, 0 ≤ a) (hp : data.Perm data') (t : ℝ)
    (U : UGraph Int) (hU : ∀ x, x ∈ U.nodes ↔ 0 ≤ x ∧ x < m) (countTests useCache countTests' useCache' : Bool) :
    ∃ l l', getVarSize data m = .ok l ∧ getVarSize data' m = .ok l' ∧
      SameLearned N (cmiCondIndep U (fun x y zz => cmiStatistic data' l' none x.toNat y.toNat (zz.map Int.toNat)) t)
        (CiState.init m countTests' useCache')
        (cmiCondIndep U (fun x y zz => cmiStatistic data l none x.toNat y.toNat (zz.map Int.toNat)) t)
        (CiState.init m countTests useCache) := by
  have := cmi_sameLearned hN hne (fun h => hne (by rw [h] at hp; exact hp.eq_nil)) hm (fun r hr => hm r (hp.mem_iff.mpr hr)) h0
    (fun r hr => h0 r (hp.mem_iff.mpr hr)) (weights := none) (weights' := none) (by simp) (by simp) one_pos t
    (fun x _ y _ zz _ => by
      rw [one_mul, Option.getD_none, Option.getD_none, zip_ones, zip_ones]
      exact empiricalCmi_records (hp.map _).symm x y zz) U hU countTests useCache countTests' useCache'
  rwa [one_mul] at this

/-- C103 (duplicated data): from a data set in which every record is given twice the learners learn, by mutual information with a fixed
threshold, the same as from the data set itself. -/
theorem C103_twice {data : List (List Int)} (hN : ∀ x ∈ N, 0 ≤ x ∧ x < m) (hne : data ≠ [])
    (hm : ∀ r ∈ data, r.length = m) (h0 : ∀ r ∈ data, ∀ a ∈ r, 0 ≤ a) (t : ℝ)
    (U : UGraph Int) (hU : ∀ x, x ∈ U.nodes ↔ 0 ≤ x ∧ x < m) (countTests useCache countTests' useCache' : Bool) :
    ∃ l l', getVarSize data m = .ok l ∧ getVarSize (data ++ data) m = .ok l' ∧
      SameLearned N (cmiCondIndep U (fun x y zz => cmiStatistic (data ++ data) l' none x.toNat y.toNat (zz.map Int.toNat)) t)
        (CiState.init m countTests' useCache')
        (cmiCondIndep U (fun x y zz => cmiStatistic data l none x.toNat y.toNat (zz.map Int.toNat)) t)
        (CiState.init m countTests useCache) := by
  have := cmi_sameLearned (data' := data ++ data) hN hne (by simp [hne]) hm (by simpa [or_imp, forall_and] using hm) h0
    (by simpa [or_imp, forall_and] using h0) (weights := none) (weights' := none) (by simp) (by simp) one_pos t
    (fun x _ y _ zz _ => by
      rw [one_mul, Option.getD_none, Option.getD_none, zip_ones, zip_ones, List.map_append]
      exact empiricalCmi_twice _ x y zz) U hU countTests useCache countTests' useCache'
  rwa [one_mul] at this

/-- C103 (scale of the weights): the learners learn the same if all weights and the threshold are multiplied by a positive number. -/
theorem C103_scale {data : List (List Int)} (hN : ∀ x ∈ N, 0 ≤ x ∧ x < m) (hne : data ≠ [])
    (hm : ∀ r ∈ data, r.length = m) (h0 : ∀ r ∈ data, ∀ a ∈ r, 0 ≤ a) {w : List ℝ} (hw : w.length = data.length)
    (hn : ∀ a ∈ w, 0 ≤ a) {c : ℝ} (hc : 0 < c) (t : ℝ)
    (U : UGraph Int) (hU : ∀ x, x ∈ U.nodes ↔ 0 ≤ x ∧ x < m) (countTests useCache countTests' useCache' : Bool) :
    ∃ l, getVarSize data m = .ok l ∧
      SameLearned N (cmiCondIndep U (fun x y zz => cmiStatistic data l (some (w.map (c * ·))) x.toNat y.toNat (zz.map Int.toNat)) (c * t))
        (CiState.init m countTests' useCache')
        (cmiCondIndep U (fun x y zz => cmiStatistic data l (some w) x.toNat y.toNat (zz.map Int.toNat)) t)
        (CiState.init m countTests useCache) := by
  obtain ⟨l, l', h1, h2, h3⟩ := cmi_sameLearned (data' := data) hN hne hne hm hm h0 h0 (weights := some w)
    (weights' := some (w.map (c * ·))) (by rintro _ ⟨⟩; exact ⟨hw, hn⟩)
    (by
      rintro _ ⟨⟩
      refine ⟨by simpa using hw, fun a ha => ?_⟩
      obtain ⟨b, hb, rfl⟩ := List.mem_map.1 ha
      exact mul_nonneg hc.le (hn b hb)) hc t
    (fun x _ y _ zz _ => by
      refine .trans ?_ (empiricalCmi_scale _ hc x y zz)
      simp only [Option.getD_some, List.zip_map_right]
      rfl) U hU countTests useCache countTests' useCache'
  cases h1.symm.trans h2
  exact ⟨l, h1, h3⟩

/-- C103 (units and order of the records, continuous data): by partial correlations the learners learn the same from `data` and from the
reordered records in other units. -/
theorem C103_units {data mid data' : List (List ℝ)} (hN : ∀ x ∈ N, 0 ≤ x ∧ x < m) (hp : data.Perm mid) {k c : Nat → ℝ}
    (hr : Rescaled m k c mid data') (hk : ∀ v < m, k v ≠ 0) (h2 : 2 ≤ data.length) (hm : ∀ v < m, ¬ ConstantCol data v) (cdf : ℝ → ℝ)
    (nanInv nanInv' : Nat → Nat → List Nat → Py (WithBot ℝ)) {t : ℝ} (ht : 0 ≤ t) (U : UGraph Int) (hU : ∀ x, x ∈ U.nodes ↔ 0 ≤ x ∧ x < m)
    (countTests useCache countTests' useCache' : Bool) :
    SameLearned N (statCondIndep U (parCorrQuery cdf nanInv' data') (t : WithBot ℝ)) (CiState.init m countTests' useCache')
      (statCondIndep U (parCorrQuery cdf nanInv data) (t : WithBot ℝ)) (CiState.init m countTests useCache) := by
  refine C103_objects hN fun ops hops => ?_
  have e : parCorrQuery cdf nanInv data = parCorrQuery cdf nanInv mid := by
    funext x y zz
    exact C83_records hp cdf nanInv _ _ _
  rw [e]
  have h2' : 2 ≤ mid.length := hp.length_eq ▸ h2
  refine C83_units hr hk h2' (fun v hv h => hm v hv ?_) cdf nanInv nanInv' ht U hU ops hops countTests useCache countTests' useCache'
  rw [← covOf_self_eq_zero h2', ← cov_perm hp] at h
  exact (covOf_self_eq_zero h2).mp h

end

/-! ## The hypotheses are met -/

example :=
  C103_coding (m := 2) (N := {0, 1}) (f := fun v a => if v = 0 then 2 - a else 3 * a) (data := [[0, 1], [1, 0], [2, 1]])
    (data' := [[2, 3], [1, 0], [0, 3]]) exNoRet_mem
    (by refine .cons ?_ (.cons ?_ (.cons ?_ .nil)) <;> refine ⟨rfl, rfl, ?_⟩ <;> decide)
    (by intro v _ a b h
        dsimp only at h
        split_ifs at h <;> omega)
    (by simp) (by decide) (by decide) none (by simp) (1 / 100) exNoRet exNoRet_nodes true true false false

example :=
  C103_records (m := 2) (N := {0, 1}) (data := [[0, 1], [1, 0], [2, 1]]) (data' := [[1, 0], [0, 1], [2, 1]]) (w := [1, 2, 3]) (w' := [2, 1, 3])
    exNoRet_mem (by simp) (by decide) (by decide) rfl rfl (by simp) (List.Perm.swap _ _ _) (1 / 100) exNoRet exNoRet_nodes true true false false

example :=
  C103_shuffle (m := 2) (N := {0, 1}) (data := [[0, 1], [1, 0], [2, 1]]) (data' := [[1, 0], [0, 1], [2, 1]])
    exNoRet_mem (by simp) (by decide) (by decide) (List.Perm.swap _ _ _) (1 / 100) exNoRet exNoRet_nodes true true false false

example :=
  C103_twice (m := 2) (N := {0, 1}) (data := [[0, 1], [1, 0], [2, 1]])
    exNoRet_mem (by simp) (by decide) (by decide) (1 / 100) exNoRet exNoRet_nodes true true false false

example :=
  C103_scale (m := 2) (N := {0, 1}) (data := [[0, 1], [1, 0], [2, 1]]) (w := [1, 2, 3]) (c := 1 / 6)
    exNoRet_mem (by simp) (by decide) (by decide) rfl (by simp) (by norm_num) (1 / 100) exNoRet exNoRet_nodes true true false false

example (cdf : ℝ → ℝ) (nanInv : Nat → Nat → List Nat → Py (WithBot ℝ)) :=
  C103_units (m := 2) (N := {0, 1}) (k := fun v => if v = 0 then -2 else 3) (c := fun _ => 7) (data := exObs) (mid := [[1, -1, 5], [0, 1, 5], [2, 1, 5]])
    (data' := [[5, 4], [7, 10], [3, 10]]) exNoRet_mem (List.Perm.swap _ _ _)
    (by refine .cons ?_ (.cons ?_ (.cons ?_ .nil)) <;> intro v hv <;> obtain rfl | rfl : v = 0 ∨ v = 1 := by omega
        all_goals norm_num)
    (by intro v hv; obtain rfl | rfl : v = 0 ∨ v = 1 := by omega
        all_goals norm_num)
    (by simp [exObs]) exObs_varies cdf nanInv nanInv (t := 1 / 20) (by norm_num) exNoRet exNoRet_nodes true true false false

end Verif
