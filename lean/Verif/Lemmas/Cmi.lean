import Verif.Lemmas.Stats
import Mathlib.Algebra.BigOperators.Group.Finset.Basic
import Mathlib.Algebra.BigOperators.Ring.Finset
import Mathlib.Algebra.BigOperators.Field
import Mathlib.Algebra.Order.BigOperators.Group.Finset
import Mathlib.Tactic.FieldSimp
import Mathlib.Tactic.Positivity

/-! # Lemmas about empirical conditional mutual information -/

namespace Verif

open Finset

theorem foldl_step {β : Type} {step : ℝ → β → ℝ} {f : β → ℝ} (h : ∀ c i, step c i = c + f i) :
    ∀ (l : List β) (a : ℝ), l.foldl step a = a + (l.map f).sum
  | [], a => by simp
  | b :: l, a => by rw [List.foldl_cons, foldl_step h l, h]; simp [add_assoc]

theorem sum_map_range (f : Nat → ℝ) (n : Nat) : ((List.range n).map f).sum = ∑ i ∈ range n, f i := by
  rw [Finset.sum_eq_multiset_sum]; rfl

/-- The row, column and total sums of a table. -/
noncomputable def tabTot (H : Nat → Nat → Nat → ℝ) (xs ys z : Nat) : ℝ := ∑ i ∈ range xs, ∑ j ∈ range ys, H i j z
/-- Sum over the states of x. -/
noncomputable def tabCol (H : Nat → Nat → Nat → ℝ) (xs j z : Nat) : ℝ := ∑ i ∈ range xs, H i j z
/-- Sum over the states of y. -/
noncomputable def tabRow (H : Nat → Nat → Nat → ℝ) (ys i z : Nat) : ℝ := ∑ j ∈ range ys, H i j z

theorem cmi_eq_sum (H : Nat → Nat → Nat → ℝ) (xs ys cs : Nat) (N : ℝ) :
    cmiFromCounts H xs ys cs N = ∑ z ∈ range cs, ∑ i ∈ range xs, ∑ j ∈ range ys,
      if H i j z > 0 then Real.log (H i j z * tabTot H xs ys z / (tabCol H xs j z * tabRow H ys i z)) * H i j z / N else 0 := by
  rw [cmiFromCounts, foldl_step (f := fun z => ∑ i ∈ range xs, ∑ j ∈ range ys,
      if H i j z > 0 then Real.log (H i j z * tabTot H xs ys z / (tabCol H xs j z * tabRow H ys i z)) * H i j z / N else 0),
    zero_add, sum_map_range]
  intro c z
  dsimp only
  rw [foldl_step (f := fun i => ∑ j ∈ range ys,
      if H i j z > 0 then Real.log (H i j z * tabTot H xs ys z / (tabCol H xs j z * tabRow H ys i z)) * H i j z / N else 0),
    sum_map_range]
  intro c i
  rw [foldl_step (f := fun j =>
      if H i j z > 0 then Real.log (H i j z * tabTot H xs ys z / (tabCol H xs j z * tabRow H ys i z)) * H i j z / N else 0),
    sum_map_range]
  intro c j
  simp only [sum_map_range]
  split_ifs
  · rfl
  · simp

theorem cmi_eq_sum' {H : Nat → Nat → Nat → ℝ} (hH : ∀ i j z, 0 ≤ H i j z) (xs ys cs : Nat) (N : ℝ) :
    cmiFromCounts H xs ys cs N = (∑ z ∈ range cs, ∑ i ∈ range xs, ∑ j ∈ range ys,
      H i j z * Real.log (H i j z * tabTot H xs ys z / (tabCol H xs j z * tabRow H ys i z))) / N := by
  rw [cmi_eq_sum, Finset.sum_div]
  refine Finset.sum_congr rfl fun z _ => ?_
  rw [Finset.sum_div]
  refine Finset.sum_congr rfl fun i _ => ?_
  rw [Finset.sum_div]
  refine Finset.sum_congr rfl fun j _ => ?_
  split_ifs with h
  · rw [mul_comm]
  · rw [le_antisymm (not_lt.1 h) (hH i j z)]; simp

theorem cmi_symm (H : Nat → Nat → Nat → ℝ) (xs ys cs : Nat) (N : ℝ) :
    cmiFromCounts H xs ys cs N = cmiFromCounts (fun j i z => H i j z) ys xs cs N := by
  rw [cmi_eq_sum, cmi_eq_sum]
  refine Finset.sum_congr rfl fun z _ => ?_
  rw [Finset.sum_comm]
  refine Finset.sum_congr rfl fun j _ => Finset.sum_congr rfl fun i _ => ?_
  have e : tabTot H xs ys z = tabTot (fun j i z => H i j z) ys xs z := Finset.sum_comm
  rw [e, mul_comm (tabCol H xs j z)]
  rfl

/-! ### one stratum -/

/-- The inequality behind non-negativity, with its equality case. -/
theorem log_ineq {h p : ℝ} (hh : 0 ≤ h) (hp : 0 ≤ p) (h0 : p = 0 → h = 0) :
    h - p ≤ h * Real.log (h / p) ∧ (h * Real.log (h / p) = h - p → h = p) := by
  rcases hh.eq_or_lt with rfl | hpos
  · simp only [zero_mul, zero_sub]
    exact ⟨by linarith, fun h => by linarith⟩
  · have hpp : 0 < p := lt_of_le_of_ne hp (fun e => hpos.ne' (h0 e.symm))
    have hx : (0 : ℝ) < p / h := by positivity
    have e : Real.log (h / p) = - Real.log (p / h) := by rw [← Real.log_inv, inv_div]
    have e2 : h * (p / h) = p := by field_simp
    constructor
    · have := Real.log_le_sub_one_of_pos hx
      rw [e]; nlinarith
    · intro he
      by_contra hne
      have hne1 : p / h ≠ 1 := fun e1 => hne (by rw [e1, mul_one] at e2; exact e2)
      have := Real.log_lt_sub_one_of_pos hx hne1
      rw [e] at he; nlinarith

variable {H : Nat → Nat → Nat → ℝ} (hH : ∀ i j z, 0 ≤ H i j z) (xs ys z : Nat)

include hH in
theorem tab_nonneg : 0 ≤ tabTot H xs ys z ∧ (∀ j, 0 ≤ tabCol H xs j z) ∧ ∀ i, 0 ≤ tabRow H ys i z :=
  ⟨Finset.sum_nonneg fun i _ => Finset.sum_nonneg fun j _ => hH i j z, fun j => Finset.sum_nonneg fun i _ => hH i j z,
   fun i => Finset.sum_nonneg fun j _ => hH i j z⟩

include hH in
/-- A stratum: each term is at least `h - c r / T`, and these lower bounds sum to zero. -/
theorem stratum (hT : 0 < tabTot H xs ys z) :
    (0 ≤ ∑ i ∈ range xs, ∑ j ∈ range ys,
      H i j z * Real.log (H i j z * tabTot H xs ys z / (tabCol H xs j z * tabRow H ys i z))) ∧
    ((∑ i ∈ range xs, ∑ j ∈ range ys,
      H i j z * Real.log (H i j z * tabTot H xs ys z / (tabCol H xs j z * tabRow H ys i z))) = 0 ↔
     ∀ i < xs, ∀ j < ys, H i j z * tabTot H xs ys z = tabCol H xs j z * tabRow H ys i z) := by
  obtain ⟨_, hc, hr⟩ := tab_nonneg hH xs ys z
  set T := tabTot H xs ys z with hTd
  let p : Nat → Nat → ℝ := fun i j => tabCol H xs j z * tabRow H ys i z / T
  have hp : ∀ i j, 0 ≤ p i j := fun i j => div_nonneg (mul_nonneg (hc j) (hr i)) hT.le
  have hform : ∀ i j, H i j z * T / (tabCol H xs j z * tabRow H ys i z) = H i j z / p i j := by
    intro i j
    dsimp only [p]
    rw [div_div_eq_mul_div]
  have hz : ∀ i < xs, ∀ j < ys, p i j = 0 → H i j z = 0 := by
    intro i hi j hj h0
    rcases (div_eq_zero_iff.1 h0) with h | h
    · rcases mul_eq_zero.1 h with h | h
      · exact le_antisymm (h ▸ Finset.single_le_sum (f := fun i => H i j z) (fun i _ => hH i j z) (Finset.mem_range.2 hi)) (hH ..)
      · exact le_antisymm (h ▸ Finset.single_le_sum (f := fun j => H i j z) (fun j _ => hH i j z) (Finset.mem_range.2 hj)) (hH ..)
    · exact absurd h hT.ne'
  have hrow : ∑ i ∈ range xs, tabRow H ys i z = T := rfl
  have hcol : ∑ j ∈ range ys, tabCol H xs j z = T := Finset.sum_comm
  have hsum : ∑ i ∈ range xs, ∑ j ∈ range ys, (H i j z - p i j) = 0 := by
    have e1 : ∀ i, ∑ j ∈ range ys, (H i j z - p i j) = tabRow H ys i z - tabRow H ys i z := by
      intro i
      rw [Finset.sum_sub_distrib]
      have : ∑ j ∈ range ys, p i j = tabRow H ys i z := by
        dsimp only [p]
        rw [← Finset.sum_div, ← Finset.sum_mul, hcol]
        field_simp
      rw [this]; rfl
    simp [e1]
  have hle : ∀ i < xs, ∀ j < ys, H i j z - p i j ≤ H i j z * Real.log (H i j z / p i j) :=
    fun i hi j hj => (log_ineq (hH i j z) (hp i j) (hz i hi j hj)).1
  simp only [hform]
  have hle' : ∀ i ∈ range xs, ∑ j ∈ range ys, (H i j z - p i j) ≤ ∑ j ∈ range ys, H i j z * Real.log (H i j z / p i j) :=
    fun i hi => Finset.sum_le_sum fun j hj => hle i (Finset.mem_range.1 hi) j (Finset.mem_range.1 hj)
  refine ⟨hsum ▸ Finset.sum_le_sum hle', ?_, ?_⟩
  · intro h0 i hi j hj
    have h1 := (Finset.sum_eq_sum_iff_of_le hle').1 (by rw [h0, hsum]) i (Finset.mem_range.2 hi)
    have h2 := (Finset.sum_eq_sum_iff_of_le (fun j hj => hle i hi j (Finset.mem_range.1 hj))).1 h1 j (Finset.mem_range.2 hj)
    have h3 := (log_ineq (hH i j z) (hp i j) (hz i hi j hj)).2 h2.symm
    dsimp only [p] at h3
    rw [h3]; field_simp
  · intro h
    refine Finset.sum_eq_zero fun i hi => Finset.sum_eq_zero fun j hj => ?_
    have h1 : H i j z = p i j := by
      dsimp only [p]; rw [← h i (Finset.mem_range.1 hi) j (Finset.mem_range.1 hj)]; field_simp
    rw [← h1]
    rcases eq_or_ne (H i j z) 0 with e | e
    · rw [e, zero_mul]
    · rw [div_self e, Real.log_one, mul_zero]

include hH in
theorem stratum_zero (hT : tabTot H xs ys z = 0) : ∀ i < xs, ∀ j < ys, H i j z = 0 := by
  intro i hi j hj
  have h1 := (Finset.sum_eq_zero_iff_of_nonneg (fun i _ => Finset.sum_nonneg fun j _ => hH i j z)).1 hT i (Finset.mem_range.2 hi)
  exact (Finset.sum_eq_zero_iff_of_nonneg (fun j _ => hH i j z)).1 h1 j (Finset.mem_range.2 hj)

include hH in
theorem stratum' :
    (0 ≤ ∑ i ∈ range xs, ∑ j ∈ range ys,
      H i j z * Real.log (H i j z * tabTot H xs ys z / (tabCol H xs j z * tabRow H ys i z))) ∧
    ((∑ i ∈ range xs, ∑ j ∈ range ys,
      H i j z * Real.log (H i j z * tabTot H xs ys z / (tabCol H xs j z * tabRow H ys i z))) = 0 ↔
     ∀ i < xs, ∀ j < ys, H i j z * tabTot H xs ys z = tabCol H xs j z * tabRow H ys i z) := by
  rcases (tab_nonneg hH xs ys z).1.eq_or_lt with h | h
  · have h0 := stratum_zero hH xs ys z h.symm
    have hs : (∑ i ∈ range xs, ∑ j ∈ range ys,
      H i j z * Real.log (H i j z * tabTot H xs ys z / (tabCol H xs j z * tabRow H ys i z))) = 0 :=
      Finset.sum_eq_zero fun i hi => Finset.sum_eq_zero fun j hj => by
        rw [h0 i (Finset.mem_range.1 hi) j (Finset.mem_range.1 hj), zero_mul]
    refine ⟨hs.ge, fun _ i hi j hj => ?_, fun _ => hs⟩
    have : tabCol H xs j z = 0 := Finset.sum_eq_zero fun i hi => h0 i (Finset.mem_range.1 hi) j hj
    rw [h0 i hi j hj, this, zero_mul, zero_mul]
  · exact stratum hH xs ys z h

include hH in
theorem cmi_nonneg (cs : Nat) {N : ℝ} (hN : 0 < N) :
    0 ≤ cmiFromCounts H xs ys cs N ∧
    (cmiFromCounts H xs ys cs N = 0 ↔
      ∀ z < cs, ∀ i < xs, ∀ j < ys, H i j z * tabTot H xs ys z = tabCol H xs j z * tabRow H ys i z) := by
  rw [cmi_eq_sum' hH]
  refine ⟨div_nonneg (Finset.sum_nonneg fun z _ => (stratum' hH xs ys z).1) hN.le, ?_⟩
  rw [div_eq_zero_iff, or_iff_left hN.ne', Finset.sum_eq_zero_iff_of_nonneg (fun z _ => (stratum' hH xs ys z).1)]
  exact forall_congr' fun z => by rw [Finset.mem_range, (stratum' hH xs ys z).2]

/-! ### tables of records -/

section
variable {β : Type}

/-- Total weight of the records satisfying `p`, as a sum over all records. -/
noncomputable def wsum (recs : List (β × ℝ)) (p : β → Prop) : ℝ :=
  open Classical in
  (recs.map (fun r => if p r.1 then r.2 else 0)).sum

theorem wsum_congr {recs : List (β × ℝ)} {p q : β → Prop} (h : ∀ r ∈ recs, (p r.1 ↔ q r.1)) : wsum recs p = wsum recs q := by
  rw [wsum, wsum]
  congr 1
  refine List.map_congr_left fun r hr => ?_
  by_cases hp : p r.1
  · rw [if_pos hp, if_pos ((h r hr).1 hp)]
  · rw [if_neg hp, if_neg (fun hq => hp ((h r hr).2 hq))]

theorem wsum_nonneg {recs : List (β × ℝ)} (hw : ∀ r ∈ recs, 0 ≤ r.2) (p : β → Prop) : 0 ≤ wsum recs p := by
  refine List.sum_nonneg fun a ha => ?_
  obtain ⟨r, hr, rfl⟩ := List.mem_map.1 ha
  split_ifs
  · exact hw r hr
  · exact le_rfl

theorem wsum_zero {recs : List (β × ℝ)} {p : β → Prop} (h : ∀ r ∈ recs, ¬ p r.1) : wsum recs p = 0 := by
  refine List.sum_eq_zero fun a ha => ?_
  obtain ⟨r, hr, rfl⟩ := List.mem_map.1 ha
  simp [h r hr]

theorem sum_list_comm (n : Nat) (recs : List (β × ℝ)) (f : Nat → β × ℝ → ℝ) :
    ∑ k ∈ range n, (recs.map (f k)).sum = (recs.map (fun r => ∑ k ∈ range n, f k r)).sum := by
  induction recs with
  | nil => simp
  | cons r recs ih => simp only [List.map_cons, List.sum_cons, Finset.sum_add_distrib, ih]

theorem wsum_sum (recs : List (β × ℝ)) (f : β → Nat) (n : Nat) (hf : ∀ r ∈ recs, f r.1 < n) (p : β → Prop) :
    ∑ k ∈ range n, wsum recs (fun r => f r = k ∧ p r) = wsum recs p := by
  classical
  unfold wsum
  rw [sum_list_comm]
  congr 1
  refine List.map_congr_left fun r hr => ?_
  rw [Finset.sum_eq_single (f r.1)]
  · simp
  · intro k _ hk
    rw [if_neg (fun h => hk h.1.symm)]
  · intro h
    exact absurd (Finset.mem_range.2 (hf r hr)) h

/-- Summing a function of the cell over all cells, weighted by the table, is summing it over the records. -/
theorem cells_sum (recs : List (β × ℝ)) (fi fj fk : β → Nat) {xs ys cs : Nat}
    (hi : ∀ r ∈ recs, fi r.1 < xs) (hj : ∀ r ∈ recs, fj r.1 < ys) (hk : ∀ r ∈ recs, fk r.1 < cs) (L : Nat → Nat → Nat → ℝ) :
    ∑ z ∈ range cs, ∑ i ∈ range xs, ∑ j ∈ range ys, wsum recs (fun r => fi r = i ∧ fj r = j ∧ fk r = z) * L i j z =
      (recs.map (fun r => r.2 * L (fi r.1) (fj r.1) (fk r.1))).sum := by
  classical
  have e : ∀ i j z, wsum recs (fun r => fi r = i ∧ fj r = j ∧ fk r = z) * L i j z =
      (recs.map (fun r => if fk r.1 = z then (if fi r.1 = i then (if fj r.1 = j then r.2 * L i j z else 0) else 0) else 0)).sum := by
    intro i j z
    rw [wsum, ← List.sum_map_mul_right]
    congr 1
    refine List.map_congr_left fun r _ => ?_
    by_cases h1 : fi r.1 = i <;> by_cases h2 : fj r.1 = j <;> by_cases h3 : fk r.1 = z <;> simp [h1, h2, h3]
  simp only [e, sum_list_comm]
  congr 1
  refine List.map_congr_left fun r hr => ?_
  rw [Finset.sum_eq_single (fk r.1), Finset.sum_eq_single (fi r.1), Finset.sum_eq_single (fj r.1)]
  · simp
  · intro j _ h; simp [Ne.symm h]
  · intro h; exact absurd (Finset.mem_range.2 (hj r hr)) h
  · intro i _ h; simp [Ne.symm h]
  · intro h; exact absurd (Finset.mem_range.2 (hi r hr)) h
  · intro z _ h; simp [Ne.symm h]
  · intro h; exact absurd (Finset.mem_range.2 (hk r hr)) h

variable {recs : List (β × ℝ)} {fi fj fk : β → Nat} {xs ys cs : Nat}

theorem rec_tot (hi : ∀ r ∈ recs, fi r.1 < xs) (hj : ∀ r ∈ recs, fj r.1 < ys) (z : Nat) :
    tabTot (fun i j z => wsum recs (fun r => fi r = i ∧ fj r = j ∧ fk r = z)) xs ys z = wsum recs (fun r => fk r = z) := by
  rw [tabTot, ← wsum_sum recs fi xs hi]
  refine Finset.sum_congr rfl fun i _ => ?_
  rw [← wsum_sum recs fj ys hj]
  exact Finset.sum_congr rfl fun j _ => wsum_congr fun r _ => by tauto

theorem rec_col (hi : ∀ r ∈ recs, fi r.1 < xs) (j z : Nat) :
    tabCol (fun i j z => wsum recs (fun r => fi r = i ∧ fj r = j ∧ fk r = z)) xs j z =
      wsum recs (fun r => fj r = j ∧ fk r = z) := by
  rw [tabCol, ← wsum_sum recs fi xs hi]

theorem rec_row (hj : ∀ r ∈ recs, fj r.1 < ys) (i z : Nat) :
    tabRow (fun i j z => wsum recs (fun r => fi r = i ∧ fj r = j ∧ fk r = z)) ys i z =
      wsum recs (fun r => fi r = i ∧ fk r = z) := by
  rw [tabRow, ← wsum_sum recs fj ys hj]
  exact Finset.sum_congr rfl fun j _ => wsum_congr fun r _ => by tauto

/-- The statistic of a table of records, written over the records. -/
theorem cmi_records (hw : ∀ r ∈ recs, 0 ≤ r.2) (hi : ∀ r ∈ recs, fi r.1 < xs) (hj : ∀ r ∈ recs, fj r.1 < ys)
    (hk : ∀ r ∈ recs, fk r.1 < cs) (N : ℝ) :
    cmiFromCounts (fun i j z => wsum recs (fun r => fi r = i ∧ fj r = j ∧ fk r = z)) xs ys cs N =
      (recs.map (fun r => r.2 * Real.log
        (wsum recs (fun s => fi s = fi r.1 ∧ fj s = fj r.1 ∧ fk s = fk r.1) * wsum recs (fun s => fk s = fk r.1) /
          (wsum recs (fun s => fj s = fj r.1 ∧ fk s = fk r.1) * wsum recs (fun s => fi s = fi r.1 ∧ fk s = fk r.1))))).sum / N := by
  rw [cmi_eq_sum' (fun i j z => wsum_nonneg hw _)]
  congr 1
  rw [← cells_sum recs fi fj fk hi hj hk (fun i j z => Real.log
        (wsum recs (fun s => fi s = i ∧ fj s = j ∧ fk s = z) * wsum recs (fun s => fk s = z) /
          (wsum recs (fun s => fj s = j ∧ fk s = z) * wsum recs (fun s => fi s = i ∧ fk s = z))))]
  simp only [rec_tot hi hj, rec_col hi, rec_row hj]

end

end Verif
