import Verif.Lemmas.CmiData

/-! # Variable sizes, and independence read off the table -/

namespace Verif

open Finset

theorem getD_getElem {r : List Int} {v : Nat} (h : v < r.length) : r.getD v 0 = r[v] := by
  rw [List.getD_eq_getElem?_getD, List.getElem?_eq_getElem h, Option.getD_some]

theorem foldl_max_spec : ∀ (l : List Int) (a : Int), (∀ b ∈ a :: l, b ≤ l.foldl max a) ∧ l.foldl max a ∈ a :: l
  | [], a => by simp
  | b :: l, a => by
    obtain ⟨h1, h2⟩ := foldl_max_spec l (max a b)
    rw [List.foldl_cons]
    constructor
    · intro c hc
      have hm := h1 (max a b) (by simp)
      rcases List.mem_cons.1 hc with rfl | hc
      · exact (le_max_left _ _).trans hm
      rcases List.mem_cons.1 hc with rfl | hc
      · exact (le_max_right _ _).trans hm
      · exact h1 c (by simp [hc])
    · rcases List.mem_cons.1 h2 with h | h
      · rw [h]
        rcases max_choice a b with e | e <;> rw [e] <;> simp
      · simp [h]

/-- Sizes are the least upper bounds of the columns. -/
theorem getVarSize_spec {data : List (List Int)} {m : Nat} (hne : data ≠ []) (hm : ∀ r ∈ data, r.length = m) :
    ∃ l, getVarSize data m = .ok l ∧ l.length = m ∧ ∀ v < m,
      (∀ r ∈ data, r.getD v 0 < l.getD v 0) ∧ ∃ r ∈ data, l.getD v 0 = r.getD v 0 + 1 := by
  obtain ⟨r0, data', rfl⟩ := List.exists_cons_of_ne_nil hne
  have hcol : ∀ v < m, column (r0 :: data') v = .ok ((r0 :: data').map (·.getD v 0)) := by
    intro v hv
    refine mapM_ok _ fun r hr => ?_
    rw [List.getElem?_eq_getElem (by rw [hm r hr]; exact hv), getD_getElem (by rw [hm r hr]; exact hv)]
  refine ⟨(List.range m).map (fun v => (data'.map (·.getD v 0)).foldl max (r0.getD v 0) + 1), ?_, by simp, ?_⟩
  · refine mapM_ok _ fun v hv => ?_
    rw [py_bind (hcol v (List.mem_range.1 hv))]
    rfl
  · intro v hv
    have e : ((List.range m).map (fun v => (data'.map (·.getD v 0)).foldl max (r0.getD v 0) + 1)).getD v 0 =
        (data'.map (·.getD v 0)).foldl max (r0.getD v 0) + 1 := by
      rw [getD_getElem (by simpa using hv)]; simp
    rw [e]
    obtain ⟨h1, h2⟩ := foldl_max_spec (data'.map (·.getD v 0)) (r0.getD v 0)
    constructor
    · intro r hr
      have := h1 (r.getD v 0) (by
        rcases List.mem_cons.1 hr with rfl | hr
        · simp
        · exact List.mem_cons_of_mem _ (List.mem_map.2 ⟨r, hr, rfl⟩))
      omega
    · obtain ⟨r, hr, hrv⟩ := List.mem_map.1 (show _ ∈ (r0 :: data').map (fun r => r.getD v 0) from h2)
      exact ⟨r, hr, by rw [hrv]⟩

theorem inSizes_of : ∀ {r l : List Int}, r.length = l.length → (∀ v < l.length, 0 ≤ r.getD v 0 ∧ r.getD v 0 < l.getD v 0) →
    InSizes r l
  | [], [], _, _ => trivial
  | a :: r, s :: l, h, hv => ⟨by simpa using hv 0 (by simp), inSizes_of (by simpa using h) (fun v hvl => by
      simpa using hv (v + 1) (by simpa using hvl))⟩

theorem mem_of_getD {r : List Int} {v : Nat} (h : v < r.length) : r.getD v 0 ∈ r := by
  rw [getD_getElem h]; exact List.getElem_mem h

/-- The sizes of non-negative data contain the data. -/
theorem getVarSize_inSizes {data : List (List Int)} {m : Nat} (hne : data ≠ []) (hm : ∀ r ∈ data, r.length = m)
    (h0 : ∀ r ∈ data, ∀ a ∈ r, 0 ≤ a) : ∃ l, getVarSize data m = .ok l ∧ l.length = m ∧ ∀ r ∈ data, InSizes r l := by
  obtain ⟨l, h1, h2, h3⟩ := getVarSize_spec hne hm
  refine ⟨l, h1, h2, fun r hr => inSizes_of (by rw [hm r hr, h2]) fun v hv => ?_⟩
  exact ⟨h0 r hr _ (mem_of_getD (by rw [hm r hr]; omega)), (h3 v (by omega)).1 r hr⟩

section
variable {recs : List (List Int × ℝ)} {l : List Int} {x y : Nat} {zz : List Nat}

theorem AgreeOn.symm {S : List Nat} {r s : List Int} (h : AgreeOn S r s) : AgreeOn S s r := fun v hv => (h v hv).symm
theorem AgreeOn.trans {S : List Nat} {r s t : List Int} (h : AgreeOn S r s) (h' : AgreeOn S s t) : AgreeOn S r t :=
  fun v hv => (h v hv).trans (h' v hv)

/-- A table of records factorises iff the empirical distribution does. -/
theorem factor_iff (hin : ∀ r ∈ recs, InSizes r.1 l) (hx : x < l.length) (hy : y < l.length)
    (hz : ∀ v ∈ zz, v < l.length) :
    (∀ z < ((zz.map (l.getD · 0)).prod).toNat, ∀ i < (l.getD x 0).toNat, ∀ j < (l.getD y 0).toNat,
      wsum recs (fun r => (r.getD x 0).toNat = i ∧ (r.getD y 0).toNat = j ∧ zcode l zz r = z) *
        wsum recs (fun r => zcode l zz r = z) =
      wsum recs (fun r => (r.getD y 0).toNat = j ∧ zcode l zz r = z) *
        wsum recs (fun r => (r.getD x 0).toNat = i ∧ zcode l zz r = z)) ↔ EmpiricalIndep recs x y zz := by
  have hval : ∀ r ∈ recs, ∀ v < l.length, ∀ a : Int, 0 ≤ a → ((r.1.getD v 0).toNat = a.toNat ↔ r.1[v]? = some a) := by
    intro r hr v hv a ha
    have h1 := (hin r hr).get v hv
    rw [h1.1, Option.some.injEq]; omega
  constructor
  · intro h a b c
    simp only [weightOf_eq_wsum]
    by_cases hc : ∃ r0 ∈ recs, AgreeOn zz r0.1 c
    · obtain ⟨r0, hr0, h0⟩ := hc
      by_cases ha : ∃ r1 ∈ recs, r1.1[x]? = some a
      · by_cases hb : ∃ r2 ∈ recs, r2.1[y]? = some b
        · obtain ⟨r1, hr1, ha⟩ := ha
          obtain ⟨r2, hr2, hb⟩ := hb
          have h1 := (hin r1 hr1).get x hx
          have h2 := (hin r2 hr2).get y hy
          rw [ha, Option.some.injEq] at h1
          rw [hb, Option.some.injEq] at h2
          have key := h (zcode l zz r0.1) (zcode_lt (hin r0 hr0) hz) a.toNat (by omega) b.toNat (by omega)
          have hz' : ∀ r ∈ recs, (zcode l zz r.1 = zcode l zz r0.1 ↔ AgreeOn zz r.1 c) := fun r hr => by
            rw [zcode_inj (hin r hr) (hin r0 hr0) hz]
            exact ⟨fun e => e.trans h0, fun e => e.trans h0.symm⟩
          have ex := fun r hr => hval r hr x hx a (by omega)
          have ey := fun r hr => hval r hr y hy b (by omega)
          rw [wsum_congr (q := fun r => r[x]? = some a ∧ r[y]? = some b ∧ AgreeOn zz r c)
              (fun r hr => by rw [ex r hr, ey r hr, hz' r hr]),
            wsum_congr (p := fun r => zcode l zz r = zcode l zz r0.1) (q := fun r => AgreeOn zz r c) hz',
            wsum_congr (p := fun r => (r.getD y 0).toNat = b.toNat ∧ zcode l zz r = zcode l zz r0.1)
              (q := fun r => r[y]? = some b ∧ AgreeOn zz r c) (fun r hr => by rw [ey r hr, hz' r hr]),
            wsum_congr (p := fun r => (r.getD x 0).toNat = a.toNat ∧ zcode l zz r = zcode l zz r0.1)
              (q := fun r => r[x]? = some a ∧ AgreeOn zz r c) (fun r hr => by rw [ex r hr, hz' r hr])] at key
          rw [key, mul_comm]
        · push Not at hb
          rw [wsum_zero (fun r hr e => hb r hr e.2.1), wsum_zero (p := fun r => r[y]? = some b ∧ AgreeOn zz r c)
            (fun r hr e => hb r hr e.1), zero_mul, mul_zero]
      · push Not at ha
        rw [wsum_zero (fun r hr e => ha r hr e.1), wsum_zero (p := fun r => r[x]? = some a ∧ AgreeOn zz r c)
          (fun r hr e => ha r hr e.1), zero_mul, zero_mul]
    · push Not at hc
      rw [wsum_zero (fun r hr e => hc r hr e.2.2), wsum_zero (p := fun r => r[x]? = some a ∧ AgreeOn zz r c)
        (fun r hr e => hc r hr e.2), zero_mul, zero_mul]
  · intro h z _ i _ j _
    by_cases hc : ∃ r0 ∈ recs, zcode l zz r0.1 = z
    · obtain ⟨r0, hr0, rfl⟩ := hc
      have key := h i j r0.1
      simp only [weightOf_eq_wsum] at key
      have hz' : ∀ r ∈ recs, (zcode l zz r.1 = zcode l zz r0.1 ↔ AgreeOn zz r.1 r0.1) := fun r hr =>
        zcode_inj (hin r hr) (hin r0 hr0) hz
      have ex := fun r hr => hval r hr x hx i (by omega)
      have ey := fun r hr => hval r hr y hy j (by omega)
      simp only [Int.toNat_natCast] at ex ey
      rw [wsum_congr (q := fun r => r[x]? = some (i : Int) ∧ r[y]? = some (j : Int) ∧ AgreeOn zz r r0.1)
          (fun r hr => by rw [ex r hr, ey r hr, hz' r hr]),
        wsum_congr (p := fun r => zcode l zz r = zcode l zz r0.1) (q := fun r => AgreeOn zz r r0.1) hz',
        wsum_congr (p := fun r => (r.getD y 0).toNat = j ∧ zcode l zz r = zcode l zz r0.1)
          (q := fun r => r[y]? = some (j : Int) ∧ AgreeOn zz r r0.1) (fun r hr => by rw [ey r hr, hz' r hr]),
        wsum_congr (p := fun r => (r.getD x 0).toNat = i ∧ zcode l zz r = zcode l zz r0.1)
          (q := fun r => r[x]? = some (i : Int) ∧ AgreeOn zz r r0.1) (fun r hr => by rw [ex r hr, hz' r hr])]
      rw [key, mul_comm]
    · push Not at hc
      rw [wsum_zero (fun r hr e => hc r hr e.2.2), wsum_zero (p := fun r => (r.getD y 0).toNat = j ∧ zcode l zz r = z)
        (fun r hr e => hc r hr e.2), zero_mul, zero_mul]

end

end Verif
