import Verif.Lemmas.Cmi

/-! # The conditional mutual information of a data set -/

namespace Verif

open Finset

theorem InSizes.get : ∀ {r l : List Int}, InSizes r l → ∀ v < l.length,
    r[v]? = some (r.getD v 0) ∧ l[v]? = some (l.getD v 0) ∧ 0 ≤ r.getD v 0 ∧ r.getD v 0 < l.getD v 0
  | [], [], _, v, hv => by simp at hv
  | a :: r, s :: l, h, 0, _ => by simpa using h.1
  | a :: r, s :: l, h, v + 1, hv => by simpa using h.2.get v (by simpa using hv)

theorem InSizes.pick {r l : List Int} (h : InSizes r l) : ∀ (idx : List Nat), (∀ v ∈ idx, v < l.length) →
    InSizes (idx.map (r.getD · 0)) (idx.map (l.getD · 0))
  | [], _ => trivial
  | v :: idx, hv => ⟨(h.get v (hv v (by simp))).2.2, h.pick idx (fun w hw => hv w (by simp [hw]))⟩

theorem pick_ok {r : List Int} {idx : List Nat} (h : ∀ v ∈ idx, r[v]? = some (r.getD v 0)) :
    pick r idx = .ok (idx.map (r.getD · 0)) := by
  refine mapM_ok idx fun v hv => ?_
  rw [h v hv]

theorem filter_sum_wsum {β : Type} (g : β → Int) (k : Int) : ∀ (data : List β) (ws : List ℝ),
    ((((data.map g).zip ws).filter (fun iw => iw.1 = k)).map Prod.snd).sum = wsum (data.zip ws) (fun r => g r = k)
  | [], ws => by simp [wsum]
  | a :: data, [] => by simp [wsum]
  | a :: data, w :: ws => by
    have ih := filter_sum_wsum g k data ws
    unfold wsum at ih ⊢
    simp only [List.map_cons, List.zip_cons_cons, List.filter_cons, decide_eq_true_eq, List.sum_cons]
    split_ifs with h
    · simp [ih]
    · simp [ih]

theorem cmi_congr {H H' : Nat → Nat → Nat → ℝ} {xs ys cs : Nat} (h : ∀ i < xs, ∀ j < ys, ∀ z < cs, H i j z = H' i j z) (N : ℝ) :
    cmiFromCounts H xs ys cs N = cmiFromCounts H' xs ys cs N := by
  rw [cmi_eq_sum, cmi_eq_sum]
  refine Finset.sum_congr rfl fun z hz => Finset.sum_congr rfl fun i hi => Finset.sum_congr rfl fun j hj => ?_
  rw [Finset.mem_range] at hz hi hj
  have e1 : tabTot H xs ys z = tabTot H' xs ys z :=
    Finset.sum_congr rfl fun i hi => Finset.sum_congr rfl fun j hj => h i (Finset.mem_range.1 hi) j (Finset.mem_range.1 hj) z hz
  have e2 : tabCol H xs j z = tabCol H' xs j z := Finset.sum_congr rfl fun i hi => h i (Finset.mem_range.1 hi) j hj z hz
  have e3 : tabRow H ys i z = tabRow H' ys i z := Finset.sum_congr rfl fun j hj => h i hi j (Finset.mem_range.1 hj) z hz
  rw [e1, e2, e3, h i hi j hj z hz]

theorem radix3 {X Y C : Nat} {a b c : Int} {i j k : Nat} (ha : 0 ≤ a ∧ a < X) (hb : 0 ≤ b ∧ b < Y) (hc : 0 ≤ c ∧ c < C)
    (hi : i < X) (hj : j < Y) (hk : k < C) :
    a + X * (b + Y * c) = ((i + X * (j + Y * k) : Nat) : Int) ↔ a.toNat = i ∧ b.toNat = j ∧ c.toNat = k := by
  constructor
  · intro h
    have := InSizes.radix_inj (r := [a, b, c]) (r' := [(i : Int), j, k]) (l := [(X : Int), Y, C])
      ⟨ha, hb, hc, trivial⟩ ⟨by omega, by omega, by omega, trivial⟩ (by simp [radix]; push_cast at h; linarith)
    simp only [List.cons.injEq, and_true] at this
    omega
  · rintro ⟨rfl, rfl, rfl⟩
    push_cast
    rw [Int.toNat_of_nonneg ha.1, Int.toNat_of_nonneg hb.1, Int.toNat_of_nonneg hc.1]

/-- The code of the values of the columns `zz`. -/
def zcode (l : List Int) (zz : List Nat) (r : List Int) : Nat := (radix (zz.map (r.getD · 0)) (zz.map (l.getD · 0))).toNat

section
variable {data : List (List Int)} {l : List Int} {ws : List ℝ} {x y : Nat} {zz : List Nat}

theorem zcode_lt {r : List Int} (h : InSizes r l) (hz : ∀ v ∈ zz, v < l.length) :
    zcode l zz r < ((zz.map (l.getD · 0)).prod).toNat := by
  have := (h.pick zz hz).radix_lt
  unfold zcode; omega

theorem zcode_inj {r s : List Int} (h : InSizes r l) (h' : InSizes s l) (hz : ∀ v ∈ zz, v < l.length) :
    zcode l zz r = zcode l zz s ↔ AgreeOn zz r s := by
  have h1 := (h.pick zz hz).radix_lt
  have h2 := (h'.pick zz hz).radix_lt
  constructor
  · intro he
    have e := (h.pick zz hz).radix_inj (h'.pick zz hz) (by unfold zcode at he; omega)
    intro v hv
    rw [(h.get v (hz v hv)).1, (h'.get v (hz v hv)).1]
    rw [List.map_inj_left] at e
    rw [e v hv]
  · intro ha
    have : zz.map (r.getD · 0) = zz.map (s.getD · 0) := by
      refine List.map_congr_left fun v hv => ?_
      rw [List.getD_eq_getElem?_getD, List.getD_eq_getElem?_getD, ha v hv]
    rw [zcode, zcode, this]

theorem val_inj {r s : List Int} (h : InSizes r l) (h' : InSizes s l) {v : Nat} (hv : v < l.length) :
    (r.getD v 0).toNat = (s.getD v 0).toNat ↔ r[v]? = s[v]? := by
  have h1 := h.get v hv
  have h2 := h'.get v hv
  rw [h1.1, h2.1, Option.some.injEq]
  omega

theorem cmiStatistic_table (hne : data ≠ []) (hd : ∀ r ∈ data, InSizes r l) (weights : Option (List ℝ))
    (hwl : ∀ w, weights = some w → w.length = data.length) (hx : x < l.length) (hy : y < l.length)
    (hz : ∀ v ∈ zz, v < l.length) :
    cmiStatistic data l weights x y zz = .ok (cmiFromCounts
      (fun i j z => wsum (data.zip (weights.getD (List.replicate data.length 1)))
        (fun r => (r.getD x 0).toNat = i ∧ (r.getD y 0).toNat = j ∧ zcode l zz r = z))
      (l.getD x 0).toNat (l.getD y 0).toNat ((zz.map (l.getD · 0)).prod).toNat data.length) := by
  have hidx : ∀ v ∈ x :: y :: zz, v < l.length := by
    intro v hv
    rcases List.mem_cons.1 hv with rfl | hv
    · exact hx
    rcases List.mem_cons.1 hv with rfl | hv
    · exact hy
    · exact hz v hv
  obtain ⟨r0, hr0⟩ := List.exists_mem_of_ne_nil _ hne
  have h1 : data.mapM (fun row => pick row (x :: y :: zz)) = .ok (data.map (fun r => (x :: y :: zz).map (r.getD · 0))) :=
    mapM_ok data fun r hr => pick_ok fun v hv => ((hd r hr).get v (hidx v hv)).1
  have h2 : pick l (x :: y :: zz) = .ok ((x :: y :: zz).map (l.getD · 0)) :=
    pick_ok fun v hv => ((hd r0 hr0).get v (hidx v hv)).2.1
  obtain ⟨H, h3, h4, h5⟩ := calcStats_run (W := ℝ) (data := data.map (fun r => (x :: y :: zz).map (r.getD · 0)))
    (l := (x :: y :: zz).map (l.getD · 0)) (by simp) ((hd r0 hr0).pick _ hidx).pos
    (fun a ha => by obtain ⟨r, hr, rfl⟩ := List.mem_map.1 ha; exact (hd r hr).pick _ hidx) weights
    (fun w hw => by rw [hwl w hw, List.length_map])
  have px : 0 < l.getD x 0 := by have := (hd r0 hr0).get x hx; omega
  have py : 0 < l.getD y 0 := by have := (hd r0 hr0).get y hy; omega
  have pz : 0 < (zz.map (l.getD · 0)).prod := List.prod_pos fun s hs => ((hd r0 hr0).pick zz hz).pos s hs
  obtain ⟨X, hX⟩ : ∃ X : Nat, l.getD x 0 = X := ⟨(l.getD x 0).toNat, by omega⟩
  obtain ⟨Y, hY⟩ : ∃ Y : Nat, l.getD y 0 = Y := ⟨(l.getD y 0).toNat, by omega⟩
  obtain ⟨C, hC⟩ : ∃ C : Nat, (zz.map (l.getD · 0)).prod = C := ⟨((zz.map (l.getD · 0)).prod).toNat, by omega⟩
  have hlen : H.length = X * Y * C := by
    rw [h4, List.map_cons, List.map_cons, List.prod_cons, List.prod_cons, hX, hY, hC]
    rw [← mul_assoc]; exact_mod_cast Int.toNat_natCast (X * Y * C)
  have hXp : 0 < X := by omega
  have hYp : 0 < Y := by omega
  have hXY : 0 < X * Y := Nat.mul_pos hXp hYp
  rw [cmiStatistic]
  refine (py_bind h1 _).trans ?_
  refine (py_bind h2 _).trans ?_
  refine (py_bind h3 _).trans ?_
  have g0 : ((x :: y :: zz).map (l.getD · 0)).getD 0 0 = (X : Int) := by simpa using hX
  have g1 : ((x :: y :: zz).map (l.getD · 0)).getD 1 0 = (Y : Int) := by simpa using hY
  rw [g0, g1, if_neg (by
    rintro (h | h | h)
    · omega
    · omega
    · apply h
      rw [hlen]; push_cast
      exact Int.emod_eq_zero_of_dvd (dvd_mul_right _ _))]
  have hdiv : H.length / ((X : Int).toNat * (Y : Int).toNat) = C := by
    rw [Int.toNat_natCast, Int.toNat_natCast, hlen, Nat.mul_div_cancel_left _ hXY]
  refine congrArg Except.ok ?_
  rw [hdiv, hX, hY, hC]
  simp only [Int.toNat_natCast]
  refine cmi_congr (fun i hi j hj z hz' => ?_) _
  have hk : i + X * (j + Y * z) < H.length := by
    rw [hlen]
    have a1 : j + Y * z + 1 ≤ Y * C := by
      have : Y * (z + 1) ≤ Y * C := Nat.mul_le_mul_left _ hz'
      rw [Nat.mul_add] at this; omega
    have a2 : X * (j + Y * z + 1) ≤ X * (Y * C) := Nat.mul_le_mul_left _ a1
    rw [Nat.mul_add] at a2
    rw [Nat.mul_assoc]; omega
  rw [List.getD_eq_getElem?_getD, h5 _ (h4 ▸ hk), Option.getD_some, List.map_map, List.length_map, filter_sum_wsum]
  refine wsum_congr fun r hr => ?_
  have hrd : InSizes r.1 l := hd _ (List.of_mem_zip (show (r.1, r.2) ∈ _ from hr)).1
  have vx := (hrd.get x hx).2.2
  have vy := (hrd.get y hy).2.2
  have vz := (hrd.pick zz hz).radix_lt
  rw [hX] at vx
  rw [hY] at vy
  rw [hC] at vz
  rw [zcode, ← radix3 vx vy vz hi hj hz', Function.comp_apply, List.map_cons, List.map_cons, List.map_cons, List.map_cons, radix,
    radix, hX, hY]

theorem weightOf_eq_wsum (recs : List (List Int × ℝ)) (p : List Int → Prop) : weightOf recs p = wsum recs p := by
  classical
  unfold weightOf wsum
  induction recs with
  | nil => simp
  | cons r recs ih =>
    simp only [List.filter_cons, decide_eq_true_eq, List.map_cons, List.sum_cons]
    split_ifs with h
    · simp [ih]
    · simp [ih]

theorem agree_cons {v : Nat} {S : List Nat} {r s : List Int} : AgreeOn (v :: S) r s ↔ r[v]? = s[v]? ∧ AgreeOn S r s := by
  simp [AgreeOn]

theorem cmiStatistic_eq (hne : data ≠ []) (hd : ∀ r ∈ data, InSizes r l) (weights : Option (List ℝ))
    (hwl : ∀ w, weights = some w → w.length = data.length ∧ ∀ a ∈ w, 0 ≤ a) (hx : x < l.length) (hy : y < l.length)
    (hz : ∀ v ∈ zz, v < l.length) :
    cmiStatistic data l weights x y zz =
      .ok (empiricalCmi (data.zip (weights.getD (List.replicate data.length 1))) x y zz) := by
  rw [cmiStatistic_table hne hd weights (fun w hw => (hwl w hw).1) hx hy hz]
  have hlen : (weights.getD (List.replicate data.length 1)).length = data.length := by
    cases weights with
    | none => simp
    | some w => exact (hwl w rfl).1
  set recs := data.zip (weights.getD (List.replicate data.length 1)) with hrecs
  have hin : ∀ r ∈ recs, InSizes r.1 l := fun r hr => hd _ (List.of_mem_zip (show (r.1, r.2) ∈ _ from hr)).1
  have hw : ∀ r ∈ recs, 0 ≤ r.2 := by
    intro r hr
    have := (List.of_mem_zip (show (r.1, r.2) ∈ _ from hr)).2
    cases weights with
    | none => rw [Option.getD_none, List.mem_replicate] at this; rw [this.2]; exact zero_le_one
    | some w => exact (hwl w rfl).2 _ this
  have b1 : ∀ r ∈ recs, (r.1.getD x 0).toNat < (l.getD x 0).toNat := fun r hr => by have := (hin r hr).get x hx; omega
  have b2 : ∀ r ∈ recs, (r.1.getD y 0).toNat < (l.getD y 0).toNat := fun r hr => by have := (hin r hr).get y hy; omega
  rw [cmi_records (fi := fun r => (r.getD x 0).toNat) (fj := fun r => (r.getD y 0).toNat) (fk := zcode l zz) hw b1 b2
    (fun r hr => zcode_lt (hin r hr) hz), empiricalCmi]
  have hl : recs.length = data.length := by rw [hrecs, List.length_zip, hlen, Nat.min_self]
  rw [hl]
  congr 3
  refine List.map_congr_left fun r hr => ?_
  simp only [weightOf_eq_wsum]
  have e1 : wsum recs (fun s => (s.getD x 0).toNat = (r.1.getD x 0).toNat ∧ (s.getD y 0).toNat = (r.1.getD y 0).toNat ∧
      zcode l zz s = zcode l zz r.1) = wsum recs (AgreeOn (x :: y :: zz) r.1) := wsum_congr fun s hs => by
    rw [val_inj (hin s hs) (hin r hr) hx, val_inj (hin s hs) (hin r hr) hy, zcode_inj (hin s hs) (hin r hr) hz, agree_cons,
      agree_cons]
    exact ⟨fun h => ⟨h.1.symm, h.2.1.symm, fun v hv => (h.2.2 v hv).symm⟩, fun h => ⟨h.1.symm, h.2.1.symm, fun v hv => (h.2.2 v hv).symm⟩⟩
  have e2 : wsum recs (fun s => zcode l zz s = zcode l zz r.1) = wsum recs (AgreeOn zz r.1) := wsum_congr fun s hs => by
    rw [zcode_inj (hin s hs) (hin r hr) hz]
    exact ⟨fun h v hv => (h v hv).symm, fun h v hv => (h v hv).symm⟩
  have e3 : ∀ v, v < l.length → wsum recs (fun s => (s.getD v 0).toNat = (r.1.getD v 0).toNat ∧
      zcode l zz s = zcode l zz r.1) = wsum recs (AgreeOn (v :: zz) r.1) := fun v hv => wsum_congr fun s hs => by
    rw [val_inj (hin s hs) (hin r hr) hv, zcode_inj (hin s hs) (hin r hr) hz, agree_cons]
    exact ⟨fun h => ⟨h.1.symm, fun v hv => (h.2 v hv).symm⟩, fun h => ⟨h.1.symm, fun v hv => (h.2 v hv).symm⟩⟩
  rw [e1, e2, e3 x hx, e3 y hy, mul_comm (wsum recs (AgreeOn (y :: zz) r.1))]

end

end Verif
