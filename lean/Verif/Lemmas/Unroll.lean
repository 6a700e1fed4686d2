import Verif.Model.Stats
import Verif.Lemmas.Stats

/-! # Lemmas about unrolling of temporal data -/

namespace Verif

section
variable {W : Type} [Zero W]

omit [Zero W] in
theorem flatten_get : ∀ {data : List (List W)} {m : Nat}, (∀ r ∈ data, r.length = m) → ∀ t v, v < m →
    data.flatten[t * m + v]? = data[t]?.bind (·[v]?)
  | [], m, _, t, v, hv => by simp
  | r :: data, m, h, 0, v, hv => by
    rw [List.flatten_cons, List.getElem?_append_left (by rw [h r (by simp)]; omega)]; simp
  | r :: data, m, h, t + 1, v, hv => by
    have hr := h r (by simp)
    rw [List.flatten_cons, List.getElem?_append_right (by rw [hr, Nat.add_mul]; omega), hr,
      show (t + 1) * m + v - m = t * m + v by rw [Nat.add_mul]; omega,
      flatten_get (fun s hs => h s (by simp [hs])) t v hv]
    simp

omit [Zero W] in
theorem flatten_length {data : List (List W)} {m : Nat} (h : ∀ r ∈ data, r.length = m) : data.flatten.length = data.length * m := by
  induction data with
  | nil => simp
  | cons r data ih =>
    rw [List.flatten_cons, List.length_append, ih (fun s hs => h s (by simp [hs])), h r (by simp), List.length_cons, Nat.add_mul]
    omega

theorem arange_spec {stop : Int} {step : Nat} (hs : 0 < step) :
    ∃ k, arange stop step = .ok ((List.range k).map (· * step)) ∧ ∀ i : Nat, i < k ↔ ((i * step : Nat) : Int) < stop := by
  refine ⟨(stop.toNat + step - 1) / step, by rw [arange, if_neg (by omega)], fun i => ?_⟩
  rw [Nat.lt_iff_add_one_le, Nat.le_div_iff_mul_le hs, Nat.add_mul]
  omega

theorem foldl_set (src : List W) (f : Nat → Nat) : ∀ (ps : List (Nat × Nat)) (row : List W), (∀ p ∈ ps, p.2 = f p.1) →
    (ps.foldl (fun r ij => r.set ij.1 (src.getD ij.2 0)) row).length = row.length ∧
    ∀ p < row.length, (ps.foldl (fun r ij => r.set ij.1 (src.getD ij.2 0)) row)[p]? =
      if p ∈ ps.map Prod.fst then some (src.getD (f p) 0) else row[p]?
  | [], row, _ => by simp
  | (a, b) :: ps, row, h => by
    obtain ⟨h1, h2⟩ := foldl_set src f ps (row.set a (src.getD b 0)) (fun p hp => h p (by simp [hp]))
    have hb : b = f a := h (a, b) (by simp)
    rw [List.length_set] at h1 h2
    refine ⟨h1, fun p hp => ?_⟩
    rw [List.foldl_cons, h2 p hp]
    simp only [List.map_cons, List.mem_cons]
    by_cases h3 : p ∈ ps.map Prod.fst
    · rw [if_pos h3, if_pos (Or.inr h3)]
    · rw [if_neg h3, List.getElem?_set]
      by_cases h4 : a = p
      · subst h4
        rw [if_pos rfl, if_pos hp, if_pos (Or.inl rfl), hb]
      · rw [if_neg h4, if_neg]
        rintro (h5 | h5)
        · exact h4 h5.symm
        · exact h3 h5

/-- The node index lists. -/
theorem nodes_ok {m w : Nat} {obs : List Nat} (ho : ∀ v ∈ obs, v < m) :
    ((List.range w).map (fun i => (List.range m).map (fun v => i * m + v))).mapM (fun l => obs.mapM (fun v => match l[v]? with
      | some a => (.ok a : Py Nat)
      | none => .error .indexError)) = .ok ((List.range w).map (fun i => obs.map (fun v => i * m + v))) := by
  rw [mapM_ok (g := fun l => obs.map (fun v => l.getD v 0)) _ (fun l hl => mapM_ok obs fun v hv => ?_)]
  · congr 1
    rw [List.map_map]
    refine List.map_congr_left fun i _ => List.map_congr_left fun v hv => ?_
    simp [List.getD_eq_getElem?_getD, List.getElem?_range (ho v hv)]
  · obtain ⟨i, _, rfl⟩ := List.mem_map.1 hl
    simp [List.getElem?_range (ho v hv)]

theorem mapM_error {α β : Type} {f : α → Py β} {e : PyErr} : ∀ (l : List α), (∀ a ∈ l, f a = .error e ∨ ∃ b, f a = .ok b) →
    (∃ a ∈ l, f a = .error e) → l.mapM f = .error e
  | [], _, h => by obtain ⟨a, ha, _⟩ := h; simp at ha
  | a :: l, h, h' => by
    rw [List.mapM_cons]
    rcases h a (by simp) with h1 | ⟨b, h1⟩
    · rw [h1]; rfl
    · rw [py_bind h1]
      have : l.mapM f = .error e := mapM_error l (fun c hc => h c (by simp [hc])) (by
        obtain ⟨c, hc, h2⟩ := h'
        rcases List.mem_cons.1 hc with rfl | hc
        · rw [h1] at h2; cases h2
        · exact ⟨c, hc, h2⟩)
      rw [this]; rfl

theorem nodes_err {m w : Nat} {obs : List Nat} (hw : 0 < w) (ho : ∃ v ∈ obs, m ≤ v) :
    ((List.range w).map (fun i => (List.range m).map (fun v => i * m + v))).mapM (fun l => obs.mapM (fun v => match l[v]? with
      | some a => (.ok a : Py Nat)
      | none => .error .indexError)) = .error .indexError := by
  have key : ∀ l ∈ (List.range w).map (fun i => (List.range m).map (fun v => i * m + v)), obs.mapM (fun v => match l[v]? with
      | some a => (.ok a : Py Nat)
      | none => .error .indexError) = .error .indexError := by
    intro l hl
    obtain ⟨i, _, rfl⟩ := List.mem_map.1 hl
    refine mapM_error obs (fun v _ => ?_) ?_
    · cases ((List.range m).map (fun v => i * m + v))[v]? with
      | none => exact Or.inl rfl
      | some a => exact Or.inr ⟨a, rfl⟩
    · obtain ⟨v, hv, hm⟩ := ho
      refine ⟨v, hv, ?_⟩
      rw [List.getElem?_eq_none (by simpa using hm)]
  refine mapM_error _ (fun l hl => Or.inl (key l hl)) ?_
  exact ⟨_, List.mem_map.2 ⟨0, List.mem_range.2 hw, rfl⟩, key _ (List.mem_map.2 ⟨0, List.mem_range.2 hw, rfl⟩)⟩

theorem mem_zip_reverse {m w : Nat} {obs : List Nat} {ii : List Nat × List Nat} :
    ii ∈ ((List.range w).map (fun i => obs.map (fun v => i * m + v))).zip
      ((List.range w).map (fun i => obs.map (fun v => i * m + v))).reverse ↔
    ∃ k < w, ii = (obs.map (fun v => k * m + v), obs.map (fun v => (w - 1 - k) * m + v)) := by
  rw [List.mem_iff_getElem?]
  constructor
  · rintro ⟨k, hk⟩
    rw [List.getElem?_zip_eq_some] at hk
    obtain ⟨h1, h2⟩ := hk
    rw [List.getElem?_map] at h1
    have hkw : k < w := by
      by_contra hc
      rw [List.getElem?_eq_none (by simpa using hc)] at h1
      simp at h1
    rw [List.getElem?_range hkw] at h1
    rw [List.getElem?_reverse (by simpa using hkw), List.getElem?_map, List.length_map, List.length_range,
      List.getElem?_range (by omega)] at h2
    simp only [Option.map_some, Option.some.injEq] at h1 h2
    exact ⟨k, hkw, Prod.ext h1.symm h2.symm⟩
  · rintro ⟨k, hkw, rfl⟩
    refine ⟨k, ?_⟩
    rw [List.getElem?_zip_eq_some, List.getElem?_reverse (by simpa using hkw), List.getElem?_map, List.getElem?_map,
      List.length_map, List.length_range, List.getElem?_range hkw, List.getElem?_range (by omega)]
    exact ⟨rfl, rfl⟩

theorem zip_map_map (f g : Nat → Nat) : ∀ l : List Nat, (l.map f).zip (l.map g) = l.map (fun v => (f v, g v))
  | [] => rfl
  | a :: l => by simp [zip_map_map f g l]

/-- One reversed row. -/
theorem reversed_row {m w : Nat} {obs : List Nat} (ho : ∀ v ∈ obs, v < m) (row : List W) :
    let nodes := (List.range w).map (fun i => obs.map (fun v => i * m + v))
    let out := (nodes.zip nodes.reverse).foldl (fun r ii => assignCols r row ii.1 ii.2) (List.replicate (w * m) 0)
    out.length = w * m ∧ ∀ k < w, ∀ v < m,
      out[k * m + v]? = some (if v ∈ obs then row.getD ((w - 1 - k) * m + v) 0 else 0) := by
  intro nodes out
  have hout : out = ((nodes.zip nodes.reverse).flatMap (fun ii => ii.1.zip ii.2)).foldl
      (fun r ij => r.set ij.1 (row.getD ij.2 0)) (List.replicate (w * m) 0) := by
    rw [List.foldl_flatMap]; rfl
  have hmem : ∀ p, p ∈ (nodes.zip nodes.reverse).flatMap (fun ii => ii.1.zip ii.2) ↔
      ∃ k < w, ∃ v ∈ obs, p = (k * m + v, (w - 1 - k) * m + v) := by
    intro p
    rw [List.mem_flatMap]
    constructor
    · rintro ⟨ii, hii, hp⟩
      obtain ⟨k, hk, rfl⟩ := mem_zip_reverse.1 hii
      dsimp only at hp
      rw [zip_map_map] at hp
      obtain ⟨v, hv, rfl⟩ := List.mem_map.1 hp
      exact ⟨k, hk, v, hv, rfl⟩
    · rintro ⟨k, hk, v, hv, rfl⟩
      refine ⟨_, mem_zip_reverse.2 ⟨k, hk, rfl⟩, ?_⟩
      dsimp only
      rw [zip_map_map]
      exact List.mem_map.2 ⟨v, hv, rfl⟩
  have hdm : ∀ k v, v < m → (k * m + v) / m = k ∧ (k * m + v) % m = v := by
    intro k v hv
    have hm : 0 < m := by omega
    constructor
    · rw [Nat.mul_comm, Nat.mul_add_div hm, Nat.div_eq_of_lt hv, Nat.add_zero]
    · rw [Nat.mul_comm, Nat.mul_add_mod, Nat.mod_eq_of_lt hv]
  obtain ⟨h1, h2⟩ := foldl_set row (fun p => (w - 1 - p / m) * m + p % m)
    ((nodes.zip nodes.reverse).flatMap (fun ii => ii.1.zip ii.2)) (List.replicate (w * m) 0) (by
      intro p hp
      obtain ⟨k, _, v, hv, rfl⟩ := (hmem p).1 hp
      dsimp only
      rw [(hdm k v (ho v hv)).1, (hdm k v (ho v hv)).2])
  rw [← hout] at h1 h2
  rw [List.length_replicate] at h1 h2
  refine ⟨h1, fun k hk v hv => ?_⟩
  have hlt : k * m + v < w * m := by
    have : (k + 1) * m ≤ w * m := Nat.mul_le_mul_right _ hk
    rw [Nat.add_mul] at this; omega
  rw [h2 _ hlt, (hdm k v hv).1, (hdm k v hv).2]
  by_cases hvo : v ∈ obs
  · rw [if_pos, if_pos hvo]
    exact List.mem_map.2 ⟨_, (hmem _).2 ⟨k, hk, v, hvo, rfl⟩, rfl⟩
  · rw [if_neg, if_neg hvo, List.getElem?_replicate, if_pos hlt]
    intro h3
    obtain ⟨p, hp, hpe⟩ := List.mem_map.1 h3
    obtain ⟨k', _, v', hv', rfl⟩ := (hmem p).1 hp
    dsimp only at hpe
    have := (hdm k' v' (ho v' hv')).2
    rw [hpe, (hdm k v hv).2] at this
    exact hvo (this ▸ hv')

omit [Zero W] in
/-- One unrolled row. -/
theorem unrolled_row {data : List (List W)} {m w s : Nat} (hm : ∀ r ∈ data, r.length = m) (hs : s + w ≤ data.length) :
    ((data.flatten.drop (s * m)).take (w * m)).length = w * m ∧ ∀ k < w, ∀ v < m,
      ((data.flatten.drop (s * m)).take (w * m))[k * m + v]? = data[s + k]?.bind (·[v]?) := by
  have hmul : s * m + w * m ≤ data.length * m := by rw [← Nat.add_mul]; exact Nat.mul_le_mul_right _ hs
  constructor
  · rw [List.length_take, List.length_drop, flatten_length hm]; omega
  · intro k hk v hv
    have hlt : k * m + v < w * m := by
      have : (k + 1) * m ≤ w * m := Nat.mul_le_mul_right _ hk
      rw [Nat.add_mul] at this; omega
    rw [List.getElem?_take_of_lt hlt, List.getElem?_drop, ← Nat.add_assoc, ← Nat.add_mul, flatten_get hm _ _ hv]

end

end Verif
