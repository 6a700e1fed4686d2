import Verif.Spec.Layout
import Verif.Lemmas.Py
import Mathlib.Analysis.SpecialFunctions.Trigonometric.Inverse
import Mathlib.Tactic.Positivity
import Mathlib.Tactic.Linarith
import Mathlib.Tactic.FieldSimp
import Mathlib.Tactic.Ring
import Mathlib.Data.List.Nodup

/-!
# Lemmas about layouts
-/

namespace Verif
namespace Draw
variable {α : Type} [DecidableEq α]

omit [DecidableEq α] in
theorem getPos_ok {pos : α → Option Vec} {v : α} {p : Vec} (h : pos v = some p) : getPos pos v = .ok p := by
  simp [getPos, h]

theorem setPos_isSome {pos : α → Option Vec} {v x : α} {p : Vec} (h : (pos x).isSome) : (setPos pos v p x).isSome := by
  unfold setPos; split <;> simp_all

/-- A loop that stores one position per element of a list. -/
theorem fold_setPos {ι : Type} (f : (α → Option Vec) → ι → Py (α → Option Vec)) (key : ι → α) (val : ι → Vec)
    (K : α → Prop) : ∀ (l : List ι) (pos : α → Option Vec), (∀ i ∈ l, ∀ pos, (∀ v, K v → (pos v).isSome) →
      f pos i = .ok (setPos pos (key i) (val i))) → (∀ v, K v → (pos v).isSome) →
    ∃ pos', l.foldlM f pos = .ok pos' ∧ (∀ v, v ∉ l.map key → pos' v = pos v) ∧
      ((l.map key).Nodup → ∀ i ∈ l, pos' (key i) = some (val i)) := by
  intro l
  induction l with
  | nil => intro pos _ _; exact ⟨pos, rfl, fun _ _ => rfl, by simp⟩
  | cons a l ih =>
    intro pos hf hK
    have h1 := hf a (by simp) pos hK
    obtain ⟨pos', h2, h3, h4⟩ := ih (setPos pos (key a) (val a)) (fun i hi => hf i (by simp [hi]))
      (fun v hv => setPos_isSome (hK v hv))
    refine ⟨pos', ?_, ?_, ?_⟩
    · rw [List.foldlM_cons, py_bind h1]; exact h2
    · intro v hv
      simp only [List.map_cons, List.mem_cons, not_or] at hv
      rw [h3 v hv.2, setPos, if_neg hv.1]
    · intro hn i hi
      simp only [List.map_cons, List.nodup_cons] at hn
      rcases List.mem_cons.mp hi with rfl | hi
      · rw [h3 _ hn.1, setPos, if_pos rfl]
      · exact h4 hn.2 i hi

omit [DecidableEq α] in
theorem nodesOrder_spec (o : SetOrder α) {N : Finset α} {groups : Option (List (List α))} (h : Lists groups N) :
    (nodesOrder o N groups).Nodup ∧ ∀ v, v ∈ nodesOrder o N groups ↔ v ∈ N := by
  cases groups with
  | none => exact ⟨o.nodup _ _, o.mem _ _⟩
  | some gs => exact h gs rfl

theorem nodesOrder_length (o : SetOrder α) {N : Finset α} {groups : Option (List (List α))} (h : Lists groups N) :
    (nodesOrder o N groups).length = N.card := by
  have h1 := nodesOrder_spec o h
  rw [← List.toFinset_card_of_nodup h1.1]
  congr 1
  ext v
  simp [h1.2]

/-- A loop over the positions `0..n-1` of the order of the nodes. -/
theorem fold_order {l : List α} {n : Nat} (hl : l.length = n) (hn : l.Nodup) (f : (α → Option Vec) → α → Nat → Py (α → Option Vec))
    (val : Nat → Vec) (K : α → Prop)
    (hf : ∀ i v pos, l[i]? = some v → (∀ v, K v → (pos v).isSome) → f pos v i = .ok (setPos pos v (val i)))
    (pos : α → Option Vec) (hK : ∀ v, K v → (pos v).isSome) :
    ∃ pos', (List.range n).foldlM (fun (pos : α → Option Vec) i => match l[i]? with
        | none => (.error .indexError : Py (α → Option Vec))
        | some v => f pos v i) pos = .ok pos' ∧ (∀ v, v ∉ l → pos' v = pos v) ∧
      ∀ i v, l[i]? = some v → pos' v = some (val i) := by
  by_cases hne : n = 0
  · subst hne
    refine ⟨pos, rfl, fun _ _ => rfl, fun i v h => ?_⟩
    rw [List.length_eq_zero_iff.mp hl] at h
    simp at h
  have hl0 : 0 < l.length := by omega
  let key : Nat → α := fun i => l.getD i (l[0])
  have hkey : ∀ i, i < n → l[i]? = some (key i) := by
    intro i hi
    simp only [key]
    rw [List.getD_eq_getElem?_getD, List.getElem?_eq_getElem (by omega)]
    rfl
  have hmap : (List.range n).map key = l := by
    apply List.ext_getElem?
    intro i
    by_cases hi : i < n
    · rw [List.getElem?_map, List.getElem?_range hi, hkey i hi]; rfl
    · rw [List.getElem?_eq_none (by simpa using hi), List.getElem?_eq_none (by omega)]
  obtain ⟨pos', h1, h2, h3⟩ := fold_setPos (fun pos i => match l[i]? with
        | none => .error .indexError
        | some v => f pos v i) key val K (List.range n) pos (by
      intro i hi pos hp
      have hi := hkey i (List.mem_range.mp hi)
      rw [hi]
      exact hf i _ pos hi hp) hK
  rw [hmap] at h2 h3
  refine ⟨pos', h1, h2, fun i v hv => ?_⟩
  have hi : i < n := by
    by_contra hh
    rw [List.getElem?_eq_none (by omega)] at hv
    simp at hv
  have := hkey i hi
  rw [hv] at this
  cases this
  exact h3 hn i (List.mem_range.mpr hi)

theorem baseInit_spec {S : Type} (g : NpRandom S) (o : SetOrder α) {N : Finset α} (w : Win) {groups : Option (List (List α))}
    (h : Lists groups N) (s : S) :
    ∃ pos, baseInit g o N w groups s = .ok (⟨N, w, groups, pos⟩, (initCoords g w N.card groups s).2.2) ∧
      (∀ v, (pos v).isSome ↔ v ∈ N) ∧ (∀ i v, (nodesOrder o N groups)[i]? = some v →
        pos v = some ((initCoords g w N.card groups s).1.getD i 0, (initCoords g w N.card groups s).2.1.getD i 0)) := by
  have h1 := nodesOrder_spec o h
  obtain ⟨pos, p1, p2, p3⟩ := fold_order (nodesOrder_length o h) h1.1
    (fun pos v idx => .ok (setPos pos v ((initCoords g w N.card groups s).1.getD idx 0, (initCoords g w N.card groups s).2.1.getD idx 0)))
    (fun idx => ((initCoords g w N.card groups s).1.getD idx 0, (initCoords g w N.card groups s).2.1.getD idx 0)) (fun _ => False)
    (fun _ _ _ _ _ => rfl) (fun _ => none) (by simp)
  refine ⟨pos, ?_, fun v => ⟨fun hv => ?_, fun hv => ?_⟩, p3⟩
  · unfold baseInit
    exact (py_bind p1 _).trans rfl
  · by_contra hh
    rw [p2 v (fun hm => hh ((h1.2 v).mp hm))] at hv
    simp at hv
  · obtain ⟨i, hi⟩ := List.getElem?_of_mem ((h1.2 v).mpr hv)
    rw [p3 i v hi]; rfl

theorem linspace_getD (a b : ℝ) {n i : Nat} (h : i < n) : (linspace a b n).getD i 0 = a + (i : ℝ) * ((b - a) / ((n : ℝ) - 1)) := by
  unfold linspace
  rw [List.getD_eq_getElem?_getD, List.getElem?_map, List.getElem?_range h]
  rfl

/-- The point of a circular layout. -/
noncomputable def circlePoint (w : Win) (n i : Nat) : Vec :=
  ((w.right + w.left) / 2 + (w.right - w.left) / 2 * Real.cos (2 * Real.pi * i / n),
    (w.bottom + w.top) / 2 + (w.bottom - w.top) / 2 * Real.sin (2 * Real.pi * i / n))

theorem circleCalc_spec (o : SetOrder α) {L : Layout α} (h : Lists L.groups L.nodes) (hp : ∀ v ∈ L.nodes, (L.pos v).isSome) :
    ∃ pos, circleCalc o L = .ok pos ∧ (∀ v, v ∉ L.nodes → pos v = L.pos v) ∧
      ∀ i v, (nodesOrder o L.nodes L.groups)[i]? = some v → pos v = some (circlePoint L.win L.nodes.card i) := by
  have h1 := nodesOrder_spec o h
  obtain ⟨pos, p1, p2, p3⟩ := fold_order (nodesOrder_length o h) h1.1
    (fun pos v idx => (do
      let _ ← getPos pos v
      let angle := (linspace 0 (2 * Real.pi) (L.nodes.card + 1)).getD idx 0
      return setPos pos v ((L.win.right + L.win.left) / 2 + (L.win.right - L.win.left) / 2 * Real.cos angle,
        (L.win.bottom + L.win.top) / 2 + (L.win.bottom - L.win.top) / 2 * Real.sin angle)))
    (circlePoint L.win L.nodes.card) (fun v => v ∈ L.nodes) (by
      intro i v pos hi hK
      have hv : v ∈ L.nodes := (h1.2 v).mp (List.mem_of_getElem? hi)
      have hi' : i < L.nodes.card := by
        rw [← nodesOrder_length o h]
        by_contra hh
        rw [List.getElem?_eq_none (by omega)] at hi
        simp at hi
      obtain ⟨p, hp⟩ := Option.isSome_iff_exists.mp (hK v hv)
      rw [py_bind (getPos_ok hp), linspace_getD _ _ (by omega)]
      have : (0 : ℝ) + (i : ℝ) * ((2 * Real.pi - 0) / (((L.nodes.card + 1 : ℕ) : ℝ) - 1)) = 2 * Real.pi * i / L.nodes.card := by
        push_cast; ring
      rw [this]
      rfl) L.pos hp
  exact ⟨pos, p1, fun v hv => p2 v (fun hm => hv ((h1.2 v).mp hm)), p3⟩

theorem circlePoint_has {w : Win} (hw : w.left ≤ w.right ∧ w.top ≤ w.bottom) (n i : Nat) : w.Has (circlePoint w n i) := by
  have c1 := Real.cos_le_one (2 * Real.pi * i / n)
  have c2 := Real.neg_one_le_cos (2 * Real.pi * i / n)
  have s1 := Real.sin_le_one (2 * Real.pi * i / n)
  have s2 := Real.neg_one_le_sin (2 * Real.pi * i / n)
  unfold Win.Has circlePoint
  simp only
  refine ⟨?_, ?_, ?_, ?_⟩ <;> nlinarith [hw.1, hw.2]

/-- An angle in `[0, 2π)` is determined by its cosine and sine. -/
theorem angle_inj {a b : ℝ} (ha : 0 ≤ a) (ha' : a < 2 * Real.pi) (hb : 0 ≤ b) (hb' : b < 2 * Real.pi)
    (hc : Real.cos a = Real.cos b) (hs : Real.sin a = Real.sin b) : a = b := by
  have h1 : Real.cos (a - b) = 1 := by
    rw [Real.cos_sub, hc, hs]
    nlinarith [Real.sin_sq_add_cos_sq b]
  obtain ⟨n, hn⟩ := (Real.cos_eq_one_iff _).mp h1
  have hpi := Real.pi_pos
  have : n = 0 := by
    have h2 : (n : ℝ) * (2 * Real.pi) < 1 * (2 * Real.pi) := by rw [hn]; linarith
    have h3 : (-1) * (2 * Real.pi) < (n : ℝ) * (2 * Real.pi) := by rw [hn]; linarith
    have h4 : (n : ℝ) < 1 := lt_of_mul_lt_mul_right h2 (by positivity)
    have h5 : (-1 : ℝ) < n := lt_of_mul_lt_mul_right h3 (by positivity)
    have h4 : n < 1 := by exact_mod_cast h4
    have h5 : -1 < n := by exact_mod_cast h5
    omega
  rw [this] at hn
  simp at hn
  linarith

theorem circlePoint_inj {w : Win} (hw : w.Open) {n i j : Nat} (hi : i < n) (hj : j < n)
    (h : circlePoint w n i = circlePoint w n j) : i = j := by
  have hn : (0 : ℝ) < n := by exact_mod_cast (by omega : 0 < n)
  have hpi := Real.pi_pos
  have hb : ∀ k < n, 0 ≤ 2 * Real.pi * (k : ℝ) / n ∧ 2 * Real.pi * (k : ℝ) / n < 2 * Real.pi := by
    intro k hk
    have hk' : (k : ℝ) < n := by exact_mod_cast hk
    refine ⟨by positivity, ?_⟩
    rw [div_lt_iff₀ hn]
    nlinarith
  unfold circlePoint at h
  simp only [Prod.mk.injEq] at h
  have hc : Real.cos (2 * Real.pi * i / n) = Real.cos (2 * Real.pi * j / n) := by
    have : (w.right - w.left) / 2 ≠ 0 := by have := hw.1; intro h; linarith
    exact mul_left_cancel₀ this (by linarith [h.1])
  have hs : Real.sin (2 * Real.pi * i / n) = Real.sin (2 * Real.pi * j / n) := by
    have : (w.bottom - w.top) / 2 ≠ 0 := by have := hw.2; intro h; linarith
    exact mul_left_cancel₀ this (by linarith [h.2])
  have := angle_inj (hb i hi).1 (hb i hi).2 (hb j hj).1 (hb j hj).2 hc hs
  have h3 : (i : ℝ) = j := by
    field_simp at this
    exact this
  exact_mod_cast h3

/-! ## Columns -/

theorem foldlM_flatMap {β γ δ : Type} (f : δ → γ → Py δ) (h : β → List γ) : ∀ (l : List β) (d : δ),
    l.foldlM (fun d b => (h b).foldlM f d) d = (l.flatMap h).foldlM f d := by
  intro l
  induction l with
  | nil => intro d; rfl
  | cons b l ih =>
    intro d
    rw [List.foldlM_cons, List.flatMap_cons, List.foldlM_append]
    congr 1
    funext d
    exact ih d

omit [DecidableEq α] in
theorem zip_flatten : ∀ (gs : List (List α)) (k : Nat),
    ((gs.zipIdx k).flatMap (fun gi => gi.1.zipIdx.map (fun vi => (vi.1, gi.2, vi.2)))).map (·.1) = gs.flatten := by
  intro gs
  induction gs with
  | nil => intro k; rfl
  | cons g gs ih =>
    intro k
    rw [List.zipIdx_cons, List.flatMap_cons, List.map_append, ih, List.flatten_cons]
    congr 1
    rw [List.map_map]
    have : ((fun x : α × Nat × Nat => x.1) ∘ fun vi : α × Nat => (vi.1, k, vi.2)) = Prod.fst := by funext x; rfl
    rw [this, List.zipIdx_map_fst]

omit [DecidableEq α] in
theorem maxGroup_le {gs : List (List α)} : (∀ g ∈ gs, g.length ≤ maxGroup gs) ∧ (maxGroup gs = 0 ∨ ∃ g ∈ gs, g.length = maxGroup gs) := by
  have : ∀ (gs : List (List α)) (m : Nat), m ≤ gs.foldl (fun m g => if g.length > m then g.length else m) m ∧
      (∀ g ∈ gs, g.length ≤ gs.foldl (fun m g => if g.length > m then g.length else m) m) ∧
      (gs.foldl (fun m g => if g.length > m then g.length else m) m = m ∨
        ∃ g ∈ gs, g.length = gs.foldl (fun m g => if g.length > m then g.length else m) m) := by
    intro gs
    induction gs with
    | nil => intro m; simp
    | cons a gs ih =>
      intro m
      simp only [List.foldl_cons]
      obtain ⟨h1, h2, h3⟩ := ih (if a.length > m then a.length else m)
      have hm : m ≤ (if a.length > m then a.length else m) ∧ a.length ≤ (if a.length > m then a.length else m) := by
        split <;> omega
      refine ⟨hm.1.trans h1, ?_, ?_⟩
      · intro g hg
        rcases List.mem_cons.mp hg with rfl | hg
        · exact hm.2.trans h1
        · exact h2 g hg
      · rcases h3 with h3 | ⟨g, hg, h3⟩
        · by_cases ha : a.length > m
          · right
            refine ⟨a, by simp, ?_⟩
            rw [h3, if_pos ha]
          · left
            rw [h3, if_neg ha]
        · right
          exact ⟨g, by simp [hg], h3⟩
  exact ⟨(this gs 0).2.1, (this gs 0).2.2⟩

/-- The point of a column layout: group `i`, position `j` in the group. -/
noncomputable def columnPoint (w : Win) (n m i j : Nat) : Vec :=
  (if n > 1 then w.left + (w.right - w.left) * i / ((n : ℝ) - 1) else (w.right + w.left) / 2,
    w.bottom + (w.top - w.bottom) * j / ((m : ℝ) - 1))

theorem columnCalc_spec (o : SetOrder α) {L : Layout α} (h : Lists L.groups L.nodes) (hp : ∀ v ∈ L.nodes, (L.pos v).isSome)
    (hm : maxGroup (columnGroups o L) ≠ 1) :
    ∃ pos, columnCalc o L = .ok pos ∧ (∀ v, v ∉ L.nodes → pos v = L.pos v) ∧
      ∀ i j g v, (columnGroups o L)[i]? = some g → g[j]? = some v →
        pos v = some (columnPoint L.win (columnGroups o L).length (maxGroup (columnGroups o L)) i j) := by
  have hfl : (columnGroups o L).flatten = nodesOrder o L.nodes L.groups := by
    unfold columnGroups nodesOrder
    cases L.groups <;> simp
  have h1 := nodesOrder_spec o h
  rw [← hfl] at h1
  let items := ((columnGroups o L).zipIdx).flatMap (fun gi => gi.1.zipIdx.map (fun vi => (vi.1, gi.2, vi.2)))
  have hkeys : items.map (·.1) = (columnGroups o L).flatten := zip_flatten _ 0
  let w := L.win
  let xStep : ℝ := if (columnGroups o L).length > 1 then (w.right - w.left) / (((columnGroups o L).length : ℝ) - 1) else 0
  let xOff : ℝ := if (columnGroups o L).length > 1 then w.left else (w.right + w.left) / 2
  let yStep : ℝ := (w.top - w.bottom) / ((maxGroup (columnGroups o L) : ℝ) - 1)
  obtain ⟨pos, p1, p2, p3⟩ := fold_setPos (fun (pos : α → Option Vec) (x : α × Nat × Nat) => (do
      let _ ← getPos pos x.1
      return setPos pos x.1 (xStep * (x.2.1 : ℝ) + xOff, yStep * (x.2.2 : ℝ) + w.bottom) : Py (α → Option Vec)))
    (·.1) (fun x => (xStep * (x.2.1 : ℝ) + xOff, yStep * (x.2.2 : ℝ) + w.bottom)) (fun v => v ∈ L.nodes) items L.pos (by
      intro x hx pos hK
      have hv : x.1 ∈ L.nodes := (h1.2 x.1).mp (by rw [← hkeys]; exact List.mem_map_of_mem hx)
      obtain ⟨p, hp⟩ := Option.isSome_iff_exists.mp (hK _ hv)
      rw [py_bind (getPos_ok hp)]
      rfl) hp
  refine ⟨pos, ?_, ?_, ?_⟩
  · rw [← p1]
    unfold columnCalc
    simp only
    rw [if_neg hm]
    rw [← foldlM_flatMap]
    congr 1
    funext pos gi
    rw [List.foldlM_map]
  · intro v hv
    exact p2 v (fun hm => hv ((h1.2 v).mp (by rw [← hkeys]; exact hm)))
  · intro i j g v hi hj
    have hmem : (v, i, j) ∈ items := by
      simp only [items, List.mem_flatMap, List.mem_map]
      exact ⟨(g, i), List.mem_zipIdx_iff_getElem?.mpr hi, (v, j), List.mem_zipIdx_iff_getElem?.mpr hj, rfl⟩
    rw [p3 (by rw [hkeys]; exact h1.1) _ hmem]
    unfold columnPoint
    simp only [xStep, xOff, yStep, w]
    congr 2
    · split <;> ring
    · ring

theorem columnCalc_fails (o : SetOrder α) {L : Layout α} (hm : maxGroup (columnGroups o L) = 1) :
    columnCalc o L = .error .zeroDivision := by
  unfold columnCalc
  simp only
  rw [if_pos hm]
  rfl

theorem columnPoint_has {w : Win} (hw : w.left ≤ w.right ∧ w.top ≤ w.bottom) {n m i j : Nat} (hi : i < n) (hj : j < m)
    (hm : m ≠ 1) : w.Has (columnPoint w n m i j) := by
  have key : ∀ {a b : Nat}, a < b → b ≠ 1 → 0 ≤ (a : ℝ) / ((b : ℝ) - 1) ∧ (a : ℝ) / ((b : ℝ) - 1) ≤ 1 := by
    intro a b hab hb
    have h1 : (1 : ℝ) < b := by exact_mod_cast (by omega : 1 < b)
    have h2 : (a : ℝ) ≤ b - 1 := by
      have : (a : ℝ) + 1 ≤ b := by exact_mod_cast hab
      linarith
    exact ⟨div_nonneg (by positivity) (by linarith), (div_le_one (by linarith)).mpr h2⟩
  unfold Win.Has columnPoint
  simp only
  have hy := key hj hm
  refine ⟨?_, ?_, ?_, ?_⟩
  · split
    · have hx := key hi (by omega)
      rw [mul_div_assoc]
      nlinarith [hw.1, hw.2]
    · linarith [hw.1]
  · split
    · have hx := key hi (by omega)
      rw [mul_div_assoc]
      nlinarith [hw.1, hw.2]
    · linarith [hw.1]
  · rw [mul_div_assoc]
    nlinarith [hw.1, hw.2]
  · rw [mul_div_assoc]
    nlinarith [hw.1, hw.2]

theorem columnPoint_inj {w : Win} (hw : w.Open) {n m i j i' j' : Nat} (hi : i < n) (hi' : i' < n) (hm : 1 < m)
    (h : columnPoint w n m i j = columnPoint w n m i' j') : i = i' ∧ j = j' := by
  unfold columnPoint at h
  simp only [Prod.mk.injEq] at h
  have hm' : (m : ℝ) - 1 ≠ 0 := by
    have : (1 : ℝ) < m := by exact_mod_cast hm
    intro h; linarith
  constructor
  · by_cases hn : n > 1
    · rw [if_pos hn, if_pos hn] at h
      have hn' : (n : ℝ) - 1 ≠ 0 := by
        have : (1 : ℝ) < n := by exact_mod_cast hn
        intro h; linarith
      have h1 : (w.right - w.left) * (i : ℝ) / ((n : ℝ) - 1) = (w.right - w.left) * i' / ((n : ℝ) - 1) := by linarith [h.1]
      rw [div_left_inj' hn'] at h1
      have : w.right - w.left ≠ 0 := by have := hw.1; intro h; linarith
      exact_mod_cast mul_left_cancel₀ this h1
    · omega
  · have h1 : (w.top - w.bottom) * (j : ℝ) / ((m : ℝ) - 1) = (w.top - w.bottom) * j' / ((m : ℝ) - 1) := by linarith [h.2]
    rw [div_left_inj' hm'] at h1
    have : w.top - w.bottom ≠ 0 := by have := hw.2; intro h; linarith
    exact_mod_cast mul_left_cancel₀ this h1

/-! ## Forces -/

theorem pyMin_pyMax {a b : ℝ} (h : a ≤ b) (x : Option ℝ) : a ≤ pyMin b (pyMax a x) ∧ pyMin b (pyMax a x) ≤ b := by
  unfold pyMin pyMax
  cases x with
  | none => simp only; split <;> constructor <;> linarith
  | some x =>
    simp only
    split_ifs <;> constructor <;> linarith

theorem move_has {w : Win} (hw : w.left ≤ w.right ∧ w.top ≤ w.bottom) (m : ℝ) (p d : Vec) : w.Has (move w m p d) := by
  unfold move Win.Has
  simp only
  exact ⟨(pyMin_pyMax hw.1 _).1, (pyMin_pyMax hw.1 _).2, (pyMin_pyMax hw.2 _).1, (pyMin_pyMax hw.2 _).2⟩

theorem foldlM_total {β γ : Type} (P : γ → Prop) (f : γ → β → Py γ) : ∀ (l : List β) (s : γ), P s →
    (∀ b ∈ l, ∀ s, P s → ∃ s', f s b = .ok s' ∧ P s') → ∃ s', l.foldlM f s = .ok s' ∧ P s' := by
  intro l
  induction l with
  | nil => intro s hs _; exact ⟨s, rfl, hs⟩
  | cons b l ih =>
    intro s hs hf
    obtain ⟨s', h1, h2⟩ := hf b (by simp) s hs
    obtain ⟨s'', h3, h4⟩ := ih s' h2 (fun b hb => hf b (by simp [hb]))
    exact ⟨s'', by rw [List.foldlM_cons, py_bind h1]; exact h3, h4⟩

omit [DecidableEq α] in
theorem forces_ok {f : α → Py Vec} : ∀ {l : List α}, (∀ v ∈ l, ∃ p, f v = .ok p) →
    ∃ r : List (α × Vec), forces f l = .ok r ∧ r.map (·.1) = l ∧ ∀ x ∈ r, f x.1 = .ok x.2 := by
  intro l
  induction l with
  | nil => intro _; exact ⟨[], rfl, rfl, by simp⟩
  | cons a l ih =>
    intro h
    obtain ⟨p, hp⟩ := h a (by simp)
    obtain ⟨r, h1, h2, h3⟩ := ih (fun v hv => h v (by simp [hv]))
    refine ⟨(a, p) :: r, ?_, by simp [h2], ?_⟩
    · unfold forces at h1 ⊢
      rw [List.mapM_cons]
      have : (do return (a, ← f a) : Py (α × Vec)) = .ok (a, p) := by rw [hp]; rfl
      rw [py_bind this, py_bind h1]
      rfl
    · intro x hx
      rcases List.mem_cons.mp hx with rfl | hx
      · exact hp
      · exact h3 x hx

theorem repulse_ok (o : SetOrder α) {N : Finset α} (k : ℝ) {pos : α → Option Vec} (hp : ∀ v ∈ N, (pos v).isSome) {i : α}
    (hi : i ∈ N) : ∃ f, repulse o N k pos i = .ok f := by
  obtain ⟨p, hpi⟩ := Option.isSome_iff_exists.mp (hp i hi)
  obtain ⟨f, h, -⟩ := foldlM_total (fun _ => True) (fun (f : Vec) j => (do
    let p ← getPos pos i
    let q ← getPos pos j
    let d := diff p q
    return (f.1 + d.1.1 / d.2 * (k * k / d.2), f.2 + d.1.2 / d.2 * (k * k / d.2)) : Py Vec)) (o.iter i (N \ {i})) (0, 0) trivial (by
      intro j hj s _
      rw [o.mem, Finset.mem_sdiff] at hj
      obtain ⟨q, hq⟩ := Option.isSome_iff_exists.mp (hp j hj.1)
      rw [py_bind (getPos_ok hpi), py_bind (getPos_ok hq)]
      exact ⟨_, rfl, trivial⟩)
  exact ⟨f, h⟩

omit [DecidableEq α] in
theorem attract_ok (o : SetOrder α) {N : Finset α} {adj : α → Py (Finset α)} (k : ℝ) {pos : α → Option Vec}
    (hp : ∀ v ∈ N, (pos v).isSome) {i : α} (hi : i ∈ N) {A : Finset α} (hA : adj i = .ok A) (hAN : A ⊆ N) :
    ∃ f, attract o adj k pos i = .ok f := by
  obtain ⟨p, hpi⟩ := Option.isSome_iff_exists.mp (hp i hi)
  obtain ⟨f, h, -⟩ := foldlM_total (fun _ => True) (fun (f : Vec) j => (do
    let p ← getPos pos i
    let q ← getPos pos j
    let d := diff p q
    return (f.1 - d.1.1 / d.2 * (d.2 * d.2 / k), f.2 - d.1.2 / d.2 * (d.2 * d.2 / k)) : Py Vec)) (o.iter i A) (0, 0) trivial (by
      intro j hj s _
      rw [o.mem] at hj
      obtain ⟨q, hq⟩ := Option.isSome_iff_exists.mp (hp j (hAN hj))
      rw [py_bind (getPos_ok hpi), py_bind (getPos_ok hq)]
      exact ⟨_, rfl, trivial⟩)
  refine ⟨f, ?_⟩
  unfold attract
  rw [py_bind hA]
  exact h

/-- One round: each node is moved once, by the sum of the forces of the positions before the round. -/
theorem forceRound_spec (o : SetOrder α) {N : Finset α} {adj : α → Py (Finset α)} (hadj : ∀ v ∈ N, ∃ A, adj v = .ok A ∧ A ⊆ N)
    (w : Win) (k : ℝ) (i : Nat) {pos : α → Option Vec} (hp : ∀ v ∈ N, (pos v).isSome) :
    ∃ pos', forceRound o adj N w k i pos = .ok pos' ∧ (∀ v, v ∉ N → pos' v = pos v) ∧
      ∀ v ∈ N, ∃ p f f', pos v = some p ∧ repulse o N k pos v = .ok f ∧ attract o adj k pos v = .ok f' ∧
        pos' v = some (move w (k / ((i : ℝ) + 1)) p (f.1 + f'.1, f.2 + f'.2)) := by
  obtain ⟨rep, r1, r2, r3⟩ := forces_ok (f := repulse o N k pos) (l := o.iter () N)
    (fun v hv => repulse_ok o k hp ((o.mem _ _ _).mp hv))
  obtain ⟨att, a1, a2, a3⟩ := forces_ok (f := attract o adj k pos) (l := o.iter () N) (fun v hv => by
    obtain ⟨A, h1, h2⟩ := hadj v ((o.mem _ _ _).mp hv)
    exact attract_ok o k hp ((o.mem _ _ _).mp hv) h1 h2)
  have hlen : rep.length = att.length := by
    rw [← List.length_map (f := (·.1)) (as := rep), r2, ← a2, List.length_map]
  have hsame : ∀ x ∈ rep.zip att, x.1.1 = x.2.1 := by
    intro x hx
    obtain ⟨n, hn⟩ := List.getElem?_of_mem hx
    rw [List.getElem?_zip_eq_some] at hn
    have h1 : (rep.map (·.1))[n]? = some x.1.1 := by rw [List.getElem?_map, hn.1]; rfl
    have h2 : (att.map (·.1))[n]? = some x.2.1 := by rw [List.getElem?_map, hn.2]; rfl
    rw [r2] at h1
    rw [a2, h1] at h2
    exact Option.some.inj h2
  have hkeys : (rep.zip att).map (fun x => x.1.1) = o.iter () N := by
    have : (fun x : (α × Vec) × (α × Vec) => x.1.1) = (·.1) ∘ Prod.fst := rfl
    rw [this, ← List.map_map, List.map_fst_zip (by omega), r2]
  have hold : ∀ x ∈ rep.zip att, x.1.1 ∈ N := by
    intro x hx
    rw [← o.mem () N, ← hkeys]
    exact List.mem_map_of_mem hx
  let val : (α × Vec) × (α × Vec) → Vec := fun ra =>
    move w (k / ((i : ℝ) + 1)) ((pos ra.1.1).getD (0, 0)) (ra.1.2.1 + ra.2.2.1, ra.1.2.2 + ra.2.2.2)
  -- the loop reads the old position of the node it moves
  have hloop : ∀ (l : List ((α × Vec) × (α × Vec))) (cur : α → Option Vec), (l.map (fun x => x.1.1)).Nodup →
      (∀ x ∈ l, x.1.1 ∈ N ∧ cur x.1.1 = pos x.1.1) →
      ∃ pos', l.foldlM (fun (pos : α → Option Vec) (ra : (α × Vec) × (α × Vec)) => (do
          let p ← getPos pos ra.1.1
          return setPos pos ra.1.1 (move w (k / ((i : ℝ) + 1)) p (ra.1.2.1 + ra.2.2.1, ra.1.2.2 + ra.2.2.2)) : Py (α → Option Vec))) cur = .ok pos' ∧
        (∀ v, v ∉ l.map (fun x => x.1.1) → pos' v = cur v) ∧ ∀ x ∈ l, pos' x.1.1 = some (val x) := by
    intro l
    induction l with
    | nil => intro cur _ _; exact ⟨cur, rfl, fun _ _ => rfl, by simp⟩
    | cons a l ih =>
      intro cur hn hcur
      obtain ⟨ha1, ha2⟩ := hcur a (by simp)
      obtain ⟨p, hpa⟩ := Option.isSome_iff_exists.mp (hp _ ha1)
      simp only [List.map_cons, List.nodup_cons] at hn
      obtain ⟨pos', q1, q2, q3⟩ := ih (setPos cur a.1.1 (val a)) hn.2 (fun x hx => by
        refine ⟨(hcur x (by simp [hx])).1, ?_⟩
        have : x.1.1 ≠ a.1.1 := fun h => hn.1 (h ▸ List.mem_map_of_mem (f := fun x : (α × Vec) × (α × Vec) => x.1.1) hx)
        rw [setPos, if_neg this]
        exact (hcur x (by simp [hx])).2)
      refine ⟨pos', ?_, ?_, ?_⟩
      · rw [List.foldlM_cons, py_bind (show _ = Except.ok (setPos cur a.1.1 (val a)) from ?_)]
        · exact q1
        · rw [py_bind (getPos_ok (ha2.trans hpa))]
          simp [val, hpa, pure, Except.pure]
      · intro v hv
        simp only [List.map_cons, List.mem_cons, not_or] at hv
        rw [q2 v hv.2, setPos, if_neg hv.1]
      · intro x hx
        rcases List.mem_cons.mp hx with rfl | hx
        · rw [q2 _ hn.1, setPos, if_pos rfl]
        · exact q3 x hx
  obtain ⟨pos', q1, q2, q3⟩ := hloop (rep.zip att) pos (by rw [hkeys]; exact o.nodup _ _) (fun x hx => ⟨hold x hx, rfl⟩)
  rw [hkeys] at q2
  refine ⟨pos', ?_, fun v hv => q2 v (fun h => hv ((o.mem _ _ _).mp h)), ?_⟩
  · unfold forceRound
    rw [py_bind r1, py_bind a1]
    exact q1
  · intro v hv
    have : v ∈ (rep.zip att).map (fun x => x.1.1) := by rw [hkeys]; exact (o.mem _ _ _).mpr hv
    obtain ⟨x, hx, rfl⟩ := List.mem_map.mp this
    obtain ⟨p, hpx⟩ := Option.isSome_iff_exists.mp (hp _ hv)
    have hz := List.of_mem_zip hx
    refine ⟨p, x.1.2, x.2.2, hpx, r3 _ hz.1, ?_, ?_⟩
    · rw [hsame x hx]
      exact a3 _ hz.2
    · rw [q3 x hx]
      simp [val, hpx]

theorem forceCalc_spec (o : SetOrder α) {adj : α → Py (Finset α)} {L : Layout α}
    (hadj : ∀ v ∈ L.nodes, ∃ A, adj v = .ok A ∧ A ⊆ L.nodes) (hw : L.win.left ≤ L.win.right ∧ L.win.top ≤ L.win.bottom) (k : ℝ)
    (hp : ∀ v ∈ L.nodes, (L.pos v).isSome) (rounds : Nat) :
    ∃ pos, forceCalc o adj L k rounds = .ok pos ∧ (∀ v ∈ L.nodes, (pos v).isSome) ∧ (0 < rounds → Inside L.nodes L.win pos) := by
  induction rounds with
  | zero => exact ⟨L.pos, rfl, hp, by omega⟩
  | succ n ih =>
    obtain ⟨pos, h1, h2, -⟩ := ih
    obtain ⟨pos', p1, -, p3⟩ := forceRound_spec o hadj L.win k n h2
    refine ⟨pos', ?_, ?_, fun _ => ?_⟩
    · unfold forceCalc at h1 ⊢
      rw [List.range_succ, List.foldlM_append, py_bind h1]
      rw [List.foldlM_cons, py_bind p1]
      rfl
    · intro v hv
      obtain ⟨p, f, f', -, -, -, h⟩ := p3 v hv
      rw [h]; rfl
    · intro v hv
      obtain ⟨p, f, f', -, -, -, h⟩ := p3 v hv
      exact ⟨_, h, move_has hw _ _ _⟩

end Draw
end Verif
