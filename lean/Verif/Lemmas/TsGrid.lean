import Verif.Model.TsIcd
import Verif.Spec.TsIcd
import Verif.Lemmas.SepSet
import Verif.Lemmas.Stats
import Verif.Lemmas.OrdMarks

/-!
# Lemmas about time windows: look-up of time and index, homology maps
-/

namespace Verif
open TsSpec

theorem Dict.get?_fold {κ ν : Type} [DecidableEq κ] :
    ∀ (l : List (κ × ν)) (d : Dict κ ν) (k : κ) (x : ν), Dict.get? (l.foldl (fun d kv => Dict.set d kv.1 kv.2) d) k = some x →
      (k, x) ∈ l ∨ Dict.get? d k = some x := by
  intro l
  induction l with
  | nil => intro d k x h; exact Or.inr h
  | cons kv l ih =>
    intro d k x h
    rcases ih _ k x h with h | h
    · exact Or.inl (List.mem_cons_of_mem _ h)
    · rw [Dict.get?_set] at h
      split_ifs at h with hk
      · left
        cases h
        rw [← hk]
        exact List.mem_cons_self
      · exact Or.inr h

theorem Dict.get?_fold_some {κ ν : Type} [DecidableEq κ] :
    ∀ (l : List (κ × ν)) (d : Dict κ ν) (k : κ) (x : ν), (k, x) ∈ l ∨ Dict.get? d k = some x →
      ∃ y, Dict.get? (l.foldl (fun d kv => Dict.set d kv.1 kv.2) d) k = some y := by
  intro l
  induction l with
  | nil => intro d k x h; rcases h with h | h; · cases h
           exact ⟨x, h⟩
  | cons kv l ih =>
    intro d k x h
    by_cases hk : kv.1 = k
    · exact ih _ k kv.2 (Or.inr (by rw [Dict.get?_set, if_pos hk]))
    · refine ih _ k x ?_
      rcases h with h | h
      · rcases List.mem_cons.mp h with rfl | h
        · exact absurd rfl hk
        · exact Or.inl h
      · exact Or.inr (by rw [Dict.get?_set, if_neg hk]; exact h)

theorem mapM_mem {β γ : Type} {f : β → Py γ} : ∀ {l : List β} {r : List γ}, l.mapM f = .ok r →
    ∀ b, b ∈ r ↔ ∃ a ∈ l, f a = .ok b := by
  intro l
  induction l with
  | nil => intro r h b; cases h; simp
  | cons x l ih =>
    intro r h b
    rw [List.mapM_cons] at h
    obtain ⟨y, e1, e2⟩ := py_bind_ok h
    obtain ⟨ys, e3, e4⟩ := py_bind_ok e2
    cases e4
    simp only [List.mem_cons, ih e3, exists_eq_or_imp, e1, Except.ok.injEq]
    constructor
    · rintro (rfl | h)
      · exact Or.inl rfl
      · exact Or.inr h
    · rintro (rfl | h)
      · exact Or.inl rfl
      · exact Or.inr h

theorem mapM_total {β γ : Type} {f : β → Py γ} : ∀ (l : List β), (∀ a ∈ l, ∃ b, f a = .ok b) → ∃ r, l.mapM f = .ok r := by
  intro l
  induction l with
  | nil => intro _; exact ⟨[], rfl⟩
  | cons x l ih =>
    intro h
    obtain ⟨y, e1⟩ := h x (by simp)
    obtain ⟨ys, e2⟩ := ih (fun a ha => h a (List.mem_cons_of_mem _ ha))
    exact ⟨y :: ys, by rw [List.mapM_cons, py_bind e1, py_bind e2]; rfl⟩

theorem mapM_forall₂ {β γ : Type} {f : β → Py γ} : ∀ {l : List β} {r : List γ},
    l.mapM f = .ok r ↔ List.Forall₂ (fun a b => f a = .ok b) l r := by
  intro l
  induction l with
  | nil =>
    intro r
    rw [List.forall₂_nil_left_iff]
    constructor
    · intro h; cases h; rfl
    · rintro rfl; rfl
  | cons x l ih =>
    intro r
    constructor
    · intro h
      rw [List.mapM_cons] at h
      obtain ⟨y, e1, e2⟩ := py_bind_ok h
      obtain ⟨ys, e3, e4⟩ := py_bind_ok e2
      cases e4
      exact List.Forall₂.cons e1 (ih.mp e3)
    · rintro (_ | ⟨h1, h2⟩)
      rw [List.mapM_cons, py_bind h1, py_bind (ih.mpr h2)]
      rfl

namespace TsSpec
variable {α : Type} {sets : List (List α)}

theorem Cell.unique (hg : Grid sets) {t i t' i' : Nat} {v : α} (h : Cell sets t i v) (h' : Cell sets t' i' v) :
    t = t' ∧ i = i' := by
  obtain ⟨l, h1, h2⟩ := h
  obtain ⟨l', h1', h2'⟩ := h'
  obtain ⟨hn, hd⟩ := List.nodup_flatten.mp hg.nodup
  rw [List.pairwise_iff_getElem] at hd
  have hlt := (List.getElem?_eq_some_iff.mp h1)
  have hlt' := (List.getElem?_eq_some_iff.mp h1')
  obtain ⟨q, e⟩ := hlt
  obtain ⟨q', e'⟩ := hlt'
  have m1 : v ∈ l := List.mem_of_getElem? h2
  have m2 : v ∈ l' := List.mem_of_getElem? h2'
  rcases lt_trichotomy t t' with hlt | rfl | hlt
  · exact absurd m2 (fun m2 => hd t t' q q' hlt (e ▸ m1) (e' ▸ m2))
  · rw [h1] at h1'
    cases h1'
    have hnl := hn l (List.mem_of_getElem? h1)
    obtain ⟨r, f⟩ := List.getElem?_eq_some_iff.mp h2
    obtain ⟨r', f'⟩ := List.getElem?_eq_some_iff.mp h2'
    exact ⟨rfl, (hnl.getElem_inj_iff).mp (f.trans f'.symm)⟩
  · exact absurd m1 (fun m1 => hd t' t q' q hlt (e' ▸ m2) (e ▸ m1))

theorem Cell.det {t i : Nat} {u v : α} (h : Cell sets t i u) (h' : Cell sets t i v) : u = v := by
  obtain ⟨l, h1, h2⟩ := h
  obtain ⟨l', h1', h2'⟩ := h'
  rw [h1] at h1'
  cases h1'
  rw [h2] at h2'
  exact Option.some.inj h2'

theorem Cell.lt {t i : Nat} {v : α} (h : Cell sets t i v) : t < sets.length := by
  obtain ⟨l, h1, -⟩ := h
  exact (List.getElem?_eq_some_iff.mp h1).1

theorem Cell.move (hg : Grid sets) {t i : Nat} {v : α} (h : Cell sets t i v) {t' : Nat} (ht : t' < sets.length) :
    ∃ w, Cell sets t' i w := by
  obtain ⟨l, h1, h2⟩ := h
  obtain ⟨n, hn⟩ := hg.len
  have hi := (List.getElem?_eq_some_iff.mp h2).1
  have hl := hn l (List.mem_of_getElem? h1)
  have hl' := hn sets[t'] (List.getElem_mem ht)
  exact ⟨(sets[t'])[i]'(by omega), sets[t'], by simp, by simp⟩

theorem Cell.mem {t i : Nat} {v : α} (h : Cell sets t i v) : v ∈ sets.flatten := by
  obtain ⟨l, h1, h2⟩ := h
  exact List.mem_flatten.mpr ⟨l, List.mem_of_getElem? h1, List.mem_of_getElem? h2⟩

theorem cell_of_mem {v : α} (h : v ∈ sets.flatten) : ∃ t i, Cell sets t i v := by
  obtain ⟨l, hl, hv⟩ := List.mem_flatten.mp h
  obtain ⟨t, ht⟩ := List.mem_iff_getElem?.mp hl
  obtain ⟨i, hi⟩ := List.mem_iff_getElem?.mp hv
  exact ⟨t, i, l, ht, hi⟩

theorem Shift.iff (hg : Grid sets) {k t i : Nat} {u v : α} (hu : Cell sets t i u) :
    Shift sets k u v ↔ Cell sets (t + k) i v := by
  constructor
  · rintro ⟨t', i', h1, h2⟩
    obtain ⟨rfl, rfl⟩ := h1.unique hg hu
    exact h2
  · intro h; exact ⟨t, i, hu, h⟩

theorem Homologous.iff (hg : Grid sets) {a b c d : α} {ta ia tb ib : Nat} (ha : Cell sets ta ia a) (hb : Cell sets tb ib b) :
    Homologous sets a b c d ↔ ∃ tc td, Cell sets tc ia c ∧ Cell sets td ib d ∧ tc + tb = td + ta := by
  constructor
  · rintro ⟨k, ⟨h1, h2⟩ | ⟨h1, h2⟩⟩
    · exact ⟨ta + k, tb + k, (Shift.iff hg ha).mp h1, (Shift.iff hg hb).mp h2, by omega⟩
    · obtain ⟨t, i, q1, q2⟩ := h1
      obtain ⟨t', i', q1', q2'⟩ := h2
      obtain ⟨e1, rfl⟩ := q2.unique hg ha
      obtain ⟨e2, rfl⟩ := q2'.unique hg hb
      exact ⟨t, t', q1, q1', by omega⟩
  · rintro ⟨tc, td, h1, h2, h3⟩
    rcases le_total ta tc with h | h
    · refine ⟨tc - ta, Or.inl ⟨(Shift.iff hg ha).mpr ?_, (Shift.iff hg hb).mpr ?_⟩⟩
      · rwa [show ta + (tc - ta) = tc by omega]
      · rwa [show tb + (tc - ta) = td by omega]
    · refine ⟨ta - tc, Or.inr ⟨(Shift.iff hg h1).mpr ?_, (Shift.iff hg h2).mpr ?_⟩⟩
      · rwa [show tc + (ta - tc) = ta by omega]
      · rwa [show td + (ta - tc) = tb by omega]

theorem Later.iff (hg : Grid sets) {a b : α} {ta ia tb ib : Nat} (ha : Cell sets ta ia a) (hb : Cell sets tb ib b) :
    Later sets a b ↔ ta < tb := by
  constructor
  · rintro ⟨t, i, s, j, h1, h2, h3⟩
    obtain ⟨rfl, -⟩ := h1.unique hg ha
    obtain ⟨rfl, -⟩ := h2.unique hg hb
    exact h3
  · intro h; exact ⟨ta, ia, tb, ib, ha, hb, h⟩

theorem Homologous.refl' {a b : α} (ha : a ∈ sets.flatten) (hb : b ∈ sets.flatten) :
    Homologous sets a b a b := by
  obtain ⟨t, i, h⟩ := cell_of_mem ha
  obtain ⟨s, j, h'⟩ := cell_of_mem hb
  exact ⟨0, Or.inl ⟨⟨t, i, h, h⟩, ⟨s, j, h', h'⟩⟩⟩

theorem Homologous.symm {a b c d : α} (h : Homologous sets a b c d) : Homologous sets c d a b := by
  obtain ⟨k, h | h⟩ := h
  · exact ⟨k, Or.inr h⟩
  · exact ⟨k, Or.inl h⟩

theorem Homologous.swap {a b c d : α} (h : Homologous sets a b c d) : Homologous sets b a d c := by
  obtain ⟨k, h | h⟩ := h
  · exact ⟨k, Or.inl h.symm⟩
  · exact ⟨k, Or.inr h.symm⟩

theorem Homologous.cells {a b c d : α} (h : Homologous sets a b c d) :
    (∃ t i, Cell sets t i a) ∧ (∃ t i, Cell sets t i b) ∧ (∃ t i, Cell sets t i c) ∧ (∃ t i, Cell sets t i d) := by
  obtain ⟨k, ⟨⟨t, i, h1, h2⟩, ⟨s, j, h3, h4⟩⟩ | ⟨⟨t, i, h1, h2⟩, ⟨s, j, h3, h4⟩⟩⟩ := h
  · exact ⟨⟨_, _, h1⟩, ⟨_, _, h3⟩, ⟨_, _, h2⟩, ⟨_, _, h4⟩⟩
  · exact ⟨⟨_, _, h2⟩, ⟨_, _, h4⟩, ⟨_, _, h1⟩, ⟨_, _, h3⟩⟩

theorem Homologous.trans (hg : Grid sets) {a b c d e f : α} (h : Homologous sets a b c d)
    (h' : Homologous sets c d e f) : Homologous sets a b e f := by
  obtain ⟨⟨ta, ia, ha⟩, ⟨tb, ib, hb⟩, -, -⟩ := h.cells
  obtain ⟨tc, td, hc, hd, e1⟩ := (Homologous.iff hg ha hb).mp h
  obtain ⟨te, tf, he, hf, e2⟩ := (Homologous.iff hg hc hd).mp h'
  exact (Homologous.iff hg ha hb).mpr ⟨te, tf, he, hf, by omega⟩

theorem Homologous.ne (hg : Grid sets) {a b c d : α} (h : Homologous sets a b c d) (hab : a ≠ b) : c ≠ d := by
  rintro rfl
  obtain ⟨⟨ta, ia, ha⟩, ⟨tb, ib, hb⟩, -, -⟩ := h.cells
  obtain ⟨tc, td, hc, hd, e1⟩ := (Homologous.iff hg ha hb).mp h
  obtain ⟨e2, rfl⟩ := hc.unique hg hd
  have : ta = tb := by omega
  subst this
  exact hab (ha.det hb)

theorem Homologous.later (hg : Grid sets) {a b c d : α} (h : Homologous sets a b c d) :
    Later sets a b ↔ Later sets c d := by
  obtain ⟨⟨ta, ia, ha⟩, ⟨tb, ib, hb⟩, -, -⟩ := h.cells
  obtain ⟨tc, td, hc, hd, e1⟩ := (Homologous.iff hg ha hb).mp h
  rw [Later.iff hg ha hb, Later.iff hg hc hd]
  omega

end TsSpec

namespace TsIcd
variable {α : Type} [LinearOrder α] {sets : List (List α)}

theorem timeDict_eq (sets : List (List α)) :
    timeDict sets = (sets.zipIdx.flatMap (fun lt => lt.1.map (fun v => (v, lt.2)))).foldl
      (fun d kv => Dict.set d kv.1 kv.2) [] := by
  rw [timeDict, List.foldl_flatMap]
  congr 1
  funext d lt
  rw [List.foldl_map]

theorem idxDict_eq (sets : List (List α)) :
    idxDict sets = (sets.flatMap (fun l => l.zipIdx)).foldl (fun d kv => Dict.set d kv.1 kv.2) [] := by
  rw [idxDict, List.foldl_flatMap]

omit [LinearOrder α] in
theorem mem_timeList {v : α} {t : Nat} :
    (v, t) ∈ sets.zipIdx.flatMap (fun lt => lt.1.map (fun v => (v, lt.2))) ↔ ∃ i, Cell sets t i v := by
  simp only [List.mem_flatMap, List.mem_map, Prod.mk.injEq, Prod.exists, List.mem_zipIdx_iff_getElem?]
  constructor
  · rintro ⟨l, s, h1, u, h2, rfl, rfl⟩
    obtain ⟨i, hi⟩ := List.mem_iff_getElem?.mp h2
    exact ⟨i, l, h1, hi⟩
  · rintro ⟨i, l, h1, h2⟩
    exact ⟨l, t, h1, v, List.mem_of_getElem? h2, rfl, rfl⟩

omit [LinearOrder α] in
theorem mem_idxList {v : α} {i : Nat} : (v, i) ∈ sets.flatMap (fun l => l.zipIdx) ↔ ∃ t, Cell sets t i v := by
  simp only [List.mem_flatMap, List.mem_zipIdx_iff_getElem?]
  constructor
  · rintro ⟨l, h1, h2⟩
    obtain ⟨t, ht⟩ := List.mem_iff_getElem?.mp h1
    exact ⟨t, l, ht, h2⟩
  · rintro ⟨t, l, h1, h2⟩
    exact ⟨l, List.mem_of_getElem? h1, h2⟩

theorem time_cell {v : α} {t : Nat} (h : time sets v = .ok t) : ∃ i, Cell sets t i v := by
  rw [time, Dict.get_eq_ok, timeDict_eq] at h
  rcases Dict.get?_fold _ _ _ _ h with h | h
  · exact mem_timeList.mp h
  · cases h

theorem time_of_cell (hg : Grid sets) {t i : Nat} {v : α} (h : Cell sets t i v) : time sets v = .ok t := by
  obtain ⟨y, hy⟩ := Dict.get?_fold_some (sets.zipIdx.flatMap (fun lt => lt.1.map (fun v => (v, lt.2)))) [] v t
    (Or.inl (mem_timeList.mpr ⟨i, h⟩))
  have hy' : time sets v = .ok y := by rw [time, Dict.get_eq_ok, timeDict_eq]; exact hy
  obtain ⟨i', h'⟩ := time_cell hy'
  rw [hy', (h'.unique hg h).1]

theorem idx_cell {v : α} {i : Nat} (h : idx sets v = .ok i) : ∃ t, Cell sets t i v := by
  rw [idx, Dict.get_eq_ok, idxDict_eq] at h
  rcases Dict.get?_fold _ _ _ _ h with h | h
  · exact mem_idxList.mp h
  · cases h

theorem idx_of_cell (hg : Grid sets) {t i : Nat} {v : α} (h : Cell sets t i v) : idx sets v = .ok i := by
  obtain ⟨y, hy⟩ := Dict.get?_fold_some (sets.flatMap (fun l => l.zipIdx)) [] v i (Or.inl (mem_idxList.mpr ⟨t, h⟩))
  have hy' : idx sets v = .ok y := by rw [idx, Dict.get_eq_ok, idxDict_eq]; exact hy
  obtain ⟨t', h'⟩ := idx_cell hy'
  rw [hy', (h'.unique hg h).2]

theorem time_err {v : α} (h : v ∉ sets.flatten) : time sets v = .error .keyError := by
  cases ht : time sets v with
  | ok t => obtain ⟨i, hi⟩ := time_cell ht; exact absurd hi.mem h
  | error e =>
    rw [time, Dict.get] at ht
    split at ht <;> cases ht
    rfl

omit [LinearOrder α] in
theorem nodeName_iff {t i : Nat} {v : α} : nodeName sets t i = .ok v ↔ Cell sets t i v := by
  unfold nodeName Cell
  constructor
  · intro h
    split at h
    · cases h
    · rename_i l hl
      split at h
      · cases h
      · rename_i u hu
        cases h
        exact ⟨l, hl, hu⟩
  · rintro ⟨l, h1, h2⟩
    simp only [h1, h2]

theorem grid_of_init (sets : List (List α)) (h1 : sets.length > 1)
    (h2 : sets.all (fun l => l.length == (sets.headD []).length) = true)
    (h3 : (nodesOf sets).card = sets.length * (sets.headD []).length) : Grid sets := by
  have h2' : ∀ l ∈ sets, l.length = (sets.headD []).length := by
    intro l hl
    simpa using List.all_eq_true.mp h2 l hl
  refine ⟨h1, ⟨_, h2'⟩, ?_⟩
  have hlen : sets.flatten.length = sets.length * (sets.headD []).length := by
    rw [List.length_flatten]
    generalize (sets.headD []).length = n at h2'
    clear h1 h2 h3
    induction sets with
    | nil => simp
    | cons l sets ih =>
      rw [List.map_cons, List.sum_cons, ih (fun l hl => h2' l (List.mem_cons_of_mem _ hl)), h2' l (by simp),
        List.length_cons]
      ring
  rw [nodesOf, ← hlen] at h3
  exact Multiset.toFinset_card_eq_card_iff_nodup.mp h3

/-! ### homology maps -/

theorem edgeHomology_spec (hg : Grid sets) {n0 n1 : α} {i0 t1 i1 : Nat} (h0 : Cell sets 0 i0 n0) (h1 : Cell sets t1 i1 n1) :
    ∃ l, edgeHomology sets n0 n1 = .ok l ∧ ∀ a b, (a, b) ∈ l ↔ ∃ k, 1 ≤ k ∧ Cell sets k i0 a ∧ Cell sets (t1 + k) i1 b := by
  have hz : (List.range' 1 (sets.length - t1 - 1)).zip (List.range' (t1 + 1) (sets.length - (t1 + 1))) =
      (List.range (sets.length - (t1 + 1))).map (fun k => (1 + k, t1 + 1 + k)) := by
    rw [Nat.sub_sub, List.range'_eq_map_range, List.range'_eq_map_range, List.zip_map']
  have he : edgeHomology sets n0 n1 = ((List.range (sets.length - (t1 + 1))).map (fun k => (1 + k, t1 + 1 + k))).mapM
      (fun ab => do return (← nodeName sets ab.1 i0, ← nodeName sets ab.2 i1)) := by
    rw [edgeHomology, py_bind (time_of_cell hg h0), if_neg (by simp), py_bind (time_of_cell hg h1),
      py_bind (idx_of_cell hg h1), py_bind (idx_of_cell hg h0), hz]
  rw [he]
  obtain ⟨r, hr⟩ := mapM_total (f := fun ab : Nat × Nat => (do return (← nodeName sets ab.1 i0, ← nodeName sets ab.2 i1) : Py (α × α)))
    ((List.range (sets.length - (t1 + 1))).map (fun k => (1 + k, t1 + 1 + k))) (by
      intro ab hab
      obtain ⟨k, hk, rfl⟩ := List.mem_map.mp hab
      rw [List.mem_range] at hk
      obtain ⟨a, ha⟩ := h0.move hg (t' := 1 + k) (by omega)
      obtain ⟨b, hb⟩ := h1.move hg (t' := t1 + 1 + k) (by omega)
      exact ⟨(a, b), by dsimp only; rw [py_bind (nodeName_iff.mpr ha), py_bind (nodeName_iff.mpr hb)]; rfl⟩)
  refine ⟨r, hr, fun a b => ?_⟩
  rw [mapM_mem hr]
  constructor
  · rintro ⟨ab, hab, e⟩
    obtain ⟨k, hk, rfl⟩ := List.mem_map.mp hab
    obtain ⟨x, e1, e2⟩ := py_bind_ok e
    obtain ⟨y, e3, e4⟩ := py_bind_ok e2
    cases e4
    refine ⟨1 + k, by omega, nodeName_iff.mp e1, ?_⟩
    rw [← Nat.add_assoc]
    exact nodeName_iff.mp e3
  · rintro ⟨k, hk, ha, hb⟩
    have hlt := hb.lt
    refine ⟨(1 + (k - 1), t1 + 1 + (k - 1)), List.mem_map.mpr ⟨k - 1, List.mem_range.mpr (by omega), rfl⟩, ?_⟩
    dsimp only
    rw [show 1 + (k - 1) = k by omega, show t1 + 1 + (k - 1) = t1 + k by omega, py_bind (nodeName_iff.mpr ha),
      py_bind (nodeName_iff.mpr hb)]
    rfl

theorem maxList_spec {l : List Nat} {m : Nat} (h : maxList l = .ok m) : (∀ x ∈ l, x ≤ m) ∧ m ∈ l := by
  cases l with
  | nil => cases h
  | cons t ts =>
    cases h
    have key : ∀ (ts : List Nat) (t : Nat), t ≤ ts.foldl max t ∧ (∀ x ∈ ts, x ≤ ts.foldl max t) ∧
        (ts.foldl max t = t ∨ ts.foldl max t ∈ ts) := by
      intro ts
      induction ts with
      | nil => intro t; simp
      | cons u ts ih =>
        intro t
        obtain ⟨q1, q2, q3⟩ := ih (max t u)
        simp only [List.foldl_cons, List.mem_cons]
        refine ⟨le_trans (le_max_left _ _) q1, ?_, ?_⟩
        · rintro x (rfl | hx)
          · exact le_trans (le_max_right _ _) q1
          · exact q2 x hx
        · rcases q3 with q3 | q3
          · rcases le_total t u with h | h
            · right; left; rw [q3, max_eq_right h]
            · left; rw [q3, max_eq_left h]
          · right; right; exact q3
    obtain ⟨q1, q2, q3⟩ := key ts t
    refine ⟨?_, ?_⟩
    · intro x hx
      rcases List.mem_cons.mp hx with rfl | hx
      · exact q1
      · exact q2 x hx
    · rcases q3 with q3 | q3
      · rw [q3]; simp
      · exact List.mem_cons_of_mem _ q3

theorem times_spec (hg : Grid sets) {z : List α} (hz : ∀ x ∈ z, x ∈ sets.flatten) :
    ∃ ts is, z.mapM (time sets) = .ok ts ∧ z.mapM (idx sets) = .ok is ∧ ts.length = z.length ∧
      List.Forall₂ (fun ti x => Cell sets ti.1 ti.2 x) (ts.zip is) z := by
  induction z with
  | nil => exact ⟨[], [], rfl, rfl, rfl, List.Forall₂.nil⟩
  | cons x z ih =>
    obtain ⟨t, i, h⟩ := cell_of_mem (hz x (by simp))
    obtain ⟨ts, is, e1, e2, e3, e4⟩ := ih (fun y hy => hz y (List.mem_cons_of_mem _ hy))
    refine ⟨t :: ts, i :: is, ?_, ?_, by simp [e3], List.Forall₂.cons h e4⟩
    · rw [List.mapM_cons, py_bind (time_of_cell hg h), py_bind e1]; rfl
    · rw [List.mapM_cons, py_bind (idx_of_cell hg h), py_bind e2]; rfl

theorem ciHomology_spec (hg : Grid sets) {n0 n1 : α} {z : List α} {i0 t1 i1 : Nat} (h0 : Cell sets 0 i0 n0)
    (h1 : Cell sets t1 i1 n1) (hz : ∀ x ∈ z, x ∈ sets.flatten) (hne : z ≠ []) :
    ∃ l, ciHomology sets n0 n1 z = .ok l ∧ ∀ a b c, (a, b, c) ∈ l ↔
      ∃ k, 1 ≤ k ∧ Cell sets k i0 a ∧ Cell sets (t1 + k) i1 b ∧ List.Forall₂ (Shift sets k) z c := by
  obtain ⟨ts, is, e1, e2, e3, e4⟩ := times_spec hg hz
  have hts : ts ≠ [] := by
    rintro rfl
    exact hne (List.length_eq_zero_iff.mp e3.symm)
  obtain ⟨m, hm⟩ : ∃ m, maxList ts = .ok m := by
    cases ts with
    | nil => exact absurd rfl hts
    | cons t ts => exact ⟨_, rfl⟩
  obtain ⟨hm1, hm2⟩ := maxList_spec hm
  have hlen : (ts.zip is).length = z.length := e4.length_eq
  have hmt : ∀ ti ∈ ts.zip is, ti.1 ≤ m := by
    intro ti hti
    exact hm1 _ (List.of_mem_zip (a := ti.1) (b := ti.2) hti).1
  have hmx : ∃ ti ∈ ts.zip is, ti.1 = m := by
    obtain ⟨j, hj⟩ := List.mem_iff_getElem?.mp hm2
    have hjl := (List.getElem?_eq_some_iff.mp hj).1
    refine ⟨(ts.zip is)[j]'(by omega), List.getElem_mem _, ?_⟩
    rw [List.getElem_zip]
    exact (List.getElem?_eq_some_iff.mp hj).2
  have he : ciHomology sets n0 n1 z = (List.range (sets.length - (max m t1 + 1))).mapM (fun k => do
      let a ← nodeName sets (1 + k) i0
      let b ← nodeName sets (t1 + 1 + k) i1
      let c ← (ts.zip is).mapM (fun ti => nodeName sets (ti.1 + 1 + k) ti.2)
      return (a, b, c)) := by
    rw [ciHomology, py_bind (time_of_cell hg h0), if_neg (by simp), py_bind (time_of_cell hg h1), py_bind e1,
      py_bind (idx_of_cell hg h0), py_bind (idx_of_cell hg h1), py_bind e2, py_bind hm]
  rw [he]
  have hsh : ∀ (k : Nat) (l : List (Nat × Nat)) (z c : List α), List.Forall₂ (fun ti x => Cell sets ti.1 ti.2 x) l z →
      (l.mapM (fun ti => nodeName sets (ti.1 + 1 + k) ti.2) = .ok c ↔ List.Forall₂ (Shift sets (1 + k)) z c) := by
    intro k l z c hl
    rw [mapM_forall₂]
    induction hl generalizing c with
    | nil => rw [List.forall₂_nil_left_iff, List.forall₂_nil_left_iff]
    | @cons ti x l z q1 q2 ih =>
      constructor
      · rintro (_ | ⟨p1, p2⟩)
        refine List.Forall₂.cons ((Shift.iff hg q1).mpr ?_) ((ih _).mp p2)
        rw [← Nat.add_assoc]
        exact nodeName_iff.mp p1
      · rintro (_ | ⟨p1, p2⟩)
        refine List.Forall₂.cons (nodeName_iff.mpr ?_) ((ih _).mpr p2)
        rw [Nat.add_assoc]
        exact (Shift.iff hg q1).mp p1
  obtain ⟨r, hr⟩ := mapM_total (f := fun k => (do
      let a ← nodeName sets (1 + k) i0
      let b ← nodeName sets (t1 + 1 + k) i1
      let c ← (ts.zip is).mapM (fun ti => nodeName sets (ti.1 + 1 + k) ti.2)
      return (a, b, c) : Py (α × α × List α))) (List.range (sets.length - (max m t1 + 1))) (by
      intro k hk
      rw [List.mem_range] at hk
      obtain ⟨a, ha⟩ := h0.move hg (t' := 1 + k) (by omega)
      obtain ⟨b, hb⟩ := h1.move hg (t' := t1 + 1 + k) (by omega)
      obtain ⟨c, hc⟩ := mapM_total (f := fun ti : Nat × Nat => nodeName sets (ti.1 + 1 + k) ti.2) (ts.zip is) (by
        intro ti hti
        have hle := hmt ti hti
        obtain ⟨x, hx⟩ : ∃ x, Cell sets ti.1 ti.2 x := by
          obtain ⟨j, hj, rfl⟩ := List.mem_iff_getElem.mp hti
          exact ⟨_, e4.get (i := j) hj (by omega)⟩
        obtain ⟨w, hw⟩ := hx.move hg (t' := ti.1 + 1 + k) (by omega)
        exact ⟨w, nodeName_iff.mpr hw⟩)
      exact ⟨(a, b, c), by rw [py_bind (nodeName_iff.mpr ha), py_bind (nodeName_iff.mpr hb), py_bind hc]; rfl⟩)
  refine ⟨r, hr, fun a b c => ?_⟩
  rw [mapM_mem hr]
  constructor
  · rintro ⟨k, hk, e⟩
    obtain ⟨x, f1, e⟩ := py_bind_ok e
    obtain ⟨y, f2, e⟩ := py_bind_ok e
    obtain ⟨w, f3, e⟩ := py_bind_ok e
    cases e
    refine ⟨1 + k, by omega, nodeName_iff.mp f1, ?_, (hsh k _ _ _ e4).mp f3⟩
    rw [← Nat.add_assoc]
    exact nodeName_iff.mp f2
  · rintro ⟨k, hk, ha, hb, hc⟩
    obtain ⟨k, rfl⟩ : ∃ j, k = 1 + j := ⟨k - 1, by omega⟩
    have hlt := hb.lt
    have hf := (hsh k _ _ _ e4).mpr hc
    have hm3 : m + 1 + k < sets.length := by
      obtain ⟨ti, q1, q2⟩ := hmx
      rw [mapM_forall₂] at hf
      obtain ⟨j, hj, rfl⟩ := List.mem_iff_getElem.mp q1
      have := nodeName_iff.mp (hf.get (i := j) hj (hf.length_eq ▸ hj))
      have := this.lt
      simp only [List.get_eq_getElem] at this
      omega
    refine ⟨k, List.mem_range.mpr (by omega), ?_⟩
    have hb' : Cell sets (t1 + 1 + k) i1 b := by rw [Nat.add_assoc]; exact hb
    rw [py_bind (nodeName_iff.mpr ha), py_bind (nodeName_iff.mpr hb'), py_bind hf]
    rfl

theorem edgeHomology_err {n0 n1 : α} {t : Nat} (h : time sets n0 = .ok t) (ht : t ≠ 0) :
    edgeHomology sets n0 n1 = .error .assertionError := by
  rw [edgeHomology, py_bind h, if_pos ht]
  rfl

theorem ciHomology_err {n0 n1 : α} {z : List α} {t : Nat} (h : time sets n0 = .ok t) (ht : t ≠ 0) :
    ciHomology sets n0 n1 z = .error .assertionError := by
  rw [ciHomology, py_bind h, if_pos ht]
  rfl

/-- The pairs homologous to an orientation are exactly the pairs of the same variables with the same lag. -/
theorem markHomology_spec (hg : Grid sets) {p c : α} (hp : p ∈ sets.flatten) (hc : c ∈ sets.flatten) :
    ∃ l, markHomology sets p c = .ok l ∧ ∀ a b, (b, a) ∈ l ↔ Homologous sets p c a b := by
  obtain ⟨tp, ip, hp⟩ := cell_of_mem hp
  obtain ⟨tc, ic, hc⟩ := cell_of_mem hc
  obtain ⟨p0, hp0⟩ := hp.move hg (t' := tp - min tp tc) (by have := hp.lt; omega)
  obtain ⟨c0, hc0⟩ := hc.move hg (t' := tc - min tp tc) (by have := hc.lt; omega)
  have e0 : markHomology sets p c = (do
      let h ← (do
        if (← time sets c0) = 0 then edgeHomology sets c0 p0
        else if (← time sets p0) = 0 then
          return (← edgeHomology sets p0 c0).map (fun ab => (ab.2, ab.1))
        else throw .runtimeError)
      return h ++ [(c0, p0)]) := by
    rw [markHomology, py_bind (time_of_cell hg hp), py_bind (time_of_cell hg hc)]
    dsimp only
    rw [py_bind (idx_of_cell hg hp), py_bind (nodeName_iff.mpr hp0), py_bind (idx_of_cell hg hc),
      py_bind (nodeName_iff.mpr hc0)]
  rw [e0]
  have hfin : ∀ a b, Homologous sets p c a b ↔ ∃ k, Cell sets (tp - min tp tc + k) ip a ∧ Cell sets (tc - min tp tc + k) ic b := by
    intro a b
    rw [Homologous.iff hg hp hc]
    constructor
    · rintro ⟨ta, tb, h1, h2, h3⟩
      refine ⟨min ta tb, ?_, ?_⟩
      · rwa [show tp - min tp tc + min ta tb = ta by omega]
      · rwa [show tc - min tp tc + min ta tb = tb by omega]
    · rintro ⟨k, h1, h2⟩
      exact ⟨_, _, h1, h2, by omega⟩
  have hbase : ∀ a b, (a = p0 ∧ b = c0) ↔ Cell sets (tp - min tp tc) ip a ∧ Cell sets (tc - min tp tc) ic b := by
    intro a b
    constructor
    · rintro ⟨rfl, rfl⟩; exact ⟨hp0, hc0⟩
    · rintro ⟨h1, h2⟩; exact ⟨h1.det hp0, h2.det hc0⟩
  by_cases h0 : tc - min tp tc = 0
  · have hc0' : Cell sets 0 ic c0 := by rw [h0] at hc0; exact hc0
    obtain ⟨l, hl, hm⟩ := edgeHomology_spec hg hc0' hp0
    refine ⟨l ++ [(c0, p0)], ?_, ?_⟩
    · rw [py_bind (a := l) (by rw [py_bind (time_of_cell hg hc0'), if_pos rfl]; exact hl)]
      rfl
    · intro a b
      rw [List.mem_append, hm, List.mem_singleton, Prod.mk.injEq, hfin, and_comm (a := b = c0), hbase]
      constructor
      · rintro (⟨k, -, h1, h2⟩ | ⟨h1, h2⟩)
        · exact ⟨k, h2, by rw [h0, Nat.zero_add]; exact h1⟩
        · exact ⟨0, h1, h2⟩
      · rintro ⟨k, h1, h2⟩
        rcases Nat.eq_zero_or_pos k with rfl | hk
        · exact Or.inr ⟨h1, h2⟩
        · rw [h0, Nat.zero_add] at h2
          exact Or.inl ⟨k, hk, h2, h1⟩
  · have h0' : tp - min tp tc = 0 := by omega
    have hp0' : Cell sets 0 ip p0 := by rw [h0'] at hp0; exact hp0
    obtain ⟨l, hl, hm⟩ := edgeHomology_spec hg hp0' hc0
    refine ⟨l.map (fun ab => (ab.2, ab.1)) ++ [(c0, p0)], ?_, ?_⟩
    · rw [py_bind (a := l.map (fun ab => (ab.2, ab.1))) (by
        rw [py_bind (time_of_cell hg hc0), if_neg h0, py_bind (time_of_cell hg hp0'), if_pos rfl, py_bind hl]
        rfl)]
      rfl
    · intro a b
      have hsw : (b, a) ∈ l.map (fun ab => (ab.2, ab.1)) ↔ (a, b) ∈ l := by
        rw [List.mem_map]
        constructor
        · rintro ⟨⟨x, y⟩, h1, h2⟩; cases h2; exact h1
        · intro h; exact ⟨(a, b), h, rfl⟩
      rw [List.mem_append, hsw, hm, List.mem_singleton, Prod.mk.injEq, hfin, and_comm (a := b = c0), hbase]
      constructor
      · rintro (⟨k, -, h1, h2⟩ | ⟨h1, h2⟩)
        · exact ⟨k, by rw [h0', Nat.zero_add]; exact h1, h2⟩
        · exact ⟨0, h1, h2⟩
      · rintro ⟨k, h1, h2⟩
        rcases Nat.eq_zero_or_pos k with rfl | hk
        · exact Or.inr ⟨h1, h2⟩
        · rw [h0', Nat.zero_add] at h1
          exact Or.inl ⟨k, hk, h1, h2⟩

end TsIcd
end Verif
