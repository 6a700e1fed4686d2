import Verif.Model.PySet

namespace Verif
variable {β : Type}

theorem mem_pairs_left {l : List β} {a b : β} (h : (a, b) ∈ pairs l) : a ∈ l := by
  induction l with
  | nil => simp [pairs] at h
  | cons x xs ih =>
    simp only [pairs, List.mem_append, List.mem_map, Prod.mk.injEq] at h
    rcases h with ⟨y, _, rfl, rfl⟩ | h
    · simp
    · exact List.mem_cons_of_mem _ (ih h)

theorem mem_pairs_right {l : List β} {a b : β} (h : (a, b) ∈ pairs l) : b ∈ l := by
  induction l with
  | nil => simp [pairs] at h
  | cons x xs ih =>
    simp only [pairs, List.mem_append, List.mem_map, Prod.mk.injEq] at h
    rcases h with ⟨y, hy, rfl, rfl⟩ | h
    · exact List.mem_cons_of_mem _ hy
    · exact List.mem_cons_of_mem _ (ih h)

theorem mem_pairs_ne {l : List β} (hl : l.Nodup) {a b : β} (h : (a, b) ∈ pairs l) : a ≠ b := by
  induction l with
  | nil => simp [pairs] at h
  | cons x xs ih =>
    rw [List.nodup_cons] at hl
    simp only [pairs, List.mem_append, List.mem_map, Prod.mk.injEq] at h
    rcases h with ⟨y, hy, rfl, rfl⟩ | h
    · rintro rfl; exact hl.1 hy
    · exact ih hl.2 h

theorem mem_pairs_or {l : List β} {a b : β} (ha : a ∈ l) (hb : b ∈ l) (hab : a ≠ b) :
    (a, b) ∈ pairs l ∨ (b, a) ∈ pairs l := by
  induction l with
  | nil => simp at ha
  | cons x xs ih =>
    simp only [pairs, List.mem_append, List.mem_map, Prod.mk.injEq]
    rcases List.mem_cons.mp ha with rfl | ha'
    · rcases List.mem_cons.mp hb with rfl | hb'
      · exact absurd rfl hab
      · exact Or.inl (Or.inl ⟨b, hb', rfl, rfl⟩)
    · rcases List.mem_cons.mp hb with rfl | hb'
      · exact Or.inr (Or.inl ⟨a, ha', rfl, rfl⟩)
      · rcases ih ha' hb' with h | h
        · exact Or.inl (Or.inr h)
        · exact Or.inr (Or.inr h)

theorem mem_combs {k : Nat} {xs l : List β} :
    l ∈ combs k xs ↔ l.Sublist xs ∧ l.length = k := by
  induction xs generalizing k l with
  | nil =>
    cases k with
    | zero => simp [combs]
    | succ k =>
      simp only [combs, List.not_mem_nil, List.sublist_nil, false_iff, not_and]
      rintro rfl; simp
  | cons x xs ih =>
    cases k with
    | zero =>
      simp only [combs, List.mem_singleton, List.length_eq_zero_iff, iff_and_self]
      rintro rfl; simp
    | succ k =>
      simp only [combs, List.mem_append, List.mem_map, ih]
      constructor
      · rintro (⟨l', ⟨h1, h2⟩, rfl⟩ | ⟨h1, h2⟩)
        · exact ⟨h1.cons_cons x, by simp [h2]⟩
        · exact ⟨h1.cons x, h2⟩
      · rintro ⟨h1, h2⟩
        cases h1 with
        | cons _ h => exact Or.inr ⟨h, h2⟩
        | cons_cons _ h => exact Or.inl ⟨_, ⟨h, by simpa using h2⟩, rfl⟩

end Verif
