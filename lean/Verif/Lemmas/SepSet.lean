import Verif.Model.SepSet
import Verif.Lemmas.PySet
import Verif.Lemmas.Dsep

/-!
# Lemmas about dictionaries and `SeparationSet`
-/

namespace Verif

namespace Dict
variable {κ ν : Type} [DecidableEq κ]

theorem get?_set (d : Dict κ ν) (k k' : κ) (v : ν) :
    (d.set k v).get? k' = if k = k' then some v else d.get? k' := by
  induction d with
  | nil => simp [set, get?]
  | cons kv d ih =>
    obtain ⟨k0, v0⟩ := kv
    simp only [set]
    by_cases h0 : k0 = k
    · subst h0; simp only [if_true, get?]
      split <;> rfl
    · simp only [h0, if_false, get?, ih]
      by_cases h1 : k = k'
      · subst h1; simp [h0]
      · simp [h1]

theorem get?_map (d : Dict κ ν) {ν' : Type} (f : ν → ν') (k : κ) :
    Dict.get? (d.map (fun kv => (kv.1, f kv.2))) k = (d.get? k).map f := by
  induction d with
  | nil => rfl
  | cons kv d ih =>
    obtain ⟨k0, v0⟩ := kv
    simp only [List.map_cons, get?]
    split
    · rfl
    · exact ih

theorem get_eq_ok {d : Dict κ ν} {k : κ} {v : ν} : d.get k = .ok v ↔ d.get? k = some v := by
  unfold get; cases d.get? k <;> simp

theorem get?_isSome_iff (d : Dict κ ν) (k : κ) : (d.get? k).isSome ↔ ∃ kv ∈ d, kv.1 = k := by
  induction d with
  | nil => simp [get?]
  | cons kv d ih =>
    obtain ⟨k0, v0⟩ := kv
    simp only [get?, List.mem_cons, exists_eq_or_imp]
    split
    · rename_i h; simp [h]
    · rename_i h; simp only [ih, h, false_or]

end Dict

namespace SepSet
variable {α : Type} [LinearOrder α]

theorem hkey_comm {a b : α} : hkey a b = hkey b a := by
  rcases lt_trichotomy a b with h | rfl | h
  · simp [hkey, h, not_lt_of_gt h]
  · rfl
  · simp [hkey, h, not_lt_of_gt h]

theorem hkey_eq_iff {a b c d : α} : hkey a b = hkey c d ↔ (a = c ∧ b = d) ∨ (a = d ∧ b = c) := by
  constructor
  · unfold hkey
    split <;> split <;> simp only [Prod.mk.injEq]
    · intro h; exact Or.inl h
    · intro h; exact Or.inr h
    · rintro ⟨rfl, rfl⟩; exact Or.inr ⟨rfl, rfl⟩
    · rintro ⟨rfl, rfl⟩; exact Or.inl ⟨rfl, rfl⟩
  · rintro (⟨rfl, rfl⟩ | ⟨rfl, rfl⟩)
    · rfl
    · exact hkey_comm

theorem get_comm (s : SepSet α) (a b : α) : s.get a b = s.get b a := by
  simp only [get, hkey_comm (a := a) (b := b)]

theorem get_set (s : SepSet α) (a b c d : α) (S : Finset α) :
    (s.set a b S).get c d = if (a = c ∧ b = d) ∨ (a = d ∧ b = c) then .ok S else s.get c d := by
  simp only [get, set, Dict.get, Dict.get?_set, hkey_eq_iff]
  split
  · split <;> simp_all
  · split <;> simp_all

theorem get?_init_fold (l : List (α × α)) : ∀ (d : Dict (α × α) (Finset α)) (k : α × α),
    (l.foldl (fun d ij => Dict.set d (hkey ij.1 ij.2) ∅) d).get? k =
      if ∃ ij ∈ l, hkey ij.1 ij.2 = k then some ∅ else d.get? k := by
  induction l with
  | nil => intro d k; simp
  | cons ij l ih =>
    intro d k
    rw [List.foldl_cons, ih, Dict.get?_set]
    by_cases h1 : ∃ ij ∈ l, hkey ij.1 ij.2 = k
    · rw [if_pos h1, if_pos]
      obtain ⟨x, hx, h⟩ := h1; exact ⟨x, List.mem_cons_of_mem _ hx, h⟩
    · rw [if_neg h1]
      by_cases h2 : hkey ij.1 ij.2 = k
      · rw [if_pos h2, if_pos]; exact ⟨ij, by simp, h2⟩
      · rw [if_neg h2, if_neg]
        rintro ⟨x, hx, h⟩
        rcases List.mem_cons.mp hx with rfl | hx
        · exact h2 h
        · exact h1 ⟨x, hx, h⟩

theorem pair_key_iff (o : SetOrder α) {τ : Type} (t : τ) (nodes : Finset α) (a b : α) :
    (∃ ij ∈ pairs (o.iter t nodes), hkey ij.1 ij.2 = hkey a b) ↔ a ∈ nodes ∧ b ∈ nodes ∧ a ≠ b := by
  constructor
  · rintro ⟨⟨i, j⟩, h, hk⟩
    have h1 := (o.mem _ _ _).mp (mem_pairs_left h)
    have h2 := (o.mem _ _ _).mp (mem_pairs_right h)
    have h3 := mem_pairs_ne (o.nodup _ _) h
    rcases hkey_eq_iff.mp hk with ⟨rfl, rfl⟩ | ⟨rfl, rfl⟩
    · exact ⟨h1, h2, h3⟩
    · exact ⟨h2, h1, h3.symm⟩
  · rintro ⟨ha, hb, hne⟩
    rcases mem_pairs_or ((o.mem t _ _).mpr ha) ((o.mem t _ _).mpr hb) hne with h | h
    · exact ⟨_, h, rfl⟩
    · exact ⟨_, h, hkey_comm⟩

/-- The copying loop of `copy` and `copy_from`. -/
theorem copyLoop_spec (src : SepSet α) (l : List (α × α)) : ∀ (t : SepSet α),
    (∀ ij ∈ l, ∃ S, src.get ij.1 ij.2 = .ok S) →
    ∃ r, l.foldlM (fun (t : SepSet α) ij => do
        let x ← src.get ij.1 ij.2
        return { t with d := Dict.set t.d (hkey ij.1 ij.2) x }) t = .ok r ∧ r.nodes = t.nodes ∧
      ∀ k, r.d.get? k = if ∃ ij ∈ l, hkey ij.1 ij.2 = k then src.d.get? k else t.d.get? k := by
  induction l with
  | nil => intro t _; exact ⟨t, rfl, rfl, by simp⟩
  | cons ij l ih =>
    intro t hk
    obtain ⟨S, hS⟩ := hk ij (by simp)
    obtain ⟨r, h1, h2, h3⟩ := ih { t with d := Dict.set t.d (hkey ij.1 ij.2) S }
      (fun x hx => hk x (List.mem_cons_of_mem _ hx))
    refine ⟨r, by simp only [List.foldlM_cons, hS]; exact h1, h2, fun k => ?_⟩
    rw [h3, Dict.get?_set]
    have hS' : src.d.get? (hkey ij.1 ij.2) = some S := Dict.get_eq_ok.mp hS
    by_cases hk1 : ∃ ij ∈ l, hkey ij.1 ij.2 = k
    · rw [if_pos hk1, if_pos]
      obtain ⟨x, hx, hx'⟩ := hk1
      exact ⟨x, List.mem_cons_of_mem _ hx, hx'⟩
    · rw [if_neg hk1]
      by_cases hk2 : hkey ij.1 ij.2 = k
      · rw [if_pos hk2, if_pos ⟨ij, by simp, hk2⟩, ← hk2, hS']
      · rw [if_neg hk2, if_neg]
        rintro ⟨x, hx, hx'⟩
        rcases List.mem_cons.mp hx with rfl | hx
        · exact hk2 hx'
        · exact hk1 ⟨x, hx, hx'⟩

theorem get_init (o : SetOrder α) (nodes : Finset α) (a b : α) :
    (init o nodes).get a b = if a ∈ nodes ∧ b ∈ nodes ∧ a ≠ b then .ok ∅ else .error .keyError := by
  simp only [get, Dict.get, init, get?_init_fold, pair_key_iff]
  by_cases h : a ∈ nodes ∧ b ∈ nodes ∧ a ≠ b
  · rw [if_pos h, if_pos h]
  · rw [if_neg h, if_neg h]; rfl

end SepSet

/-! ### unique_element_iterator -/

theorem mem_uniqueElems {β : Type} [DecidableEq β] (l : List β) : ∀ (seen : List β) (x : β),
    x ∈ uniqueElems l seen ↔ x ∈ l ∧ x ∉ seen := by
  induction l with
  | nil => simp [uniqueElems]
  | cons e l ih =>
    intro seen x
    simp only [uniqueElems]
    split
    · rename_i h
      rw [ih, List.mem_cons]
      constructor
      · rintro ⟨h1, h2⟩; exact ⟨Or.inr h1, h2⟩
      · rintro ⟨rfl | h1, h2⟩
        · exact absurd h h2
        · exact ⟨h1, h2⟩
    · rename_i h
      rw [List.mem_cons, ih, List.mem_cons, List.mem_cons]
      by_cases hx : x = e
      · subst hx; simp [h]
      · simp [hx]

theorem nodup_uniqueElems {β : Type} [DecidableEq β] (l : List β) : ∀ (seen : List β), (uniqueElems l seen).Nodup := by
  induction l with
  | nil => simp [uniqueElems]
  | cons e l ih =>
    intro seen
    simp only [uniqueElems]
    split
    · exact ih seen
    · rw [List.nodup_cons]
      refine ⟨?_, ih _⟩
      rw [mem_uniqueElems]; simp

end Verif
