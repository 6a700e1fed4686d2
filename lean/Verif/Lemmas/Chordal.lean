import Mathlib.Data.Finset.Card
import Mathlib.Data.Finset.Lattice.Fold
import Mathlib.Tactic.Tauto

/-!
# Perfect elimination orders with a prescribed first vertex

A graph every non-empty vertex subset of which has a simplicial vertex (the hereditary form of chordality)
can be ordered from any root such that the earlier neighbours of every vertex form a clique.
-/

namespace Verif
variable {α : Type} [DecidableEq α]

/-- The neighbours of `v` in `T` are pairwise adjacent. -/
def Simp (U : α → α → Prop) (T : Finset α) (v : α) : Prop :=
  ∀ a ∈ T, ∀ b ∈ T, U a v → U b v → a ≠ b → U a b

/-- Every non-empty subset has a simplicial vertex. -/
def Chord (U : α → α → Prop) (S : Finset α) : Prop :=
  ∀ T ⊆ S, T.Nonempty → ∃ v ∈ T, Simp U T v

theorem two_simplicial {U : α → α → Prop} (hs : ∀ a b, U a b → U b a) :
    ∀ (n : Nat) (T : Finset α), T.card = n → Chord U T →
      (∃ a ∈ T, ∃ b ∈ T, a ≠ b ∧ ¬ U a b) →
      ∃ a ∈ T, ∃ b ∈ T, a ≠ b ∧ ¬ U a b ∧ Simp U T a ∧ Simp U T b := by
  intro n
  induction n with
  | zero =>
    intro T hT _ ⟨a, ha, _⟩
    rw [Finset.card_eq_zero] at hT; subst hT; simp at ha
  | succ n ih =>
    intro T hT hC hnc
    have hne : T.Nonempty := Finset.card_pos.mp (by omega)
    obtain ⟨v, hv, hsv⟩ := hC T (Finset.Subset.refl _) hne
    have hcard : (T.erase v).card = n := by rw [Finset.card_erase_of_mem hv]; omega
    have lift : ∀ a ∈ T.erase v, ¬ U a v → Simp U (T.erase v) a → Simp U T a := by
      intro a _ hav hsa b hb c hc hba hca hbc
      have hbv : b ≠ v := by rintro rfl; exact hav (hs _ _ hba)
      have hcv : c ≠ v := by rintro rfl; exact hav (hs _ _ hca)
      exact hsa b (Finset.mem_erase.mpr ⟨hbv, hb⟩) c (Finset.mem_erase.mpr ⟨hcv, hc⟩) hba hca hbc
    by_cases hcomp : ∃ a ∈ T.erase v, ∃ b ∈ T.erase v, a ≠ b ∧ ¬ U a b
    · obtain ⟨a, ha, b, hb, hab, hnab, hsa, hsb⟩ := ih (T.erase v) hcard
        (fun T' hT' => hC T' (hT'.trans (Finset.erase_subset _ _))) hcomp
      have ha' := Finset.mem_erase.mp ha
      have hb' := Finset.mem_erase.mp hb
      by_cases hav : U a v
      · have hbv : ¬ U b v := fun hbv => hnab (hsv a ha'.2 b hb'.2 hav hbv hab)
        exact ⟨b, hb'.2, v, hv, hb'.1, hbv, lift b hb hbv hsb, hsv⟩
      · exact ⟨a, ha'.2, v, hv, ha'.1, hav, lift a ha hav hsa, hsv⟩
    · obtain ⟨a, ha, b, hb, hab, hnab⟩ := hnc
      have key : ∃ u ∈ T.erase v, ¬ U u v := by
        by_cases hav : a = v
        · subst hav
          exact ⟨b, Finset.mem_erase.mpr ⟨Ne.symm hab, hb⟩, fun h => hnab (hs _ _ h)⟩
        · by_cases hbv : b = v
          · subst hbv; exact ⟨a, Finset.mem_erase.mpr ⟨hav, ha⟩, hnab⟩
          · exact absurd ⟨a, Finset.mem_erase.mpr ⟨hav, ha⟩, b, Finset.mem_erase.mpr ⟨hbv, hb⟩, hab, hnab⟩ hcomp
      obtain ⟨u, hu, huv⟩ := key
      have hu' := Finset.mem_erase.mp hu
      refine ⟨u, hu'.2, v, hv, hu'.1, huv, lift u hu huv ?_, hsv⟩
      intro c hc d hd _ _ hcd
      by_contra h
      exact hcomp ⟨c, hc, d, hd, hcd, h⟩

/-- A simplicial vertex different from a given one. -/
theorem exists_simplicial_ne {U : α → α → Prop} (hs : ∀ a b, U a b → U b a)
    {S : Finset α} (hC : Chord U S) {r x : α} (hx : x ∈ S) (hxr : x ≠ r) :
    ∃ v ∈ S, v ≠ r ∧ Simp U S v := by
  by_cases hcomp : ∃ a ∈ S, ∃ b ∈ S, a ≠ b ∧ ¬ U a b
  · obtain ⟨a, ha, b, hb, hab, _, hsa, hsb⟩ := two_simplicial hs _ S rfl hC hcomp
    by_cases har : a = r
    · exact ⟨b, hb, fun h => hab (har.trans h.symm), hsb⟩
    · exact ⟨a, ha, har, hsa⟩
  · refine ⟨x, hx, hxr, ?_⟩
    intro c hc d hd _ _ hcd
    by_contra h
    exact hcomp ⟨c, hc, d, hd, hcd, h⟩

theorem exists_rank {U : α → α → Prop} (hs : ∀ a b, U a b → U b a) (hirr : ∀ a, ¬ U a a) (r : α) :
    ∀ (n : Nat) (S : Finset α), S.card = n → Chord U S →
      ∃ f : α → Nat, (∀ a ∈ S, ∀ b ∈ S, f a = f b → a = b) ∧ (∀ x ∈ S, r ∈ S → x ≠ r → f r < f x) ∧
        ∀ v ∈ S, ∀ a ∈ S, ∀ b ∈ S, U a v → U b v → a ≠ b → f a < f v → f b < f v → U a b := by
  intro n
  induction n with
  | zero =>
    intro S hS _
    rw [Finset.card_eq_zero] at hS; subst hS
    exact ⟨fun _ => 0, by simp, by simp, by simp⟩
  | succ n ih =>
    intro S hS hC
    by_cases hx : ∃ x ∈ S, x ≠ r
    · obtain ⟨x, hx, hxr⟩ := hx
      obtain ⟨v, hv, hvr, hsv⟩ := exists_simplicial_ne hs hC hx hxr
      obtain ⟨f, hf1, hf2, hf3⟩ := ih (S.erase v) (by rw [Finset.card_erase_of_mem hv]; omega)
        (fun T hT => hC T (hT.trans (Finset.erase_subset _ _)))
      have hlt : ∀ a ∈ S, f a < S.sup f + 1 := fun a ha => Nat.lt_succ_of_le (Finset.le_sup ha)
      refine ⟨fun a => if a = v then S.sup f + 1 else f a, ?_, ?_, ?_⟩
      · intro a ha b hb hab
        simp only at hab
        by_cases hav : a = v <;> by_cases hbv : b = v
        · exact hav.trans hbv.symm
        · rw [if_pos hav, if_neg hbv] at hab; have := hlt b hb; omega
        · rw [if_neg hav, if_pos hbv] at hab; have := hlt a ha; omega
        · rw [if_neg hav, if_neg hbv] at hab
          exact hf1 a (Finset.mem_erase.mpr ⟨hav, ha⟩) b (Finset.mem_erase.mpr ⟨hbv, hb⟩) hab
      · intro y hy hr hyr
        simp only
        rw [if_neg (Ne.symm hvr)]
        by_cases hyv : y = v
        · rw [if_pos hyv]; exact hlt r hr
        · rw [if_neg hyv]
          exact hf2 y (Finset.mem_erase.mpr ⟨hyv, hy⟩) (Finset.mem_erase.mpr ⟨Ne.symm hvr, hr⟩) hyr
      · intro w hw a ha b hb haw hbw hab hfa hfb
        simp only at hfa hfb
        by_cases hwv : w = v
        · subst hwv; exact hsv a ha b hb haw hbw hab
        · rw [if_neg hwv] at hfa hfb
          have hav : a ≠ v := by
            rintro rfl; rw [if_pos rfl] at hfa; have := hlt w hw; omega
          have hbv : b ≠ v := by
            rintro rfl; rw [if_pos rfl] at hfb; have := hlt w hw; omega
          rw [if_neg hav] at hfa
          rw [if_neg hbv] at hfb
          exact hf3 w (Finset.mem_erase.mpr ⟨hwv, hw⟩) a (Finset.mem_erase.mpr ⟨hav, ha⟩)
            b (Finset.mem_erase.mpr ⟨hbv, hb⟩) haw hbw hab hfa hfb
    · have hall : ∀ x ∈ S, x = r := fun x hx' => by by_contra h; exact hx ⟨x, hx', h⟩
      refine ⟨fun _ => 0, fun a ha b hb _ => (hall a ha).trans (hall b hb).symm,
        fun y hy _ h => absurd (hall y hy) h, ?_⟩
      intro v hv a ha b hb haw _ _
      rw [hall a ha, hall v hv] at haw
      exact absurd haw (hirr r)

end Verif
