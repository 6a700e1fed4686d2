import Verif.Lemmas.Mag
import Verif.Lemmas.PagMsep
import Verif.Lemmas.FciSound
import Verif.Spec.TruePag

/-!
# The maximal ancestral graph of a DAG with latent variables
-/

namespace Verif
open Relation MG
variable {α : Type}

namespace Dag
variable {D : Dag α} {O : Finset α}

theorem mag_arrow {a b : α} : (D.mag O).At a b .arrow ↔ a ∈ O ∧ a ≠ b ∧ b ∈ O ∧ D.Insep O a b ∧ ¬ D.DPath b a := by
  simp [MG.At, Dag.mag]

theorem mag_tail {a b : α} : (D.mag O).At a b .tail ↔ a ∈ O ∧ a ≠ b ∧ b ∈ O ∧ D.Insep O a b ∧ D.DPath b a := by
  simp [MG.At, Dag.mag]

theorem mag_circle {a b : α} : ¬ (D.mag O).At a b .circle := by
  simp [MG.At, Dag.mag]

theorem Insep.symm (hac : D.Acyclic) {a b : α} (h : D.Insep O a b) : D.Insep O b a := by
  intro S h1 h2 h3 h4
  refine h S h1 h3 h2 fun ⟨l, hl⟩ => h4 ⟨l.reverse, ?_⟩
  rw [activePath_iff hac] at hl ⊢
  exact ⟨by simpa using hl.1, by simpa using hl.2.2.1, by simpa using hl.2.1,
    Walk.act_reverse_aux (fun a b h => h.symm) _ hl.2.2.2⟩

theorem mag_adj (hac : D.Acyclic) {a b : α} : (D.mag O).MAdj a b ↔ a ∈ O ∧ b ∈ O ∧ a ≠ b ∧ D.Insep O a b := by
  constructor
  · rintro (⟨m, h⟩ | ⟨m, h⟩) <;> cases m
    · have := mag_tail.mp h; tauto
    · have := mag_arrow.mp h; tauto
    · exact absurd h mag_circle
    · obtain ⟨h1, h2, h3, h4, -⟩ := mag_tail.mp h
      exact ⟨h3, h1, h2.symm, h4.symm hac⟩
    · obtain ⟨h1, h2, h3, h4, -⟩ := mag_arrow.mp h
      exact ⟨h3, h1, h2.symm, h4.symm hac⟩
    · exact absurd h mag_circle
  · rintro ⟨h1, h2, h3, h4⟩
    by_cases h : D.DPath b a
    · exact Or.inl ⟨_, mag_tail.mpr ⟨h1, h3, h2, h4, h⟩⟩
    · exact Or.inl ⟨_, mag_arrow.mpr ⟨h1, h3, h2, h4, h⟩⟩

theorem dpath_antisymm (hac : D.Acyclic) {a b : α} (h1 : D.DPath a b) (h2 : D.DPath b a) : a = b := by
  rcases reflTransGen_iff_eq_or_transGen.1 h1 with h | h
  · exact h.symm
  · exact absurd (h.trans_left h2) (hac a)

theorem mag_par_path {a b : α} (h : ReflTransGen (D.mag O).Par a b) : D.DPath a b := by
  induction h with
  | refl => exact .refl
  | tail _ h ih => exact ih.trans (mag_tail.mp h.2).2.2.2.2

theorem mag_proper (hac : D.Acyclic) : (D.mag O).Proper where
  type := by intro a b m _; cases m <;> simp [Dag.mag]
  mem := by
    intro a b m h
    cases m
    · have := mag_tail.mp h; exact ⟨this.1, this.2.2.1⟩
    · have := mag_arrow.mp h; exact ⟨this.1, this.2.2.1⟩
    · exact absurd h mag_circle
  irrefl := by
    intro a m h
    cases m
    · exact (mag_tail.mp h).2.1 rfl
    · exact (mag_arrow.mp h).2.1 rfl
    · exact mag_circle h
  one := by
    intro a b m m' h h'
    cases m <;> cases m' <;> try rfl
    · exact absurd (mag_tail.mp h).2.2.2.2 (mag_arrow.mp h').2.2.2.2
    · exact absurd h' mag_circle
    · exact absurd (mag_tail.mp h').2.2.2.2 (mag_arrow.mp h).2.2.2.2
    · exact absurd h' mag_circle
    · exact absurd h mag_circle
    · exact absurd h mag_circle
  both := by
    intro a b m h
    obtain ⟨h1, h2, h3, h4⟩ := (mag_adj hac).mp (Or.inl ⟨m, h⟩)
    by_cases h : D.DPath a b
    · exact ⟨_, mag_tail.mpr ⟨h2, h3.symm, h1, h4.symm hac, h⟩⟩
    · exact ⟨_, mag_arrow.mpr ⟨h2, h3.symm, h1, h4.symm hac, h⟩⟩

theorem mag_ancestral (hac : D.Acyclic) : Ancestral (D.mag O) where
  proper := mag_proper hac
  nocircle := fun _ _ => mag_circle
  acyclic := fun _ _ h hp => (mag_arrow.mp h).2.2.2.2 (mag_par_path hp.to_reflTransGen)
  undirected := fun _ _ _ h1 h2 _ => (mag_tail.mp h1).2.1
    (dpath_antisymm hac (mag_tail.mp h2).2.2.2.2 (mag_tail.mp h1).2.2.2.2)

theorem mag_dm (hac : D.Acyclic) : (D.mag O).DirectedMixed := by
  intro a b h
  obtain ⟨h1, h2, h3, h4⟩ := (mag_adj hac).mp h
  constructor
  · by_cases h : D.DPath b a
    · exact Or.inr (mag_tail.mpr ⟨h1, h3, h2, h4, h⟩)
    · exact Or.inl (mag_arrow.mpr ⟨h1, h3, h2, h4, h⟩)
  · by_cases h : D.DPath b a
    · exact Or.inr (mag_arrow.mpr ⟨h2, h3.symm, h1, h4.symm hac, fun h' => h3 (dpath_antisymm hac h' h)⟩)
    · exact Or.inl (mag_arrow.mpr ⟨h1, h3, h2, h4, h⟩)

theorem insep_iff (hac : D.Acyclic) {a b : α} (ha : a ∈ O) (hb : b ∈ O) (hab : a ≠ b) :
    D.Insep O a b ↔ Walk.madj D.Adj D.Edge (· ∈ O) a b := by
  classical
  have hirr : ∀ a, ¬ D.Adj a a := fun a h => by rcases h with h | h <;> exact hac a (.single h)
  rw [Walk.madj_iff_insep (fun a b h => h.symm) hirr (fun a b h => Or.inl h) (fun a b h => h)
    (by rw [dir_eq hac]; exact hac) ha hb hab]
  constructor
  · intro h Z h1 h2 h3
    have hiff : ∀ v, v ∈ O.filter Z ↔ Z v := fun v => by
      rw [Finset.mem_filter]; exact ⟨fun h => h.2, fun h => ⟨h1 v h, h⟩⟩
    have := h (O.filter Z) (Finset.filter_subset _ _) (fun h => h2 ((hiff a).mp h)) (fun h => h3 ((hiff b).mp h))
    rw [Dag.DSeparated, not_not] at this
    obtain ⟨l, hl⟩ := this
    rw [activePath_iff hac] at hl
    have e : (fun v => v ∈ O.filter Z) = Z := by funext v; exact propext (hiff v)
    rw [e] at hl
    exact ⟨l, hl⟩
  · intro h S h1 h2 h3
    obtain ⟨l, hl⟩ := h (· ∈ S) (fun v hv => h1 hv) h2 h3
    rw [Dag.DSeparated, not_not]
    exact ⟨l, (activePath_iff hac).mpr hl⟩

/-- m-separation in the maximal ancestral graph is d-separation in the DAG. -/
theorem mag_msep (hac : D.Acyclic) {a b : α} {Z : Finset α} (ha : a ∈ O) (hb : b ∈ O) (hZ : Z ⊆ O) (haZ : a ∉ Z) (hbZ : b ∉ Z) :
    (D.mag O).MSep a b Z ↔ D.DSeparated a b Z := by
  have hirr : ∀ a, ¬ D.Adj a a := fun a h => by rcases h with h | h <;> exact hac a (.single h)
  have e1 : (D.mag O).MAdj = Walk.madj D.Adj D.Edge (· ∈ O) := by
    funext u v
    refine propext ((mag_adj hac).trans ⟨?_, fun h => ⟨h.2.1, h.2.2.1, h.1, (insep_iff hac h.2.1 h.2.2.1 h.1).mpr h⟩⟩)
    rintro ⟨h1, h2, h3, h4⟩
    exact (insep_iff hac h1 h2 h3).mp h4
  have e2 : (fun u v => (D.mag O).At u v .arrow) = Walk.minto D.Adj D.Edge (· ∈ O) := by
    funext u v
    refine propext (mag_arrow.trans ⟨?_, ?_⟩)
    · rintro ⟨h1, h2, h3, h4, h5⟩
      exact ⟨(insep_iff hac h1 h3 h2).mp h4, by rw [dir_eq hac]; exact h5⟩
    · rintro ⟨h1, h2⟩
      rw [dir_eq hac] at h2
      exact ⟨h1.2.1, h1.1, h1.2.2.1, (insep_iff hac h1.2.1 h1.2.2.1 h1.1).mpr h1, h2⟩
  refine not_congr ?_
  simp only [activePath_iff hac, mActivePath_iff (mag_proper (O := O) hac) (mag_dm hac), e1, e2]
  exact (Walk.act_path_iff_marginal (O := (· ∈ O)) (Z := (· ∈ Z)) (fun a b h => h.symm) hirr (fun a b h => Or.inl h) (fun a b h => h)
    (by rw [dir_eq hac]; exact hac) (fun v hv => hZ hv) ha hb haZ hbZ).symm

theorem mag_perfect [DecidableEq α] (hac : D.Acyclic) {ci : CITest α} (h : Pc.PerfectOn ci D O) : MPerfect ci (D.mag O) := by
  intro k i j l hi hj hij h1 h2 h3
  rw [mag_msep (O := O) hac hi hj (fun v hv => h3 v (by simpa using hv)) (by simpa using h1) (by simpa using h2)]
  exact h k i j l hi hj hij h1 h2 h3

end Dag
end Verif
