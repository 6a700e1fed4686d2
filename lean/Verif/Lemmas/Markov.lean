import Verif.Lemmas.Dsep

/-!
# Consequences of path-based d-separation: symmetry, adjacency, local Markov property, unshielded triples
-/

namespace Verif
open Relation
namespace Dag
variable {α : Type} {G : Dag α}

theorem irrefl (hac : G.Acyclic) (a : α) : ¬ G.Edge a a := fun h => hac a (TransGen.single h)

theorem activePath_reverse (hac : G.Acyclic) {Z : Finset α} {i j : α} {l : List α}
    (h : G.ActivePath Z i j l) : G.ActivePath Z j i l.reverse := by
  rw [activePath_iff hac] at h ⊢
  obtain ⟨h1, h2, h3, h4⟩ := h
  exact ⟨List.nodup_reverse.mpr h1, by simpa using h3, by simpa using h2,
    Walk.act_reverse_aux (fun a b h => h.symm) l h4⟩

theorem dseparated_symm (hac : G.Acyclic) {Z : Finset α} {i j : α} :
    G.DSeparated i j Z ↔ G.DSeparated j i Z :=
  ⟨fun h ⟨_, hl⟩ => h ⟨_, activePath_reverse hac hl⟩, fun h ⟨_, hl⟩ => h ⟨_, activePath_reverse hac hl⟩⟩

/-- Adjacent nodes are joined by the (active) path consisting of the edge. -/
theorem not_dseparated_of_adj (hac : G.Acyclic) {Z : Finset α} {i j : α} (h : G.Adj i j) :
    ¬ G.DSeparated i j Z := by
  intro hs
  have hne : i ≠ j := by
    rintro rfl
    rcases h with h | h <;> exact irrefl hac i h
  exact hs ⟨[i, j], (activePath_iff hac).mpr ⟨by simp [hne], rfl, rfl, h⟩⟩

/-- Local Markov property. -/
theorem dseparated_parents (hac : G.Acyclic) {i j : α} (hij : i ≠ j) (hadj : ¬ G.Adj i j)
    (hdesc : ¬ G.DPath i j) : G.DSeparated i j (G.par i) := by
  rintro ⟨l, hl⟩
  obtain ⟨-, h2, h3, h4⟩ := (activePath_iff hac).mp hl
  match l, h2, h3, h4 with
  | [a], h2, h3, _ =>
    simp only [List.head?_cons, Option.some.injEq, List.getLast?_singleton] at h2 h3
    exact hij (h2 ▸ h3)
  | [a, b], h2, h3, h4 =>
    simp only [List.head?_cons, Option.some.injEq, List.getLast?_cons_cons, List.getLast?_singleton] at h2 h3
    subst h2; subst h3
    exact hadj h4
  | a :: q :: c :: t, h2, h3, h4 =>
    simp only [List.head?_cons, Option.some.injEq] at h2
    subst h2
    rcases h4.1 with haq | hqa
    · rcases Walk.follow (fun x y h => h) (c :: t) a q h4 (by rw [dir_eq hac]; exact haq) with h | ⟨h, _⟩
      · obtain ⟨z, hz, hp⟩ := h
        rw [dir_eq hac] at hp
        exact hac z (TransGen.head' hz hp)
      · rw [dir_eq hac] at h
        rw [List.getLast?_cons_cons, List.getLast?_eq_some_getLast (by simp)] at h3
        simp only [Option.some.injEq] at h3
        rw [h3] at h
        exact hdesc h
    · exact h4.2.1.2 (fun hcol => not_edge_of_edge hac hqa hcol.1) hqa

/-- The middle node of an unshielded collider is in no separating set. -/
theorem not_mem_sepset_of_collider (hac : G.Acyclic) {Z : Finset α} {a b c : α} (hne : a ≠ c)
    (h1 : G.Edge a b) (h2 : G.Edge c b) (hs : G.DSeparated a c Z) : b ∉ Z := by
  intro hb
  have hab : a ≠ b := by rintro rfl; exact irrefl hac _ h1
  have hcb : b ≠ c := by rintro rfl; exact irrefl hac _ h2
  refine hs ⟨[a, b, c], (activePath_iff hac).mpr ⟨by simp [hne, hab, hcb], rfl, rfl, Or.inl h1, ⟨?_, ?_⟩, Or.inr h2⟩⟩
  · intro _; exact ⟨b, hb, ReflTransGen.refl⟩
  · intro hn; exact absurd ⟨h1, h2⟩ hn

/-- The middle node of an unshielded non-collider is in every separating set. -/
theorem mem_sepset_of_noncollider (hac : G.Acyclic) {Z : Finset α} {a b c : α} (hne : a ≠ c)
    (h1 : G.Adj a b) (h2 : G.Adj b c) (hn : ¬ (G.Edge a b ∧ G.Edge c b)) (hs : G.DSeparated a c Z) : b ∈ Z := by
  by_contra hb
  have hab : a ≠ b := by rintro rfl; rcases h1 with h | h <;> exact irrefl hac _ h
  have hcb : b ≠ c := by rintro rfl; rcases h2 with h | h <;> exact irrefl hac _ h
  exact hs ⟨[a, b, c], (activePath_iff hac).mpr ⟨by simp [hne, hab, hcb], rfl, rfl, h1,
    ⟨fun hc => absurd hc hn, fun _ => hb⟩, h2⟩⟩

end Dag
end Verif
