import Verif.Lemmas.Markov
import Verif.Lemmas.Dsep

/-!
# d-separation by at most one node
-/

namespace Verif
open Relation
variable {α : Type}
namespace Dag
variable {G : Dag α}

theorem ActivePath.prefix {Z : Finset α} {i j z : α} {p s : List α} (h : G.ActivePath Z i j (p ++ z :: s)) :
    G.ActivePath Z i z (p ++ [z]) := by
  have e : p ++ z :: s = (p ++ [z]) ++ s := by simp
  refine ⟨?_, ?_, by simp, ?_, ?_, ?_⟩
  · have := h.nodup
    rw [e] at this
    exact (List.nodup_append.mp this).1
  · have := h.first
    cases p <;> simpa using this
  · have := h.chain
    rw [e] at this
    exact (List.isChain_append.mp this).1
  · intro a b c hh
    exact h.open_collider a b c (hh.trans ⟨[], s, by simp⟩)
  · intro a b c hh
    exact h.open_noncollider a b c (hh.trans ⟨[], s, by simp⟩)

theorem infix_mid {a b c : α} {l : List α} (h : [a, b, c] <:+: l) : b ∈ l := h.subset (by simp)

variable [DecidableEq α]

/-- Contraction. -/
theorem DSeparated.contract {x y z : α} {S : Finset α} (h1 : G.DSeparated x y (insert z S)) (h2 : G.DSeparated x z S) :
    G.DSeparated x y S := by
  rintro ⟨l, hl⟩
  by_cases hz : z ∈ l
  · obtain ⟨p, s, rfl⟩ := List.append_of_mem hz
    exact h2 ⟨_, hl.prefix⟩
  · refine h1 ⟨l, hl.nodup, hl.first, hl.last, hl.chain, ?_, ?_⟩
    · intro a b c hh hc
      obtain ⟨w, hw, hp⟩ := hl.open_collider a b c hh hc
      exact ⟨w, Finset.mem_insert_of_mem hw, hp⟩
    · intro a b c hh hc hb
      rcases Finset.mem_insert.mp hb with rfl | hb
      · exact hz (infix_mid hh)
      · exact hl.open_noncollider a b c hh hc hb

/-- If a node blocks an open path, it is on it, and the path to the node is shorter. -/
theorem blocked_prefix {x y z : α} {S : Finset α} (h1 : G.DSeparated x y (insert z S)) {l : List α} (hl : G.ActivePath S x y l) :
    ∃ p s, l = p ++ z :: s ∧ s ≠ [] ∧ G.ActivePath S x z (p ++ [z]) := by
  have : ∃ a c, [a, z, c] <:+: l := by
    by_contra hn
    push Not at hn
    refine h1 ⟨l, hl.nodup, hl.first, hl.last, hl.chain, ?_, ?_⟩
    · intro a b c hh hc
      obtain ⟨w, hw, hp⟩ := hl.open_collider a b c hh hc
      exact ⟨w, Finset.mem_insert_of_mem hw, hp⟩
    · intro a b c hh hc hb
      rcases Finset.mem_insert.mp hb with rfl | hb
      · exact hn a c hh
      · exact hl.open_noncollider a b c hh hc hb
  obtain ⟨a, c, p, s, rfl⟩ := this
  have e : p ++ [a, z, c] ++ s = (p ++ [a]) ++ z :: (c :: s) := by simp
  rw [e] at hl
  exact ⟨p ++ [a], c :: s, e, by simp, hl.prefix⟩

/-- Two nodes that each separate the other from a third node are both separated from it. -/
theorem DSeparated.both {x y z : α} {S : Finset α} (h1 : G.DSeparated x z (insert y S)) (h2 : G.DSeparated x y (insert z S)) :
    G.DSeparated x z S := by
  have key : ∀ n, ∀ l : List α, l.length ≤ n → ¬ G.ActivePath S x z l := by
    intro n
    induction n using Nat.strong_induction_on with
    | _ n ih =>
      intro l hn hl
      obtain ⟨p, s, e1, e2, hl'⟩ := blocked_prefix h1 hl
      obtain ⟨p', s', e1', e2', hl''⟩ := blocked_prefix h2 hl'
      have a1 : l.length = p.length + (s.length + 1) := by rw [e1]; simp
      have a2 : p.length + 1 = p'.length + (s'.length + 1) := by
        have := congrArg List.length e1'
        simpa using this
      have a3 : 0 < s'.length := List.length_pos_iff.mpr e2'
      refine ih (p'.length + 1) (by omega) _ (by simp) hl''
  rintro ⟨l, hl⟩
  exact key _ l le_rfl hl

/-- A node that separates two nodes that are not separated without it is an ancestor. -/
theorem anc_of_needed (hac : G.Acyclic) {x y z : α} (h1 : G.DSeparated x y {z}) (h2 : ¬ G.DSeparated x y ∅) :
    G.DPath z x ∨ G.DPath z y := by
  obtain ⟨l, hl⟩ := not_not.mp h2
  obtain ⟨p, s, rfl, -, -⟩ := blocked_prefix (S := ∅) (by simpa using h1) hl
  obtain ⟨-, a1, a2, a3⟩ := (activePath_iff hac).mp hl
  obtain ⟨w, hw, hp⟩ := Walk.act_inA (fun a b h => h.symm) (fun a b h => h) a1 a2 a3 z (by simp)
  rw [dir_eq hac] at hp
  rcases hw with rfl | rfl | hw
  · exact Or.inl hp
  · exact Or.inr hp
  · simp at hw

/-- Conditioning on more ancestors keeps the separation. -/
theorem DSeparated.mono_anc (hac : G.Acyclic) {x y : α} {S T : Finset α} (hST : S ⊆ T) (hT : ∀ v ∈ T, G.DPath v x ∨ G.DPath v y)
    (hx : x ∉ T) (hy : y ∉ T) (h : G.DSeparated x y S) : G.DSeparated x y T := by
  intro h'
  refine h ((activePath_iff_aug hac (fun h => hx (hST h)) (fun h => hy (hST h))).mpr ?_)
  have h'' := (activePath_iff_aug hac hx hy).mp h'
  have hA : ∀ v, Walk.InA G.Edge (· ∈ T) x y v → Walk.InA G.Edge (· ∈ S) x y v := by
    rintro v ⟨w, hw, hp⟩
    rcases hw with hw | hw | hw
    · exact ⟨w, Or.inl hw, hp⟩
    · exact ⟨w, Or.inr (Or.inl hw), hp⟩
    · rw [dir_eq hac] at hp
      rcases hT w hw with h | h
      · exact ⟨x, Or.inl rfl, by rw [dir_eq hac]; exact hp.trans h⟩
      · exact ⟨y, Or.inr (Or.inl rfl), by rw [dir_eq hac]; exact hp.trans h⟩
  refine ReflTransGen.mono ?_ _ _ h''
  rintro a b ⟨h1, h2, h3⟩
  refine ⟨?_, hA b h2, fun h => h3 (hST h)⟩
  rcases h1 with h1 | ⟨c, h1, h4⟩
  · exact Or.inl h1
  · rw [cw_iff hac] at h1
    exact Or.inr ⟨c, (cw_iff hac).mpr ⟨h1.1, hA c h1.2⟩, h4⟩

/-- A separating node can be replaced with one that separates it from the first node. -/
theorem DSeparated.closer (hac : G.Acyclic) {x y z w : α} (h1 : G.DSeparated x y {z}) (h2 : ¬ G.DSeparated x y ∅)
    (h3 : G.DSeparated x z {w}) (hxw : x ≠ w) (hyw : y ≠ w) (hxz : x ≠ z) (hyz : y ≠ z) : G.DSeparated x y {w} := by
  have hxz' : ¬ G.DSeparated x z ∅ := fun h => h2 (DSeparated.contract (by simpa using h1) h)
  have az := anc_of_needed hac h1 h2
  have aw : G.DPath w x ∨ G.DPath w y := by
    rcases anc_of_needed hac h3 hxz' with h | h
    · exact Or.inl h
    · exact az.imp h.trans h.trans
  refine DSeparated.contract (z := z) (DSeparated.mono_anc hac (S := {z}) (T := {z, w}) (by simp) ?_ ?_ ?_ h1) h3
  · intro v hv
    rw [Finset.mem_insert, Finset.mem_singleton] at hv
    rcases hv with rfl | rfl
    · exact az
    · exact aw
  · simp [hxz, hxw]
  · simp [hyz, hyw]

/-- If `x` and `y` are separated by one node but not without it, then one of the separating nodes is not itself separated from `x` by
a third node. -/
theorem DSeparated.closest (hac : G.Acyclic) {O : Finset α} {x y : α} (h2 : ¬ G.DSeparated x y ∅)
    (h1 : ∃ z ∈ O, x ≠ z ∧ y ≠ z ∧ G.DSeparated x y {z}) :
    ∃ z ∈ O, x ≠ z ∧ y ≠ z ∧ G.DSeparated x y {z} ∧ ¬ G.DSeparated x z ∅ ∧ ∀ w ∈ O, x ≠ w → z ≠ w → ¬ G.DSeparated x z {w} := by
  have dep : ∀ z, G.DSeparated x y {z} → ¬ G.DSeparated x z ∅ :=
    fun z h1 h => h2 (DSeparated.contract (by simpa using h1) h)
  have key : ∀ n, ∀ z ∈ O, x ≠ z → y ≠ z → G.DSeparated x y {z} → ∀ l : List α, G.ActivePath ∅ x z l → l.length ≤ n →
      ∃ z ∈ O, x ≠ z ∧ y ≠ z ∧ G.DSeparated x y {z} ∧ ¬ G.DSeparated x z ∅ ∧
        ∀ w ∈ O, x ≠ w → z ≠ w → ¬ G.DSeparated x z {w} := by
    intro n
    induction n using Nat.strong_induction_on with
    | _ n ih =>
      intro z hz hxz hyz h1 l hl hn
      by_cases hw : ∃ w ∈ O, x ≠ w ∧ z ≠ w ∧ G.DSeparated x z {w}
      · obtain ⟨w, hwO, hxw, hzw, h3⟩ := hw
        have hyw : y ≠ w := by
          rintro rfl
          exact dep z h1 (DSeparated.both (by simpa using h3) (by simpa using h1))
        obtain ⟨p, s, rfl, hs, hl'⟩ := blocked_prefix (S := ∅) (by simpa using h3) hl
        have := List.length_pos_iff.mpr hs
        simp only [List.length_append, List.length_cons] at hn
        exact ih (p.length + 1) (by omega) w hwO hxw hyw (h1.closer hac h2 h3 hxw hyw hxz hyz) _ hl' (by simp)
      · push Not at hw
        exact ⟨z, hz, hxz, hyz, h1, dep z h1, hw⟩
  obtain ⟨z, hz, a, b, c⟩ := h1
  obtain ⟨l, hl⟩ := not_not.mp (dep z c)
  exact key _ z hz a b c l hl le_rfl

end Dag
end Verif
