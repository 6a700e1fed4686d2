import Verif.Lemmas.PdagReach
import Verif.Props.Pdag

/-!
# Property C73: undirected reachability in a PDAG
-/

namespace Verif
open Relation
variable {α : Type} [DecidableEq α]

/-- C73. `PDAG.is_reachable_undirected` terminates and answers whether there is a walk of undirected edges, at least one, from the
source to the target, with all nodes strictly between them among the allowed ones (all nodes, if not given); for every order of
iteration. -/
theorem C73_reachable (o : SetOrder α) (G : MG α) (s t : α) (en : Option (Finset α)) :
    ∃ b, G.isReachableUnd o s t en = .ok b ∧ (b = true ↔ G.UndVia (en.getD G.nodes) s {t}) :=
  MG.isReachableUndFuel_spec o G t _ s _ (Nat.lt_succ_self _)

/-- C73. `PDAG.is_reachable_any_undirected` is the disjunction over the target set. -/
theorem C73_any (o o' : SetOrder α) (G : MG α) (s : α) (T : Finset α) (en : Option (Finset α)) :
    ∃ b, G.isReachableAnyUnd o s T en = .ok b ∧ (b = true ↔ G.UndVia (en.getD G.nodes) s T) ∧
      (b = true ↔ ∃ t ∈ T, G.isReachableUnd o' s t en = .ok true) := by
  obtain ⟨b, h1, h2⟩ := MG.isReachableAnyUndFuel_spec o G T ((en.getD G.nodes).card + 1) s (en.getD G.nodes) (Nat.lt_succ_self _)
  refine ⟨b, h1, h2, h2.trans ⟨?_, ?_⟩⟩
  · rintro ⟨c, t, ht, h3, h4⟩
    obtain ⟨b', k1, k2⟩ := C73_reachable o' G s t en
    rw [k2.mpr ⟨c, t, by simp, h3, h4⟩] at k1
    exact ⟨t, ht, k1⟩
  · rintro ⟨t, ht, h⟩
    obtain ⟨b', k1, k2⟩ := C73_reachable o' G s t en
    rw [h] at k1
    cases k1
    obtain ⟨c, t', ht', h3, h4⟩ := k2.mp rfl
    obtain rfl := Finset.mem_singleton.mp ht'
    exact ⟨c, t', ht, h3, h4⟩

/-- C73. In a well-formed PDAG the answer is symmetric. -/
theorem C73_symm (o o' : SetOrder α) {G : MG α} (hG : G.PdagWF) (s t : α) (en : Option (Finset α)) :
    G.isReachableUnd o s t en = G.isReachableUnd o' t s en := by
  have key : ∀ {s t : α} {e : Finset α}, G.UndVia e s {t} → G.UndVia e t {s} := by
    rintro s t e ⟨b, t', ht, h1, h2⟩
    obtain rfl := Finset.mem_singleton.mp ht
    clear ht
    induction h1 using ReflTransGen.head_induction_on with
    | refl => exact ⟨t', b, by simp, .refl, hG.symm _ _ h2⟩
    | @head x y hxy _ ih =>
      obtain ⟨d, y', hy', k1, k2⟩ := ih
      obtain rfl := Finset.mem_singleton.mp hy'
      exact ⟨y', x, by simp, k1.tail ⟨k2, hxy.2⟩, hG.symm _ _ hxy.1⟩
  obtain ⟨b, h1, h2⟩ := C73_reachable o G s t en
  obtain ⟨b', k1, k2⟩ := C73_reachable o' G t s en
  rw [h1, k1]
  have : b = true ↔ b' = true := h2.trans (Iff.trans ⟨key, key⟩ k2.symm)
  rw [Bool.eq_iff_iff.mpr this]

/-- C73. A node is "reachable" from itself if and only if one of its undirected neighbours is allowed. -/
theorem C73_self (o : SetOrder α) {G : MG α} (hG : G.PdagWF) (s : α) (en : Option (Finset α)) :
    G.isReachableUnd o s s en = .ok true ↔ ∃ v ∈ en.getD G.nodes, G.Und v s := by
  obtain ⟨b, h1, h2⟩ := C73_reachable o G s s en
  rw [h1]
  constructor
  · intro h
    cases h
    obtain ⟨c, t, ht, k1, k2⟩ := h2.mp rfl
    obtain rfl := Finset.mem_singleton.mp ht
    rcases ReflTransGen.cases_head k1 with rfl | ⟨n, hn, -⟩
    · exact absurd k2 (hG.irrefl _ _)
    · exact ⟨n, hn.2, hn.1⟩
  · rintro ⟨v, hv, h⟩
    rw [h2.mpr ⟨v, s, by simp, .single ⟨h, hv⟩, hG.symm _ _ h⟩]

/-- `0 --- 1 --- 2 --> 3 --- 4`: 2 is reachable from 0, unless 1 is forbidden; 4 is not, nor is the node 3. -/
example : let G := MG.ofEdges {0, 1, 2, 3, 4} [(2, 3)] [(0, 1), (1, 2), (3, 4)]
    G.isReachableUnd ascending 0 2 none = .ok true ∧ G.isReachableUnd descending 2 0 none = .ok true ∧
      G.isReachableUnd ascending 0 2 (some {0, 2, 3, 4}) = .ok false ∧ G.isReachableUnd ascending 0 4 none = .ok false ∧
      G.isReachableAnyUnd ascending 0 {3, 4} none = .ok false ∧ G.isReachableAnyUnd ascending 0 {2, 4} none = .ok true ∧
      G.isReachableUnd ascending 0 0 none = .ok true ∧ G.isReachableUnd ascending 0 0 (some {2}) = .ok false := by
  decide +kernel

example : (MG.ofEdges {0, 1, 2, 3, 4} [(2, 3)] [(0, 1), (1, 2), (3, 4)]).PdagWF := MG.ofEdges_wf (by decide)

end Verif
