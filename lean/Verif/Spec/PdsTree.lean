import Verif.Spec.Pag
import Verif.Model.PdsTree

/-!
# Specification vocabulary for possible-d-sep trees and sets
-/

namespace Verif
variable {α : Type}

namespace PdsTree

/-- A branch of the tree: going from child to child, starting below the root, one meets the nodes of the list. -/
inductive IsBranch : PdsTree α → List α → Prop
  | nil (t : PdsTree α) : IsBranch t []
  | cons {t c : PdsTree α} {l : List α} : c ∈ t.children → IsBranch c l → IsBranch t (c.origin :: l)

/-- The invariant of trees that are built with `add_branch`: depths count from the root, and the children of a node are
distinct. -/
inductive Wf : PdsTree α → Prop
  | mk (a : α) (d : Nat) (cs : List (PdsTree α)) : (∀ c ∈ cs, c.depth = d + 1) → (cs.map origin).Nodup →
      (∀ c ∈ cs, Wf c) → Wf (node a d cs)

end PdsTree

/-- The last edge on the way from `root` along `l` is `a`, `b`. -/
def LastEdge (root : α) (l : List α) (a b : α) : Prop := ∃ pre, root :: l = pre ++ [a, b]

namespace MG

instance [DecidableEq α] (G : MG α) (a b : α) : Decidable (G.MAdj a b) :=
  decidable_of_iff (∃ m ∈ [Mark.tail, .arrow, .circle], G.At a b m ∨ G.At b a m) (by
    constructor
    · rintro ⟨m, -, h | h⟩
      · exact Or.inl ⟨m, h⟩
      · exact Or.inr ⟨m, h⟩
    · rintro (⟨m, h⟩ | ⟨m, h⟩)
      · exact ⟨m, by cases m <;> simp, Or.inl h⟩
      · exact ⟨m, by cases m <;> simp, Or.inr h⟩)

/-- `b` is on a legal sub-path `a *-* b *-* c` of a possible-d-sep path: distinct ends, and `b` is a collider or the three
nodes form a triangle. -/
def PdsTriple (G : MG α) (a b c : α) : Prop :=
  a ≠ c ∧ G.MAdj a b ∧ G.MAdj b c ∧ (G.MAdj a c ∨ G.At a b .arrow ∧ G.At c b .arrow)

instance [DecidableEq α] (G : MG α) (a b c : α) : Decidable (G.PdsTriple a b c) :=
  inferInstanceAs (Decidable (_ ∧ _))

/-- A possible-d-sep walk from `root`, given by the list `l` of its nodes after `root`: adjacent nodes of `en`, `root` is not
visited again, and every three consecutive nodes form a legal sub-path. -/
structure PdsWalk (G : MG α) (en : Finset α) (root : α) (l : List α) : Prop where
  chain : (root :: l).IsChain G.MAdj
  mem : ∀ v ∈ l, v ∈ en
  avoid : root ∉ l
  legal : ∀ a b c, [a, b, c] <:+: root :: l → G.PdsTriple a b c

end MG
end Verif
