import Verif.Model.Layout

/-!
# Specification of node positions
-/

namespace Verif
namespace Draw

/-- A point inside of the window. -/
def Win.Has (w : Win) (p : Vec) : Prop := w.left ≤ p.1 ∧ p.1 ≤ w.right ∧ w.top ≤ p.2 ∧ p.2 ≤ w.bottom

/-- A window with an area. -/
def Win.Open (w : Win) : Prop := w.left < w.right ∧ w.top < w.bottom

/-- The groups, if given, list every node of the graph exactly once. -/
def Lists {α : Type} (groups : Option (List (List α))) (N : Finset α) : Prop :=
  ∀ gs, groups = some gs → gs.flatten.Nodup ∧ ∀ v, v ∈ gs.flatten ↔ v ∈ N

/-- Every node has a position in the window. -/
def Inside {α : Type} (N : Finset α) (w : Win) (pos : α → Option Vec) : Prop := ∀ v ∈ N, ∃ p, pos v = some p ∧ w.Has p

/-- Different nodes are at different positions. -/
def Apart {α : Type} (N : Finset α) (pos : α → Option Vec) : Prop := ∀ u ∈ N, ∀ v ∈ N, pos u = pos v → u = v

/-- The squared distance of two points. -/
def sqDist (p q : Vec) : ℝ := (p.1 - q.1) ^ 2 + (p.2 - q.2) ^ 2

end Draw
end Verif
