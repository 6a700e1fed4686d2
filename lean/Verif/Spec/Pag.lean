import Verif.Spec.Mixed

/-!
# Specification vocabulary for partial ancestral graphs
-/

namespace Verif
open Relation
variable {α : Type}

namespace MG

/-- The edge `a --> b`. -/
def Par (G : MG α) (a b : α) : Prop := G.At a b .arrow ∧ G.At b a .tail

/-- The edge `a <-> b`. -/
def Bidir (G : MG α) (a b : α) : Prop := G.At a b .arrow ∧ G.At b a .arrow

/-- `a` is a possible parent of `b`: adjacent, no tail at `b`, no arrowhead at `a`. -/
def PossPar (G : MG α) (a b : α) : Prop := G.MAdj a b ∧ ¬ G.At a b .tail ∧ ¬ G.At b a .arrow

/-- A path `x = v0, ..., vk = y` with `k ≥ 1`, distinct nodes, nodes after `x` in `allowed`, and consecutive nodes
related by `R`. `l` is the list of all nodes. -/
structure PathVia (R : α → α → Prop) (allowed : Finset α) (x y : α) (l : List α) : Prop where
  nodup : l.Nodup
  first : l.head? = some x
  last : l.getLast? = some y
  long : 2 ≤ l.length
  chain : l.IsChain R
  allowed : ∀ v ∈ l.tail, v ∈ allowed

/-- A discriminating path `<d, ..., a, b, c>` for `b`, given by the list `l` of the nodes from `a` to `d`: distinct nodes
other than `b` and `c`; an arrowhead at every node before `d`, from both sides except at `a` (where only the side away
from `b` is concerned); every node strictly between `a` and `d` is a parent of `c`; `d` is not adjacent to `c`. -/
structure DiscPath (G : MG α) (a b c d : α) (l : List α) : Prop where
  nodup : l.Nodup
  first : l.head? = some a
  last : l.getLast? = some d
  long : 2 ≤ l.length
  notB : b ∉ l
  notC : c ∉ l
  heads : ∀ u v, [u, v] <:+: l → G.At v u .arrow
  colliders : ∀ u v w, [u, v, w] <:+: l → G.At u v .arrow ∧ G.Par v c
  far : ¬ G.MAdj d c

/-- An uncovered path from `x` to `y` whose list of interior nodes `p` starts with `nx` and ends with `ny`: all nodes
distinct, interior nodes other than `nx`, `ny` in `en`, consecutive interior nodes in the relation `C`, and nodes two
apart (end points included) not adjacent. -/
structure UncovPath (G : MG α) (C : α → α → Prop) (en : Finset α) (x y nx ny : α) (p : List α) : Prop where
  nodup : (x :: (p ++ [y])).Nodup
  first : p.head? = some nx
  last : p.getLast? = some ny
  allowed : ∀ v ∈ p, v = nx ∨ v = ny ∨ v ∈ en
  chain : p.IsChain C
  uncovered : ∀ u v w, [u, v, w] <:+: x :: (p ++ [y]) → ¬ G.MAdj u w

/-- `b` is a collider between `a` and `c`. -/
def MCollider (G : MG α) (a b c : α) : Prop := G.At a b .arrow ∧ G.At c b .arrow

/-- A path from `i` to `j` that is not blocked by `Z`: every interior collider is an ancestor of (or in) `Z`, every
interior non-collider is outside `Z`. -/
structure MActivePath (G : MG α) (Z : Finset α) (i j : α) (l : List α) : Prop where
  nodup : l.Nodup
  first : l.head? = some i
  last : l.getLast? = some j
  chain : l.IsChain G.MAdj
  open_collider : ∀ a b c, [a, b, c] <:+: l → G.MCollider a b c → ∃ z ∈ Z, ReflTransGen G.Par b z
  open_noncollider : ∀ a b c, [a, b, c] <:+: l → ¬ G.MCollider a b c → b ∉ Z

/-- m-separation (Richardson and Spirtes): every path between `i` and `j` is blocked by `Z`. -/
def MSep (G : MG α) (i j : α) (Z : Finset α) : Prop := ¬ ∃ l, G.MActivePath Z i j l

/-- All edges are `-->` or `<->`. -/
def DirectedMixed (G : MG α) : Prop := ∀ a b, G.MAdj a b →
  (G.At a b .arrow ∨ G.At a b .tail) ∧ (G.At a b .arrow ∨ G.At b a .arrow)

end MG
end Verif
