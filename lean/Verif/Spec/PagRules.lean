import Verif.Spec.Pag
import Verif.Model.Py

/-!
# Specification vocabulary for the orientation rules of PAGs

The rules R1–R10 as patterns (Zhang 2008, as documented in the comments of the code), and the ancestral graphs a PAG
stands for.
-/

namespace Verif
open Relation
variable {α : Type}

namespace MG

/-- The edge `a o-o b`. -/
def CircCirc (G : MG α) (a b : α) : Prop := G.At a b .circle ∧ G.At b a .circle

/-- `H` is `G` with the marks `F` written: `F u v m` means that the mark at `v` on the edge between `u` and `v` becomes
`m`. -/
structure Upd (G H : MG α) (F : α → α → Mark → Prop) : Prop where
  nodes : H.nodes = G.nodes
  types : H.types = G.types
  marks : ∀ u v m, H.At u v m ↔ F u v m ∨ (∀ m', ¬ F u v m') ∧ G.At u v m

/-- The path found by the search of rule 10: the single node `e = b`, or an uncovered path whose interior starts with
`e` and ends with `b`. -/
def Rule10Path (G : MG α) (R : α → α → Prop) (a c e b : α) (p : List α) : Prop :=
  (e = b ∧ p = [e]) ∨ (e ≠ b ∧ G.UncovPath R G.nodes a c e b p)

/-- A place where rule `idx` can write a mark in place of a circle. For rule 10, as coded: the two paths need not be
possibly directed, and they are uncovered including `c`. -/
def PagPattern (G : MG α) : Nat → Prop
  | 1 => ∃ a b c, G.At a b .arrow ∧ G.At c b .circle ∧ ¬ G.MAdj a c
  | 2 => ∃ a b c, G.At a b .arrow ∧ G.At b c .arrow ∧ (G.At c b .tail ∨ G.At b a .tail) ∧ G.At a c .circle
  | 3 => ∃ a b c d, a ≠ c ∧ G.At a b .arrow ∧ G.At c b .arrow ∧ ¬ G.MAdj a c ∧ G.At a d .circle ∧ G.At c d .circle ∧
      G.At d b .circle
  | 4 => ∃ a b c d l, G.At c b .circle ∧ G.Par a c ∧ G.At b a .arrow ∧ G.DiscPath a b c d l
  | 5 => ∃ a b na nb p, G.CircCirc a b ∧ G.CircCirc a na ∧ G.CircCirc b nb ∧ ¬ G.MAdj b na ∧ ¬ G.MAdj a nb ∧
      G.UncovPath G.CircCirc G.nodes a b na nb p
  | 6 => ∃ a b c, G.At a b .tail ∧ G.At b a .tail ∧ G.At c b .circle
  | 7 => ∃ a b c, a ≠ c ∧ G.At b a .tail ∧ G.At a b .circle ∧ G.At c b .circle ∧ ¬ G.MAdj a c
  | 8 => ∃ a b c, G.At b a .tail ∧ (G.At a b .arrow ∨ G.At a b .circle) ∧ G.Par b c ∧ G.At c a .circle ∧ G.At a c .arrow
  | 9 => ∃ a b c d p, G.At c a .circle ∧ G.At a c .arrow ∧ G.PossPar a b ∧ ¬ G.MAdj b c ∧ G.PossPar d c ∧
      G.UncovPath G.PossPar G.nodes a c b d p
  | 10 => ∃ a b c d e f p q, G.At c a .circle ∧ G.At a c .arrow ∧ G.Par b c ∧ G.Par d c ∧ b ≠ d ∧ G.PossPar a e ∧
      G.PossPar a f ∧ e ≠ c ∧ f ≠ c ∧ e ≠ f ∧ ¬ G.MAdj e f ∧ G.Rule10Path G.MAdj a c e b p ∧ G.Rule10Path G.MAdj a c f d q
  | _ => False

/-- An ancestral graph (Richardson and Spirtes): tails and arrowheads only; no arrowhead at `b` from `a` when there is
a directed path from `b` to `a` (no directed and no almost directed cycles); no arrowhead at an end point of an
undirected edge. -/
structure Ancestral (M : MG α) : Prop where
  proper : M.Proper
  nocircle : ∀ a b, ¬ M.At a b .circle
  acyclic : ∀ a b, M.At a b .arrow → ¬ TransGen M.Par b a
  undirected : ∀ a b c, M.At a b .tail → M.At b a .tail → ¬ M.At c a .arrow

/-- The partially oriented graph `P` is compatible with `M`: same adjacencies, every tail and every arrowhead of `P` is in
`M`, and the arrowheads of every unshielded collider of `M` are in `P`. -/
structure Compatible (P M : MG α) : Prop where
  adj : ∀ a b, P.MAdj a b ↔ M.MAdj a b
  arrow : ∀ a b, P.At a b .arrow → M.At a b .arrow
  tail : ∀ a b, P.At a b .tail → M.At a b .tail
  colliders : ∀ a b c, a ≠ c → M.At a b .arrow → M.At c b .arrow → ¬ M.MAdj a c → P.At a b .arrow ∧ P.At c b .arrow

/-- The arrowheads of `P` are in `M`, and the arrowheads of every unshielded collider of `M` are in `P`. -/
structure ArrowsOk (P M : MG α) : Prop where
  arrow : ∀ a b, P.At a b .arrow → M.At a b .arrow
  colliders : ∀ a b c, a ≠ c → M.At a b .arrow → M.At c b .arrow → ¬ M.MAdj a c → P.At a b .arrow ∧ P.At c b .arrow

theorem Compatible.arrowsOk {P M : MG α} (h : Compatible P M) : ArrowsOk P M := ⟨h.arrow, h.colliders⟩

/-- The result of an orientation: same nodes, types and adjacencies, well formed, and no new circle. -/
structure Oriented (H G : MG α) : Prop where
  proper : H.Proper
  nodes : H.nodes = G.nodes
  types : H.types = G.types
  adj : ∀ a b, H.MAdj a b ↔ G.MAdj a b
  circle : ∀ a b, H.At a b .circle → G.At a b .circle

/-- The separating sets separate in `M`: what rule 4 relies on. -/
def SepIn (sep : α → α → Py (Finset α)) (M : MG α) : Prop :=
  ∀ i ∈ M.nodes, ∀ j ∈ M.nodes, i ≠ j → ¬ M.MAdj i j → ∀ S, sep i j = .ok S → M.MSep i j S

/-- An uncovered possibly directed path from `a` to `b` whose nodes after `a` are the list `p`, which starts with `e`. -/
structure PdPath (G : MG α) (a e b : α) (p : List α) : Prop where
  nodup : (a :: p).Nodup
  first : p.head? = some e
  last : p.getLast? = some b
  chain : (a :: p).IsChain G.PossPar
  uncovered : ∀ u v w, [u, v, w] <:+: a :: p → ¬ G.MAdj u w

/-- The condition of rule 10 as documented (`partial_ancestral_graph.py:1052-1061`): parents `b`, `d` of `c`, uncovered
possibly directed paths from `a` to `b` and from `a` to `d`, whose first nodes after `a` are distinct and not adjacent. -/
def Rule10Documented (G : MG α) (a c : α) : Prop :=
  ∃ b d e f p q, G.Par b c ∧ G.Par d c ∧ e ≠ f ∧ ¬ G.MAdj e f ∧ G.PdPath a e b p ∧ G.PdPath a f d q

/-- The condition tested by the code of rule 10 for `a o-> c` (`partial_ancestral_graph.py:1062-1092`): the paths need not
be possibly directed, and they are uncovered including `c`. -/
def Rule10Coded (G : MG α) (a c : α) : Prop :=
  ∃ b d e f p q, G.Par b c ∧ G.Par d c ∧ b ≠ d ∧ G.PossPar a e ∧ G.PossPar a f ∧ e ≠ c ∧ f ≠ c ∧ e ≠ f ∧
    ¬ G.MAdj e f ∧ G.Rule10Path G.MAdj a c e b p ∧ G.Rule10Path G.MAdj a c f d q

end MG
end Verif
