import Verif.Model.Dag
import Mathlib.Logic.Relation
import Mathlib.Data.List.Chain
import Mathlib.Data.List.Infix

/-!
# Specification vocabulary for directed and undirected graphs

Nothing here refers to the search procedures of the model; only to the stored edges.
-/

namespace Verif
open Relation

variable {α : Type}

namespace UGraph

/-- Stored graph data is consistent: neighbours are nodes, only nodes have neighbours, edges are symmetric.
Every graph obtained from the constructor by `add_edge`/`remove_edge` satisfies this. -/
structure WF (G : UGraph α) : Prop where
  mem : ∀ a b, b ∈ G.adj a → a ∈ G.nodes ∧ b ∈ G.nodes
  symm : ∀ a b, b ∈ G.adj a → a ∈ G.adj b

/-- There is a path from `s` to `e` all of whose nodes after `s` are outside `forbidden`. -/
def PathAvoiding (G : UGraph α) (forbidden : Finset α) (s e : α) : Prop :=
  ReflTransGen (fun a b => b ∈ G.adj a ∧ b ∉ forbidden) s e

end UGraph

namespace Dag

/-- The edge `a --> b`. -/
def Edge (G : Dag α) (a b : α) : Prop := a ∈ G.par b

/-- There is a directed path of length ≥ 0 from `a` to `b` (`a` is an ancestor of `b`, or `a = b`). -/
def DPath (G : Dag α) (a b : α) : Prop := ReflTransGen G.Edge a b

/-- No node has a directed path of length ≥ 1 to itself. -/
def Acyclic (G : Dag α) : Prop := ∀ v, ¬ TransGen G.Edge v v

/-- Stored graph data is consistent: both ends of an edge are nodes. Every graph obtained from the constructor
by `add_edges` satisfies this (`Dag.Built.wf`). -/
def WF (G : Dag α) : Prop := ∀ a b, a ∈ G.par b → a ∈ G.nodes ∧ b ∈ G.nodes

/-- Adjacent: joined by an edge in some direction. -/
def Adj (G : Dag α) (a b : α) : Prop := G.Edge a b ∨ G.Edge b a

/-- `b` is a collider between `a` and `c`. -/
def Collider (G : Dag α) (a b c : α) : Prop := G.Edge a b ∧ G.Edge c b

/-- A path (list of distinct nodes, consecutive ones adjacent) from `i` to `j` that is *not* blocked by `Z`:
every interior collider has a (reflexive) descendant in `Z`, every interior non-collider is outside `Z`. -/
structure ActivePath (G : Dag α) (Z : Finset α) (i j : α) (l : List α) : Prop where
  nodup : l.Nodup
  first : l.head? = some i
  last : l.getLast? = some j
  chain : l.IsChain G.Adj
  open_collider : ∀ a b c, [a, b, c] <:+: l → G.Collider a b c → ∃ z ∈ Z, G.DPath b z
  open_noncollider : ∀ a b c, [a, b, c] <:+: l → ¬ G.Collider a b c → b ∉ Z

/-- Path-based d-separation (Pearl): every path between `i` and `j` is blocked by `Z`. -/
def DSeparated (G : Dag α) (i j : α) (Z : Finset α) : Prop := ¬ ∃ l, G.ActivePath Z i j l

/-- The edge relation of the sub-graph induced by `S`. -/
def EdgeIn (G : Dag α) (S : Finset α) (a b : α) : Prop := a ∈ S ∧ b ∈ S ∧ G.Edge a b

/-- No directed cycle inside `S`. -/
def AcyclicIn (G : Dag α) (S : Finset α) : Prop := ∀ v, ¬ TransGen (G.EdgeIn S) v v

/-- Correct list of groups for the node set `S`. -/
structure TopoGroups (G : Dag α) (S : Finset α) (gs : List (Finset α)) : Prop where
  nonempty : ∀ g ∈ gs, g.Nonempty
  cover : ∀ x, x ∈ S ↔ ∃ g ∈ gs, x ∈ g
  disjoint : gs.Pairwise Disjoint
  ordered : ∀ (p q : Nat) (gp gq : Finset α) (a b : α), gs[p]? = some gp → gs[q]? = some gq →
    a ∈ gp → b ∈ gq → G.Edge a b → p < q

/-- `a` and `b` are joined by a path (directions ignored) whose nodes after `a` are in `S`. -/
def JoinedIn (G : Dag α) (S : Finset α) (a b : α) : Prop :=
  ReflTransGen (fun x y => y ∈ S ∧ G.Adj x y) a b

end Dag
end Verif
