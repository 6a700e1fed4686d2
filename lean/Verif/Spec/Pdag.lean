import Verif.Spec.Graph
import Verif.Model.Pdag

/-!
# Specification vocabulary for PDAGs, Markov equivalence and DAG extensions
-/

namespace Verif
variable {α : Type}

namespace Dag

/-- `a --> b <-- c` with `a` and `c` distinct and not adjacent (unshielded collider, v-structure). -/
def UCol (G : Dag α) (a b c : α) : Prop := G.Edge a b ∧ G.Edge c b ∧ a ≠ c ∧ ¬ G.Adj a c

/-- `H` is a DAG over the same nodes with the same adjacencies and the same unshielded colliders as `G`
(Verma–Pearl: Markov equivalent). -/
structure Equivalent (G H : Dag α) : Prop where
  nodes : H.nodes = G.nodes
  wf : H.WF
  acyclic : H.Acyclic
  adj : ∀ a b, H.Adj a b ↔ G.Adj a b
  ucol : ∀ a b c, H.UCol a b c ↔ G.UCol a b c

end Dag

namespace MG

/-- A well-formed PDAG object: two mark types; both ends of an edge are nodes; no self-edges; undirected edges are
stored at both ends; no edge is both directed and undirected. Bi-directed edges (conflicting orientations) are
allowed. -/
structure PdagWF (G : MG α) : Prop where
  types : ∀ m, m ∈ G.types ↔ m = .tail ∨ m = .arrow
  mem : ∀ a b m, a ∈ G.g b m → a ∈ G.nodes ∧ b ∈ G.nodes
  irrefl : ∀ a m, a ∉ G.g a m
  symm : ∀ a b, a ∈ G.g b .tail → b ∈ G.g a .tail
  excl : ∀ a b, a ∈ G.g b .arrow → a ∉ G.g b .tail

/-- There is an arrowhead at `b` on the edge with `a` (`a --> b`, if the edge is not bi-directed). -/
def Arrow (G : MG α) (a b : α) : Prop := a ∈ G.g b .arrow

/-- The undirected edge `a --- b` (as stored at `b`). -/
def Und (G : MG α) (a b : α) : Prop := a ∈ G.g b .tail

/-- Adjacent in a PDAG. -/
def PAdj (G : MG α) (a b : α) : Prop := G.Arrow a b ∨ G.Arrow b a ∨ G.Und a b ∨ G.Und b a

instance [DecidableEq α] (G : MG α) (a b : α) : Decidable (G.Arrow a b) := inferInstanceAs (Decidable (_ ∈ _))
instance [DecidableEq α] (G : MG α) (a b : α) : Decidable (G.Und a b) := inferInstanceAs (Decidable (_ ∈ _))
instance [DecidableEq α] (G : MG α) (a b : α) : Decidable (G.PAdj a b) := inferInstanceAs (Decidable (_ ∨ _))

/-- Unshielded collider `a --> b <-- c` in a PDAG. -/
def PUCol (G : MG α) (a b c : α) : Prop := G.Arrow a b ∧ G.Arrow c b ∧ a ≠ c ∧ ¬ G.PAdj a c

/-- A walk of undirected edges (at least one) from `s` to a node of `T`; all nodes strictly between are in `en`. -/
def UndVia (G : MG α) (en : Finset α) (s : α) (T : Finset α) : Prop :=
  ∃ b, ∃ t ∈ T, Relation.ReflTransGen (fun u v => v ∈ G.g u .tail ∧ v ∈ en) s b ∧ t ∈ G.g b .tail

/-- The situations in which the documentation (`partially_dag.py:264-348`) says that `x --- y` becomes `x --> y`:
rule 1: `z --> x --- y`, `z` and `y` not adjacent; rule 2: `x --> z --> y`, `x --- y`; rule 3: `x --- y`,
`x --- w --> y`, `x --- z --> y`, `w` and `z` not adjacent; rule 4 (as coded, without the documented condition that
`w` and `y` are not adjacent): `x --- y`, `x --- w --> z --> y`, `x` and `z` adjacent. -/
def RulePattern (G : MG α) (idx : Nat) (x y : α) : Prop :=
  G.Und x y ∧
  match idx with
  | 1 => ∃ z, G.Arrow z x ∧ ¬ G.PAdj z y
  | 2 => ∃ z, G.Arrow x z ∧ G.Arrow z y
  | 3 => ∃ w z, w ≠ z ∧ G.Und w x ∧ G.Und z x ∧ G.Arrow w y ∧ G.Arrow z y ∧ ¬ G.PAdj w z
  | 4 => ∃ w z, G.Und w x ∧ G.Arrow w z ∧ G.Arrow z y ∧ G.PAdj x z
  | _ => False

/-- `G'` is obtained from `G` by directing undirected edges: same nodes and adjacencies, all arrowheads of `G` are kept,
undirected edges of `G'` are undirected in `G`, and a new arrowhead is on an undirected edge of `G`, at one end only. -/
structure Refines (G G' : MG α) : Prop where
  nodes : G'.nodes = G.nodes
  adj : ∀ a b, G'.PAdj a b ↔ G.PAdj a b
  arrow : ∀ a b, G.Arrow a b → G'.Arrow a b
  und : ∀ a b, G'.Und a b → G.Und a b
  new : ∀ a b, G'.Arrow a b → G.Arrow a b ∨ (G.Und a b ∧ ¬ G'.Arrow b a)

/-- Same nodes and same edges. -/
structure Same (G G' : MG α) : Prop where
  nodes : G.nodes = G'.nodes
  arrow : ∀ a b, G.Arrow a b ↔ G'.Arrow a b
  und : ∀ a b, G.Und a b ↔ G'.Und a b

/-- `D` is a consistent extension of the PDAG `G`: an acyclic orientation of all its edges that keeps the directed
edges and adds no unshielded collider. -/
structure Extension (G : MG α) (D : Dag α) : Prop where
  nodes : D.nodes = G.nodes
  wf : D.WF
  acyclic : D.Acyclic
  adj : ∀ a b, D.Adj a b ↔ G.PAdj a b
  dir : ∀ a b, G.Arrow a b → D.Edge a b
  ucol : ∀ a b c, D.UCol a b c → G.PUCol a b c

end MG
end Verif
