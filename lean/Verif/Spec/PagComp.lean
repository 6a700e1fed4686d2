import Verif.Spec.Pag

/-!
# Specification vocabulary for buckets and possible c-components of PAGs
-/

namespace Verif
variable {α : Type}

namespace MG

/-- Every edge between a node `u` of `B` and a node `v` of `C` has an arrowhead at `v`. -/
def Into (G : MG α) (B C : Finset α) : Prop := ∀ u ∈ B, ∀ v ∈ C, G.MAdj u v → G.At u v .arrow

/-- Two nodes are in the same bucket: joined by edges `o-o` inside `en`. -/
def SameBucket (G : MG α) (en : Finset α) (u v : α) : Prop := G.Joined (some [(.circle, .circle)]) en u v

/-- The buckets inside `en` can be put in a topological order: there is a rank, the same for the nodes of a bucket, such that
every edge between two buckets has an arrowhead at the end of higher (or equal) rank. -/
def Orderable (G : MG α) (en : Finset α) : Prop := ∃ r : α → Nat,
  (∀ u ∈ en, ∀ v ∈ en, G.SameBucket en u v → r u = r v) ∧
  ∀ u ∈ en, ∀ v ∈ en, ¬ G.SameBucket en u v → G.MAdj u v → r u ≤ r v → G.At u v .arrow

/-- There are nodes, but every bucket has an edge to another bucket without an arrowhead at its own end. -/
def NoLast (G : MG α) (en : Finset α) : Prop := en.Nonempty ∧ ∀ x ∈ en, ∃ v ∈ en, ∃ w ∈ en, G.SameBucket en x v ∧
  ¬ G.SameBucket en x w ∧ G.MAdj w v ∧ ¬ G.At w v .arrow

/-- Two nodes are in the same definite c-component: joined by edges `<->` inside `en`. -/
def SameDc (G : MG α) (en : Finset α) (u v : α) : Prop := G.Joined (some [(.arrow, .arrow)]) en u v

/-- `v` is a neighbour of `x` through an edge that is not visible. -/
def InvisNb (G : MG α) (vis : Finset (α × α)) (en : Finset α) (x v : α) : Prop :=
  v ∈ en ∧ G.MAdj x v ∧ (x, v) ∉ vis ∧ (v, x) ∉ vis

/-- `x *-> y` not visible (`Y` nodes of the docstring). -/
def InvisCh (G : MG α) (vis : Finset (α × α)) (en : Finset α) (x y : α) : Prop :=
  G.InvisNb vis en x y ∧ G.At x y .arrow

/-- A node of the definite c-component of a `Y` node (`Z` nodes of the docstring). -/
def ValidDc (G : MG α) (vis : Finset (α × α)) (en : Finset α) (x z : α) : Prop :=
  ∃ y, G.InvisCh vis en x y ∧ G.SameDc en y z

/-- The union of the possible c-components of `x` as documented (`partial_ancestral_graph.py:588-613`): `x`, its invisible
neighbours, the `Z` nodes, and the nodes `W` with an edge `Z <-* W` that is not visible. -/
def PcDocumented (G : MG α) (vis : Finset (α × α)) (en : Finset α) (x w : α) : Prop :=
  w = x ∨ G.InvisNb vis en x w ∨ G.ValidDc vis en x w ∨
    w ∈ en ∧ ∃ z, G.ValidDc vis en x z ∧ z ≠ x ∧ G.At w z .arrow ∧ (w, z) ∉ vis

end MG
end Verif
