import Verif.Spec.Pdag

/-!
# Specification vocabulary for renaming the nodes of a DAG
-/

namespace Verif
variable {α β : Type}

/-- `E` is `D` with the nodes renamed by `f`; `g` gives the old names. -/
structure Dag.Renamed (f : α → β) (g : β → α) (D : Dag α) (E : Dag β) : Prop where
  mapf : ∀ a ∈ D.nodes, f a ∈ E.nodes
  mapg : ∀ b ∈ E.nodes, g b ∈ D.nodes
  left : ∀ a ∈ D.nodes, g (f a) = a
  right : ∀ b ∈ E.nodes, f (g b) = b
  edge : ∀ a ∈ D.nodes, ∀ b ∈ D.nodes, E.Edge (f a) (f b) ↔ D.Edge a b

/-- `G'` is the PDAG `G` with the nodes renamed by `f`. -/
structure MG.Renamed [DecidableEq β] (f : α → β) (G : MG α) (G' : MG β) : Prop where
  inj : ∀ a ∈ G.nodes, ∀ b ∈ G.nodes, f a = f b → a = b
  nodes : G'.nodes = G.nodes.image f
  arrow : ∀ a ∈ G.nodes, ∀ b ∈ G.nodes, G'.Arrow (f a) (f b) ↔ G.Arrow a b
  und : ∀ a ∈ G.nodes, ∀ b ∈ G.nodes, G'.Und (f a) (f b) ↔ G.Und a b

end Verif
