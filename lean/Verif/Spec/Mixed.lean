import Verif.Model.MixedGraph
import Verif.Spec.Graph

/-!
# Specification vocabulary for mixed graphs
-/

namespace Verif
open Relation
variable {α : Type}

namespace MG

/-- On the edge between `a` and `b` there is the mark `m` at `b`. -/
def At (G : MG α) (a b : α) (m : Mark) : Prop := a ∈ G.g b m

instance [DecidableEq α] (G : MG α) (a b : α) (m : Mark) : Decidable (G.At a b m) :=
  inferInstanceAs (Decidable (_ ∈ _))

/-- `a` and `b` are adjacent: there is a mark at one of the ends. -/
def MAdj (G : MG α) (a b : α) : Prop := (∃ m, G.At a b m) ∨ ∃ m, G.At b a m

/-- A well-formed mixed graph: marks are of the types of the graph; both ends of an edge are nodes; no self-edges; at
most one mark per edge end; a mark at one end iff a mark at the other. -/
structure Proper (G : MG α) : Prop where
  type : ∀ a b m, G.At a b m → m ∈ G.types
  mem : ∀ a b m, G.At a b m → a ∈ G.nodes ∧ b ∈ G.nodes
  irrefl : ∀ a m, ¬ G.At a a m
  one : ∀ a b m m', G.At a b m → G.At a b m' → m = m'
  both : ∀ a b m, G.At a b m → ∃ m', G.At b a m'

/-- `y` is a neighbour of `x` through an edge with marks `(mark at x, mark at y)` of the list; `none`: a mark of any
type of the graph at `x`. -/
def Nbr (G : MG α) (types : Option (List (Mark × Mark))) (x y : α) : Prop :=
  match types with
  | none => ∃ m ∈ G.types, G.At y x m
  | some l => ∃ t ∈ l, G.At y x t.1 ∧ G.At x y t.2

/-- `y` is reached from `x` by a path of at least one edge whose nodes after `x` are in `pool`. -/
def ReachIn (G : MG α) (types : Option (List (Mark × Mark))) (pool : Finset α) (x y : α) : Prop :=
  TransGen (fun a b => G.Nbr types a b ∧ b ∈ pool) x y

/-- `x` and `y` are joined by a (possibly empty) path inside `pool`. -/
def Joined (G : MG α) (types : Option (List (Mark × Mark))) (pool : Finset α) (x y : α) : Prop :=
  ReflTransGen (fun a b => G.Nbr types a b ∧ a ∈ pool ∧ b ∈ pool) x y

end MG
end Verif
