import Verif.Spec.Draw

/-!
# Specification: the nodes and edges of a tree
-/

namespace Verif
namespace Draw
variable {α : Type}

mutual
/-- The nodes of the tree with their distance from the root (which is at distance `d`), from the root on, branch by branch. -/
def treeNodes : PdsTree α → Nat → List (α × Nat)
  | .node v _ cs, d => (v, d) :: treeNodesL cs (d + 1)
/-- The nodes of the branches. -/
def treeNodesL : List (PdsTree α) → Nat → List (α × Nat)
  | [], _ => []
  | c :: cs, d => treeNodes c d ++ treeNodesL cs d
end

mutual
/-- The pairs of a node and its child. -/
def treeEdges : PdsTree α → List (α × α)
  | .node v _ cs => treeEdgesL v cs
/-- The pairs in the branches below `v`. -/
def treeEdgesL : α → List (PdsTree α) → List (α × α)
  | _, [] => []
  | v, c :: cs => (v, c.origin) :: treeEdges c ++ treeEdgesL v cs
end

end Draw
end Verif
