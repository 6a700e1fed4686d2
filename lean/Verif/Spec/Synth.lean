import Mathlib.Algebra.BigOperators.Group.Finset.Basic
import Verif.Spec.Graph
import Verif.Model.Synth

/-!
# Specification vocabulary for synthetic graphs and data
-/

namespace Verif
namespace Synth

/-- Position of the pair `a < b < n` in the lexicographic order of the pairs. -/
def pairIdx (n a b : Nat) : Nat := (∑ q ∈ Finset.range a, (n - 1 - q)) + (b - a - 1)

/-- Number of pairs. -/
def numPairs (n : Nat) : Nat := ∑ q ∈ Finset.range (n - 1), (n - 1 - q)

/-- The draws that start with number `k` give the graph `G`: pair `a < b` is joined iff its draw is below the edge probability. -/
structure DrawnFrom (rnd : Nat → ℚ) (k n : Nat) (e : ℚ) (G : Dag Nat) : Prop where
  nodes : G.nodes = Finset.range n
  edge : ∀ a b, G.Edge a b ↔ a < b ∧ b < n ∧ rnd (k + pairIdx n a b) < e / ((n : ℚ) - 1)

/-- All nodes are joined by undirected paths. -/
def Connected (G : Dag Nat) : Prop := ∀ x ∈ G.nodes, ∀ y ∈ G.nodes, G.JoinedIn G.nodes x y

end Synth
end Verif
