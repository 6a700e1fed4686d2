import Verif.Spec.Pc

/-!
# Specification vocabulary for the sequence of CI tests of PC
-/

namespace Verif
namespace Pc
variable {α : Type} [LinearOrder α]

/-- The answer of the test depends only on the pair and on the set of conditioning nodes: not on the order of the two nodes, not on the
order of the conditioning tuple, and not on the tests done before. `f` is the answer. -/
def Answers (ci : CITest α) (f : α → α → Finset α → Bool) : Prop :=
  (∀ k i j l, ci k i j l = f i j l.toFinset) ∧ ∀ i j S, f i j S = f j i S

/-- Two nodes that no set of fewer than `m` other nodes makes independent. -/
def Kept (f : α → α → Finset α → Bool) (N : Finset α) (m : Nat) (a b : α) : Prop :=
  a ∈ N ∧ b ∈ N ∧ a ≠ b ∧ ∀ S ⊆ N, a ∉ S → b ∉ S → S.card < m → f a b S = false

/-- No node is joined to more than `m` nodes in the graph of the pairs that no set of fewer than `m` nodes makes independent. -/
def Sparse (f : α → α → Finset α → Bool) (N : Finset α) (m : Nat) : Prop :=
  ∀ v, ∀ S : Finset α, (∀ u ∈ S, Kept f N m u v) → S.card ≤ m

/-- The test answers d-separation in `D` for at most `k` conditioning nodes; other answers are arbitrary. -/
def PerfectUpTo (ci : CITest α) (D : Dag α) (k : Nat) : Prop :=
  ∀ c i j l, i ∈ D.nodes → j ∈ D.nodes → i ≠ j → i ∉ l → j ∉ l → (∀ x ∈ l, x ∈ D.nodes) → l.length ≤ k →
    (ci c i j l = true ↔ D.DSeparated i j l.toFinset)

end Pc
end Verif
