import Verif.Spec.PdsTree
import Verif.Model.Cleann

/-!
# Specification vocabulary for explanations
-/

namespace Verif
namespace Cleann
variable {α : Type} [DecidableEq α]

/-- Candidate explanations: nonempty subsets of `S` with at most `n` nodes in which every node ends a branch of the tree that
stays in the subset. -/
structure Candidate (t : PdsTree α) (S : Finset α) (n : Int) (T : Finset α) : Prop where
  sub : T ⊆ S
  nonempty : T.Nonempty
  size : (T.card : Int) ≤ n
  closed : ∀ v ∈ T, ∃ l, PdsTree.IsBranch t (l ++ [v]) ∧ ∀ x ∈ l, x ∈ T

/-- Earlier explanations are smaller, or have the same size and are not more distant. -/
def Earlier (c d : Finset α × WithTop Nat) : Prop := c.1.card < d.1.card ∨ c.1.card = d.1.card ∧ c.2 ≤ d.2

/-- The tester only looks at the set of the tokens. -/
def SetBased (test : List α → α → Bool) : Prop :=
  ∀ l l' v, l.Nodup → l'.Nodup → l.toFinset = l'.toFinset → test l v = test l' v

end Cleann
end Verif
