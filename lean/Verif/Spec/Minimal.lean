import Verif.Spec.Pc

/-!
# Specification vocabulary for minimal separating sets
-/

namespace Verif
namespace Pc
variable {α : Type} [LinearOrder α]

/-- The test answers "dependent" for the pair and the set, for some order of the two nodes, some order of the conditioning tuple (without
repetitions) and some call. -/
def Dependent (ci : CITest α) (i j : α) (S : Finset α) : Prop :=
  ∃ l k, l.toFinset = S ∧ l.length = S.card ∧ (ci k i j l = false ∨ ci k j i l = false)

/-- No part of the set makes the pair independent. -/
def MinimalFor (ci : CITest α) (i j : α) (S : Finset α) : Prop := ∀ T ⊂ S, Dependent ci i j T

/-- The answer of the test for other nodes than the two tested ones depends only on the pair and on the set of conditioning nodes. -/
def AnswersOn (ci : CITest α) (N : Finset α) (f : α → α → Finset α → Bool) : Prop :=
  (∀ k i j l, i ∈ N → j ∈ N → i ≠ j → i ∉ l → j ∉ l → (∀ x ∈ l, x ∈ N) → ci k i j l = f i j l.toFinset) ∧
    ∀ i ∈ N, ∀ j ∈ N, i ≠ j → ∀ S ⊆ N, i ∉ S → j ∉ S → f i j S = f j i S

end Pc
end Verif
