import Verif.Spec.TruePag

/-!
# Specification vocabulary for graphs learned with a limited conditioning-set size
-/

namespace Verif
variable {α : Type}

open Classical in
/-- The members of `S` other than `u` and `v` that are ancestors of `u` or `v`. -/
noncomputable def Dag.linkSet (D : Dag α) (S : Finset α) (u v : α) : Finset α :=
  S.filter (fun x => (D.DPath x u ∨ D.DPath x v) ∧ x ≠ u ∧ x ≠ v)

/-- `u` and `v` are dependent given the members of `S` that are their ancestors. -/
def Dag.Linked (D : Dag α) (S : Finset α) (u v : α) : Prop := ¬ D.DSeparated u v (D.linkSet S u v)

/-- The sets recorded for pairs that are not adjacent: a separating set of at most `r` other observed nodes, and no smaller set of other
observed nodes separates the pair. -/
def Dag.SmallestSep (D : Dag α) (O : Finset α) (r : Nat) (G : MG α) (sep : α → α → Py (Finset α)) : Prop :=
  ∀ a ∈ O, ∀ c ∈ O, a ≠ c → ¬ G.MAdj a c → ∃ S, sep a c = .ok S ∧ S ⊆ O ∧ S.card ≤ r ∧ a ∉ S ∧ c ∉ S ∧ D.DSeparated a c S ∧
    ∀ T ⊆ O, T.card < S.card → a ∉ T → c ∉ T → ¬ D.DSeparated a c T

end Verif
