import Verif.Spec.Icd
import Verif.Spec.Pc

/-!
# Specification vocabulary for DAGs with latent variables
-/

namespace Verif
variable {α : Type}

/-- No set of other observed nodes d-separates `a` and `b`. -/
def Dag.Insep (D : Dag α) (O : Finset α) (a b : α) : Prop :=
  ∀ S ⊆ O, a ∉ S → b ∉ S → ¬ D.DSeparated a b S

/-- The test answers d-separation in `D` for two distinct observed nodes and a conditioning set of other observed nodes. -/
def Pc.PerfectOn [DecidableEq α] (ci : CITest α) (D : Dag α) (O : Finset α) : Prop :=
  ∀ k i j l, i ∈ O → j ∈ O → i ≠ j → i ∉ l → j ∉ l → (∀ x ∈ l, x ∈ O) → (ci k i j l = true ↔ D.DSeparated i j l.toFinset)

open Classical in
/-- The maximal ancestral graph of `D` over the observed nodes: inseparable nodes are adjacent; the mark at `v` on the edge with `u` is a
tail if `v` is an ancestor of `u`, an arrowhead otherwise. -/
noncomputable def Dag.mag (D : Dag α) (O : Finset α) : MG α :=
  ⟨O, [.circle, .arrow, .tail], fun v m => match m with
    | .arrow => O.filter (fun u => u ≠ v ∧ v ∈ O ∧ D.Insep O u v ∧ ¬ D.DPath v u)
    | .tail => O.filter (fun u => u ≠ v ∧ v ∈ O ∧ D.Insep O u v ∧ D.DPath v u)
    | .circle => ∅⟩

/-- The graph describes ancestry in `D` among the observed nodes: an arrowhead at `b` on the edge with `a` means that `b` is not an
ancestor of `a`. -/
def Dag.ArrowsTrue (D : Dag α) (G : MG α) : Prop := ∀ a b, G.At a b .arrow → ¬ D.DPath b a

/-- A tail at `b` on the edge with `a` means that `b` is an ancestor of `a`. -/
def Dag.TailsTrue (D : Dag α) (G : MG α) : Prop := ∀ a b, G.At a b .tail → D.DPath b a

/-- No latent confounding of adjacent pairs that are not ancestors of each other: of two inseparable observed nodes one is an ancestor
of the other. -/
def Dag.NoConfounded (D : Dag α) (O : Finset α) : Prop :=
  ∀ a ∈ O, ∀ b ∈ O, a ≠ b → D.Insep O a b → D.DPath a b ∨ D.DPath b a

/-- The unshielded colliders among the observed nodes are oriented: `b` is inseparable from `a` and from `c`, these are separable, and `b`
is an ancestor of neither. -/
def Dag.CollidersFound (D : Dag α) (O : Finset α) (G : MG α) : Prop :=
  ∀ a ∈ O, ∀ b ∈ O, ∀ c ∈ O, a ≠ b → c ≠ b → a ≠ c → D.Insep O a b → D.Insep O c b → ¬ D.Insep O a c →
    ¬ D.DPath b a → ¬ D.DPath b c → G.At a b .arrow ∧ G.At c b .arrow

/-- The graph is `r`-representing (docstring of `icd.py:47-59`): two nodes are adjacent iff no set of at most `r` other observed nodes
d-separates them. -/
def Dag.Representing (D : Dag α) (O : Finset α) (r : Nat) (G : MG α) : Prop :=
  ∀ a ∈ O, ∀ b ∈ O, a ≠ b → (G.MAdj a b ↔ ∀ S ⊆ O, S.card ≤ r → a ∉ S → b ∉ S → ¬ D.DSeparated a b S)

/-- Every pair of observed nodes that can be separated can be separated by at most one observed node. -/
def Dag.OneSep (D : Dag α) (O : Finset α) : Prop :=
  ∀ a ∈ O, ∀ b ∈ O, a ≠ b → ¬ D.Insep O a b → ∃ S ⊆ O, S.card ≤ 1 ∧ a ∉ S ∧ b ∉ S ∧ D.DSeparated a b S

/-- A polytree (forest when directions are ignored): at most one path between any two nodes. -/
def Dag.Polytree (D : Dag α) : Prop :=
  ∀ a b (p q : List α), p.Nodup → q.Nodup → p.IsChain D.Adj → q.IsChain D.Adj → p.head? = some a → q.head? = some a →
    p.getLast? = some b → q.getLast? = some b → p = q

end Verif
