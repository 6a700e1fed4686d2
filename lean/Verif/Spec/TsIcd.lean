import Mathlib.Data.List.Basic
import Mathlib.Data.List.Nodup
import Mathlib.Data.List.Forall2
import Verif.Spec.Mixed
import Verif.Model.Pc

/-!
# Specification vocabulary for time-windowed data: nodes arranged by time and variable

The list at position `t` has the nodes `t` time steps before the present; the position in that list is the variable.
-/

namespace Verif.TsSpec
variable {α : Type}

/-- A time window: at least two time steps, the same number of variables in each, every node once. -/
structure Grid (sets : List (List α)) : Prop where
  two : 1 < sets.length
  len : ∃ n, ∀ l ∈ sets, l.length = n
  nodup : sets.flatten.Nodup

/-- Node `v` is variable `i`, `t` steps before the present. -/
def Cell (sets : List (List α)) (t i : Nat) (v : α) : Prop := ∃ l, sets[t]? = some l ∧ l[i]? = some v

/-- `v` is the same variable as `u`, `k` steps earlier. -/
def Shift (sets : List (List α)) (k : Nat) (u v : α) : Prop := ∃ t i, Cell sets t i u ∧ Cell sets (t + k) i v

/-- `u` is later than `v`. -/
def Later (sets : List (List α)) (u v : α) : Prop := ∃ t i s j, Cell sets t i u ∧ Cell sets s j v ∧ t < s

/-- The two pairs are the same pair of variables with the same lag, possibly at different times. -/
def Homologous (sets : List (List α)) (a b c d : α) : Prop :=
  ∃ k, (Shift sets k a c ∧ Shift sets k b d) ∨ (Shift sets k c a ∧ Shift sets k d b)

/-- Edges between different times have an arrowhead at the later node. -/
def Forward (sets : List (List α)) (G : MG α) : Prop := ∀ a b, Later sets b a → G.MAdj a b → G.At a b .arrow

/-- Marks other than circles are the same on homologous pairs. -/
def Stationary (sets : List (List α)) (G : MG α) : Prop :=
  ∀ a b c d m, Homologous sets a b c d → G.At a b m → m ≠ .circle → G.At c d m

/-- A pair is adjacent exactly if the same variables with the same lag are adjacent at every other time. -/
def Closed (sets : List (List α)) (G : MG α) : Prop := ∀ a b c d, Homologous sets a b c d → G.MAdj a b → G.MAdj c d

/-- Positive CI tests of two nodes do not condition on nodes earlier than the second node. -/
def NoEarlier (ci : CITest α) (sets : List (List α)) : Prop :=
  ∀ n i j z, ci n i j z = true → ∀ x ∈ z, ¬ Later sets j x

variable [DecidableEq α]

/-- Separating set `S` of `a` and `b` comes from a CI test with a positive result: a test of a present node `i` and a
node `j` given `z`, all moved back in time by the same number of steps; without homology not moved. -/
def Justified (ci : CITest α) (sets : List (List α)) (homology : Bool) (calls : Nat) (a b : α) (S : Finset α) : Prop :=
  ∃ n i j z k c, n < calls ∧ ci n i j z = true ∧ (∃ v, Cell sets 0 v i) ∧
    ((Shift sets k i a ∧ Shift sets k j b) ∨ (Shift sets k i b ∧ Shift sets k j a)) ∧
    (homology = true → List.Forall₂ (Shift sets k) z c) ∧ (homology = false → k = 0 ∧ c = z) ∧ S = c.toFinset

end Verif.TsSpec
