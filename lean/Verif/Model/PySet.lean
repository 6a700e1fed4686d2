import Mathlib.Data.Finset.Basic
import Mathlib.Data.Finset.Card
import Mathlib.Data.Finset.Lattice.Fold
import Mathlib.Data.List.Nodup

/-!
# Python sets, their iteration order, and `itertools.combinations`

Used by every module of `/repo`; not itself a function of `/repo`.
-/

namespace Verif

/-- The iteration order of Python `set` objects (`for x in s`, `combinations(s, k)`, `s.pop()`), as used
everywhere in `/repo` (e.g. `graphical_models/dag.py:95,105,146`).

CPython's order depends on hashes and on the insertion history, so it is a parameter of the model: an
arbitrary function giving, for a context value `t` of any type (the model passes the loop variables and the
current state, so equal sets may be listed differently at different moments) and a set `s`, a
duplicate-free list of exactly the elements of `s`. -/
structure SetOrder (α : Type) where
  iter : {τ : Type} → τ → Finset α → List α
  nodup : ∀ {τ : Type} (t : τ) (s : Finset α), (iter t s).Nodup
  mem : ∀ {τ : Type} (t : τ) (s : Finset α) (x : α), x ∈ iter t s ↔ x ∈ s

/-- A concrete order on sets of numbers: ascending. CPython's usual order for small ints
(used only for non-vacuity examples and witnesses). -/
def ascending : SetOrder Nat where
  iter := fun _ s => (List.range (s.sup id + 1)).filter (· ∈ s)
  nodup := fun _ _ => List.Nodup.filter _ List.nodup_range
  mem := by
    intro τ t s x
    simp only [List.mem_filter, List.mem_range, decide_eq_true_eq, and_iff_right_iff_imp]
    intro h
    exact Nat.lt_succ_of_le (Finset.le_sup (f := id) h)

/-- Another concrete order on sets of numbers: descending (used only for examples and witnesses). -/
def descending : SetOrder Nat where
  iter := fun t s => (ascending.iter t s).reverse
  nodup := fun t s => List.nodup_reverse.mpr (ascending.nodup t s)
  mem := by
    intro τ t s x
    rw [List.mem_reverse]; exact ascending.mem t s x

/-- `itertools.combinations(xs, 2)` in Python's (lexicographic position) order;
used e.g. at `graphical_models/dag.py:178,201`. -/
def pairs {β : Type} : List β → List (β × β)
  | [] => []
  | x :: xs => xs.map (fun y => (x, y)) ++ pairs xs

/-- `itertools.combinations(xs, k)` in Python's (lexicographic position) order;
used e.g. at `causal_discovery_algs/pc.py:52-53`. -/
def combs {β : Type} : Nat → List β → List (List β)
  | 0, _ => [[]]
  | _ + 1, [] => []
  | k + 1, x :: xs => (combs k xs).map (fun l => x :: l) ++ combs (k + 1) xs

end Verif
