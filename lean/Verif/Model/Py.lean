import Verif.Model.PySet

/-!
# Exceptions and small helpers of the Python model
-/

namespace Verif

/-- Python exceptions that the modelled functions can raise. `outOfFuel` is not a Python exception: it marks
a loop or recursion of the model that ran out of its step budget; termination theorems show it is not
returned. -/
inductive PyErr
  | keyError | valueError | assertionError | runtimeError | indexError | zeroDivision | attributeError | typeError | linAlgError
  | exception | outOfFuel
  deriving DecidableEq, Repr

/-- Result of a Python call: a value or a raised exception. -/
abbrev Py (β : Type) := Except PyErr β

/-- Replace the value stored at key `a` (Python `d[a] = g(d[a])`). -/
def modify {α β : Type} [DecidableEq α] (f : α → β) (a : α) (g : β → β) : α → β :=
  fun x => if x = a then g (f x) else f x

/-- `for x in l: if f(x): return True` followed by `return False`
(e.g. `graphical_models/dag.py:73-77`). -/
def forAny {β : Type} (f : β → Py Bool) : List β → Py Bool
  | [] => .ok false
  | x :: xs => do
    if ← f x then return true
    forAny f xs

/-- `s.pop()` on a Python set: some element and the remaining set, `none` (KeyError) on the empty set
(e.g. `graphical_models/dag.py:120,123`). -/
def popSet {α τ : Type} [DecidableEq α] (o : SetOrder α) (t : τ) (s : Finset α) : Option (α × Finset α) :=
  match o.iter t s with
  | [] => none
  | x :: _ => some (x, s.erase x)

end Verif
