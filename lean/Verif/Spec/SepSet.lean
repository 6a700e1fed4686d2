import Verif.Model.SepSet

/-!
# Specification vocabulary for `SeparationSet`: histories of operations on two objects

`runHeap` performs the operations of the model with object identities (`HSepSet`), `runVal` those on two independent
values (`SepSet`).
-/

namespace Verif
variable {α : Type} [LinearOrder α]

/-- Two separation-set objects (`false`, `true`) and the memory of set objects. -/
structure SepWorld (α : Type) where
  heap : Heap α
  obj : Bool → HSepSet α

/-- Operations that users can perform on two separation-set objects; the flag says on which. `mutate` is an in-place
change, to the content `S`, of the set returned by `get_sepset`; `copyFrom` copies from the other object. -/
inductive SepOp (α : Type) where
  | set (side : Bool) (a b : α) (S : Finset α)
  | erase (side : Bool)
  | mutate (side : Bool) (a b : α) (S : Finset α)
  | copyFrom (side : Bool) (nodes : Finset α)

/-- The operation on objects in memory. -/
def SepOp.runHeap (o : SetOrder α) (w : SepWorld α) : SepOp α → Py (SepWorld α)
  | .set side a b S =>
    let r := (w.obj side).set w.heap a b S
    .ok ⟨r.2, Function.update w.obj side r.1⟩
  | .erase side =>
    let r := (w.obj side).erase w.heap
    .ok ⟨r.2, Function.update w.obj side r.1⟩
  | .mutate side a b S => do
    let addr ← (w.obj side).get a b
    return ⟨w.heap.write addr S, w.obj⟩
  | .copyFrom side nodes => do
    let r ← (w.obj side).copyFrom o (w.obj (!side)) nodes w.heap
    return ⟨r.2, Function.update w.obj side r.1⟩

/-- The operation on two independent values. -/
def SepOp.runVal (o : SetOrder α) (v : Bool → SepSet α) : SepOp α → Py (Bool → SepSet α)
  | .set side a b S => .ok (Function.update v side ((v side).set a b S))
  | .erase side => .ok (Function.update v side (v side).erase)
  | .mutate side a b S => do
    let _ ← (v side).get a b
    return Function.update v side ((v side).set a b S)
  | .copyFrom side nodes => do
    let r ← (v side).copyFrom o (v !side) nodes
    return Function.update v side r

namespace SepWorld

/-- Identity of the set object stored at a key (`constraint_based.py:49`). -/
def addr (w : SepWorld α) (side : Bool) (k : α × α) : Option Nat := (w.obj side).d.get? k

/-- All stored set objects are in use and no set object is stored at two places. -/
structure Unshared (w : SepWorld α) : Prop where
  lt : ∀ s k a, w.addr s k = some a → a < w.heap.next
  inj : ∀ s k s' k' a, w.addr s k = some a → w.addr s' k' = some a → s = s' ∧ k = k'

end SepWorld

end Verif
