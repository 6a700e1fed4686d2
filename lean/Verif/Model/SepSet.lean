import Verif.Model.Py
import Mathlib.Order.Defs.LinearOrder

/-!
# Model of `causal_discovery_utils/constraint_based.py` (`SeparationSet`, `unique_element_iterator`)

Node labels are totally ordered (`<` of Python); labels that Python cannot compare raise TypeError, not modelled.
-/

namespace Verif

/-- A Python `dict`: key/value pairs in insertion order (used by `SeparationSet._sepset`,
`constraint_based.py:22`, and `CacheCI._cache`, `cond_indep_tests.py:15`). -/
abbrev Dict (κ ν : Type) := List (κ × ν)

namespace Dict
variable {κ ν : Type} [DecidableEq κ]

/-- `d.get(k)` (e.g. `constraint_based.py:49`). -/
def get? : Dict κ ν → κ → Option ν
  | [], _ => none
  | (k', v) :: d, k => if k' = k then some v else get? d k

/-- `d[k]`: KeyError if the key is missing (e.g. `constraint_based.py:49`). -/
def get (d : Dict κ ν) (k : κ) : Py ν :=
  match d.get? k with
  | some v => .ok v
  | none => .error .keyError

/-- `d[k] = v` (e.g. `constraint_based.py:26`). -/
def set : Dict κ ν → κ → ν → Dict κ ν
  | [], k, v => [(k, v)]
  | (k', v') :: d, k, v => if k' = k then (k, v) :: d else (k', v') :: set d k v

end Dict

/-- `constraint_based.py:20-26` (`SeparationSet`): node set and dictionary. Sets are values here; `HSepSet` below
adds object identity. -/
structure SepSet (α : Type) where
  nodes : Finset α
  d : Dict (α × α) (Finset α)

namespace SepSet
variable {α : Type} [LinearOrder α]

/-- `constraint_based.py:28-37` (`get_hash_key`). -/
def hkey (a b : α) : α × α := if a < b then (a, b) else (b, a)

/-- `constraint_based.py:21-26` (`__init__`). -/
def init (o : SetOrder α) (nodes : Finset α) : SepSet α :=
  ⟨nodes, (pairs (o.iter () nodes)).foldl (fun d ij => Dict.set d (hkey ij.1 ij.2) ∅) []⟩

/-- `constraint_based.py:39-41` (`erase`). -/
def erase (s : SepSet α) : SepSet α := { s with d := s.d.map (fun kv => (kv.1, ∅)) }

/-- `constraint_based.py:43-45` (`set_sepset`). -/
def set (s : SepSet α) (a b : α) (S : Finset α) : SepSet α := { s with d := Dict.set s.d (hkey a b) S }

/-- `constraint_based.py:47-49` (`get_sepset`). -/
def get (s : SepSet α) (a b : α) : Py (Finset α) := Dict.get s.d (hkey a b)

/-- `constraint_based.py:51-63` (`copy`) into a given target. -/
def copyInto (o : SetOrder α) (s : SepSet α) (nodes : Finset α) (target : SepSet α) : Py (SepSet α) :=
  (pairs (o.iter () nodes)).foldlM (fun (t : SepSet α) ij => do
    let v ← Dict.get s.d (hkey ij.1 ij.2)
    return { t with d := Dict.set t.d (hkey ij.1 ij.2) v }) target

/-- `constraint_based.py:51-63` (`copy`): default arguments are the own nodes and a new object. -/
def copy (o : SetOrder α) (s : SepSet α) (nodes : Option (Finset α)) (target : Option (SepSet α)) :
    Py (SepSet α) :=
  let nodes := nodes.getD s.nodes
  copyInto o s nodes (target.getD (init o nodes))

/-- `constraint_based.py:65-74` (`copy_from`). -/
def copyFrom (o : SetOrder α) (s src : SepSet α) (nodes : Finset α) : Py (SepSet α) :=
  (pairs (o.iter () nodes)).foldlM (fun (t : SepSet α) ij => do
    let v ← src.get ij.1 ij.2
    return { t with d := Dict.set t.d (hkey ij.1 ij.2) v }) s

end SepSet

/-- Memory of set objects: `mem a` is the content of the set object with identity `a`, identities below `next` are in
use. Models that `constraint_based.py:26,41,45,61,74` create new `set` objects while `constraint_based.py:49` returns
the stored object itself. -/
structure Heap (α : Type) where
  next : Nat
  mem : Nat → Finset α

namespace Heap
variable {α : Type}

/-- A new set object, `set(s)` or `s.copy()` (`constraint_based.py:45,61`). -/
def alloc (h : Heap α) (s : Finset α) : Nat × Heap α :=
  (h.next, ⟨h.next + 1, fun a => if a = h.next then s else h.mem a⟩)

/-- In-place change of a set object by a caller that got it from `get_sepset` (`constraint_based.py:49`). -/
def write (h : Heap α) (a : Nat) (s : Finset α) : Heap α := ⟨h.next, fun b => if b = a then s else h.mem b⟩

end Heap

/-- `SeparationSet` with object identities: the dictionary stores identities of set objects
(`constraint_based.py:20-26`). -/
structure HSepSet (α : Type) where
  nodes : Finset α
  d : Dict (α × α) Nat

namespace HSepSet
variable {α : Type} [LinearOrder α]
open SepSet (hkey)

/-- `constraint_based.py:43-45` (`set_sepset`): stores a new set object. -/
def set (s : HSepSet α) (h : Heap α) (a b : α) (S : Finset α) : HSepSet α × Heap α :=
  let (addr, h) := h.alloc S
  ({ s with d := Dict.set s.d (hkey a b) addr }, h)

/-- `constraint_based.py:21-26` (`__init__`). -/
def init (o : SetOrder α) (nodes : Finset α) (h : Heap α) : HSepSet α × Heap α :=
  (pairs (o.iter () nodes)).foldl (fun sh ij => set sh.1 sh.2 ij.1 ij.2 ∅) (⟨nodes, []⟩, h)

/-- `constraint_based.py:47-49` (`get_sepset`): returns the stored object. -/
def get (s : HSepSet α) (a b : α) : Py Nat := Dict.get s.d (hkey a b)

/-- `constraint_based.py:39-41` (`erase`). -/
def erase (s : HSepSet α) (h : Heap α) : HSepSet α × Heap α :=
  s.d.foldl (fun sh kv =>
    let (addr, h) := sh.2.alloc ∅
    ({ sh.1 with d := Dict.set sh.1.d kv.1 addr }, h)) (s, h)

/-- `constraint_based.py:51-63` (`copy`) into a target: copies the content into new set objects. -/
def copyInto (o : SetOrder α) (s : HSepSet α) (nodes : Finset α) (target : HSepSet α) (h : Heap α) :
    Py (HSepSet α × Heap α) :=
  (pairs (o.iter () nodes)).foldlM (fun (th : HSepSet α × Heap α) ij => do
    let a ← s.get ij.1 ij.2
    return set th.1 th.2 ij.1 ij.2 (th.2.mem a)) (target, h)

/-- `constraint_based.py:51-63` (`copy`) with default arguments. -/
def copy (o : SetOrder α) (s : HSepSet α) (h : Heap α) : Py (HSepSet α × Heap α) :=
  let (t, h) := init o s.nodes h
  copyInto o s s.nodes t h

/-- `constraint_based.py:65-74` (`copy_from`): copies the content into new set objects. -/
def copyFrom (o : SetOrder α) (s src : HSepSet α) (nodes : Finset α) (h : Heap α) : Py (HSepSet α × Heap α) :=
  (pairs (o.iter () nodes)).foldlM (fun (th : HSepSet α × Heap α) ij => do
    let a ← src.get ij.1 ij.2
    return set th.1 th.2 ij.1 ij.2 (th.2.mem a)) (s, h)

end HSepSet

/-- `constraint_based.py:77-89` (`unique_element_iterator`), first occurrences in order; second argument: `seen`. -/
def uniqueElems {β : Type} [DecidableEq β] : List β → List β → List β
  | [], _ => []
  | e :: es, seen => if e ∈ seen then uniqueElems es seen else e :: uniqueElems es (e :: seen)

end Verif
