import Verif.Model.SepSet
import Verif.Model.UndirectedGraph
import Mathlib.Data.List.Sort
import Mathlib.Order.Defs.LinearOrder

/-!
# Model of `causal_discovery_utils/cond_indep_tests.py`: cache, counters and decision logic of the CI tests

Node labels are integers here, as in the source (`range(num_vars)`). A conditioning set is the tuple passed by the caller. The
criterion (`dsep`, `is_m_separated`) and the statistic (`calc_statistic`) are parameters; printing (`verbose`) is left out. A test
object keeps its state also when a call raises, so calls return the result and the new state.
-/

namespace Verif

/-- `d.pop(k)` for a key that is present (`cond_indep_tests.py:96`): the dictionary without the key. -/
def Dict.del {κ ν : Type} [DecidableEq κ] (d : Dict κ ν) (k : κ) : Dict κ ν := d.filter (fun kv => kv.1 ≠ k)

/-- `cond_indep_tests.py:11-28` (`CacheCI`): `_cache`, `None` if not initialised. -/
structure CacheCI (R : Type) where
  cache : Option (Dict (Int × Int) (Dict (List Int) R))

namespace CacheCI
variable {R : Type}

/-- `cond_indep_tests.py:30-40` (`get_hkeys`). -/
def hkeys (x y : Int) (zz : List Int) : (Int × Int) × List Int :=
  (if x < y then (x, y) else (y, x), zz.insertionSort (· ≤ ·))

/-- `cond_indep_tests.py:25-28`: the pairs `i < j` below `num_vars`. -/
def initPairs (n : Nat) : List (Nat × Nat) :=
  (List.range (n - 1)).flatMap (fun i => (List.range' (i + 1) (n - (i + 1))).map (fun j => (i, j)))

/-- `cond_indep_tests.py:15-28` (`__init__`). -/
def init (num_vars : Option Nat) : CacheCI R :=
  match num_vars with
  | none => ⟨none⟩
  | some n => ⟨some ((initPairs n).foldl (fun d ij => Dict.set d (hkeys ij.1 ij.2 []).1 []) [])⟩

/-- `cond_indep_tests.py:42-54` (`set_cache_result`). -/
def set (c : CacheCI R) (x y : Int) (zz : List Int) (res : R) : Py (CacheCI R) :=
  match c.cache with
  | none => .error .assertionError
  | some D => do
    let k := hkeys x y zz
    let d ← Dict.get D k.1
    return ⟨some (Dict.set D k.1 (Dict.set d k.2 res))⟩

/-- `cond_indep_tests.py:56-75` (`get_cache_result`). -/
def get (c : CacheCI R) (x y : Int) (zz : List Int) : Option R :=
  match c.cache with
  | none => none
  | some D =>
    let k := hkeys x y zz
    match Dict.get? D k.1 with
    | none => none
    | some d => Dict.get? d k.2

/-- `cond_indep_tests.py:77-96` (`del_cache`): the deleted result and the new cache. -/
def del (c : CacheCI R) (x y : Int) (zz : List Int) : Option R × CacheCI R :=
  match c.cache with
  | none => (none, c)
  | some D =>
    let k := hkeys x y zz
    match Dict.get? D k.1 with
    | none => (none, c)
    | some d =>
      match Dict.get? d k.2 with
      | none => (none, c)
      | some r => (some r, ⟨some (Dict.set D k.1 (Dict.del d k.2))⟩)

end CacheCI

/-- The mutable part of a CI test object: `cache_ci`, `is_cache`, `test_counter`
(`cond_indep_tests.py:111-121`, `170-180`, `244-255`). -/
structure CiState (R : Type) where
  cache : CacheCI R
  isCache : Bool
  counter : Option (List Nat)

namespace CiState
variable {R : Type}

/-- `cond_indep_tests.py:109-121`, `169-180`, `243-255`: the state after `__init__` for `n` variables. -/
def init (n : Nat) (countTests useCache : Bool) : CiState R :=
  ⟨CacheCI.init (if useCache then some n else none), useCache,
   if countTests then some (List.replicate (n - 1) 0) else none⟩

/-- `cond_indep_tests.py:132-133`, `196-197`, `280-281`: `if count_tests: test_counter[k] += 1`. -/
def count (s : CiState R) (k : Nat) : Py (CiState R) :=
  match s.counter with
  | none => .ok s
  | some l =>
    match l[k]? with
    | none => .error .indexError
    | some c => .ok { s with counter := some (l.set k (c + 1)) }

/-- `cond_indep_tests.py:130-131`, `194-195`, `287-288`: `if is_cache: set_cache_result(...)`. -/
def store (s : CiState R) (x y : Int) (zz : List Int) (res : R) : Py (CiState R) :=
  if s.isCache then do return { s with cache := ← s.cache.set x y zz res } else .ok s

end CiState

/-- `cond_indep_tests.py:123-134` (`DSep.cond_indep`) and `188-198` (second half of `GraphCondIndep.cond_indep`); `crit` is the
separation criterion. -/
def critCondIndep (crit : Int → Int → List Int → Py Bool) (s : CiState Bool) (x y : Int) (zz : List Int) :
    Py Bool × CiState Bool :=
  match s.cache.get x y zz with
  | some res => (.ok res, s)
  | none =>
    match crit x y zz with
    | .error e => (.error e, s)
    | .ok res =>
      match s.store x y zz res with
      | .error e => (.error e, s)
      | .ok s =>
        match s.count zz.length with
        | .error e => (.error e, s)
        | .ok s => (.ok res, s)

/-- `cond_indep_tests.py:182-198` (`GraphCondIndep.cond_indep`). -/
def graphCondIndep (o : SetOrder Int) (crit : Int → Int → List Int → Py Bool) (static : Option (List Int)) (s : CiState Bool)
    (x y : Int) (zz : List Int) : Py Bool × CiState Bool :=
  match static with
  | none => critCondIndep crit s x y zz
  | some st => critCondIndep crit s x y (o.iter (x, y, zz) (zz ++ st).toFinset)

section
variable {R : Type} [LinearOrder R]

/-- `cond_indep_tests.py:257-269` (`StatCondIndep.cond_indep`); `stat` is `calc_statistic`, `retained` is `retained_graph`. The
statistic is never `None` here (it is only in the base class, which is not used itself). -/
def statCondIndep (retained : UGraph Int) (stat : Int → Int → List Int → Py R) (threshold : R) (s : CiState R) (x y : Int)
    (zz : List Int) : Py Bool × CiState R :=
  match retained.isConnected x y with
  | .error e => (.error e, s)
  | .ok true => (.ok false, s)
  | .ok false =>
    match s.cache.get x y zz with
    | some v => (.ok (decide (v > threshold)), s)
    | none =>
      match stat x y zz with
      | .error e => (.error e, s)
      | .ok v =>
        match s.count zz.length with
        | .error e => (.error e, s)
        | .ok s =>
          match s.store x y zz v with
          | .error e => (.error e, s)
          | .ok s => (.ok (decide (v > threshold)), s)

/-- `cond_indep_tests.py:361-363` (`CondIndepCMI.cond_indep`). -/
def cmiCondIndep (retained : UGraph Int) (stat : Int → Int → List Int → Py R) (threshold : R) (s : CiState R) (x y : Int)
    (zz : List Int) : Py Bool × CiState R :=
  let r := statCondIndep retained stat threshold s x y zz
  (r.1.map (! ·), r.2)

end

end Verif
