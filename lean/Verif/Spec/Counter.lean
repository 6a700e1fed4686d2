import Verif.Spec.CiTest
import Mathlib.Data.List.Perm.Basic

/-!
# Specification of the test counters: which queries of a history need a computation

`cond_indep_tests.py:132-133`, `196-197`, `280-281` count the tests that are computed.
-/

namespace Verif

/-- The same test: the same pair and the same conditioning variables. -/
def SameTest (x y : Int) (zz : List Int) (x' y' : Int) (zz' : List Int) : Prop :=
  ((x = x' ∧ y = y') ∨ (x = y' ∧ y = x')) ∧ zz.Perm zz'

instance (x y : Int) (zz : List Int) (x' y' : Int) (zz' : List Int) : Decidable (SameTest x y zz x' y' zz') :=
  inferInstanceAs (Decidable (_ ∧ _))

/-- The test was asked for in the past (a list of calls, the latest first), and not deleted since. -/
def KnownTest : List CiOp → Int → Int → List Int → Prop
  | [], _, _, _ => False
  | .query x' y' zz' :: past, x, y, zz => SameTest x' y' zz' x y zz ∨ KnownTest past x y zz
  | .delete x' y' zz' :: past, x, y, zz => ¬ SameTest x' y' zz' x y zz ∧ KnownTest past x y zz

instance decKnownTest : ∀ past x y zz, Decidable (KnownTest past x y zz)
  | [], _, _, _ => inferInstanceAs (Decidable False)
  | .query x' y' zz' :: past, x, y, zz =>
    have := decKnownTest past x y zz
    inferInstanceAs (Decidable (SameTest x' y' zz' x y zz ∨ KnownTest past x y zz))
  | .delete x' y' zz' :: past, x, y, zz =>
    have := decKnownTest past x y zz
    inferInstanceAs (Decidable (¬ SameTest x' y' zz' x y zz ∧ KnownTest past x y zz))

/-- The number of queries with `k` conditioning variables that need a computation; with a cache, a known test does not. -/
def computed (useCache : Bool) (k : Nat) : List CiOp → List CiOp → Nat
  | _, [] => 0
  | past, .query x y zz :: ops =>
    (if zz.length = k ∧ (useCache = true → ¬ KnownTest past x y zz) then 1 else 0) + computed useCache k (.query x y zz :: past) ops
  | past, .delete x y zz :: ops => computed useCache k (.delete x y zz :: past) ops

/-- The history of tests behind a history of calls: a query leads to no test, or to a test with other conditioning variables. -/
def effective (eff : Int → Int → List Int → Option (List Int)) : List CiOp → List CiOp
  | [] => []
  | .query x y zz :: ops => match eff x y zz with
    | none => effective eff ops
    | some zz' => .query x y zz' :: effective eff ops
  | .delete x y zz :: ops => .delete x y zz :: effective eff ops

end Verif
