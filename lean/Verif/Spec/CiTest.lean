import Verif.Model.CiTest

/-!
# Specification vocabulary for CI tests: histories of calls

`cond_indep_tests.py:123`, `182`, `257`, `361` (`cond_indep`) and `77` (`del_cache`) are the calls of a history.
-/

namespace Verif

/-- A call: a query, or the deletion of a cached result. -/
inductive CiOp
  | query (x y : Int) (zz : List Int)
  | delete (x y : Int) (zz : List Int)

/-- The answers to the queries of a history, when a query is answered by `ask`. -/
def answers {R : Type} (ask : CiState R → Int → Int → List Int → Py Bool × CiState R) : CiState R → List CiOp → List (Py Bool)
  | _, [] => []
  | s, .query x y zz :: ops => (ask s x y zz).1 :: answers ask (ask s x y zz).2 ops
  | s, .delete x y zz :: ops => answers ask { s with cache := (s.cache.del x y zz).2 } ops

/-- The state after a history. -/
def after {R : Type} (ask : CiState R → Int → Int → List Int → Py Bool × CiState R) : CiState R → List CiOp → CiState R
  | s, [] => s
  | s, .query x y zz :: ops => after ask (ask s x y zz).2 ops
  | s, .delete x y zz :: ops => after ask { s with cache := (s.cache.del x y zz).2 } ops

/-- The answers a test without any state would give. -/
def pureAnswers (f : Int → Int → List Int → Py Bool) : List CiOp → List (Py Bool)
  | [] => []
  | .query x y zz :: ops => f x y zz :: pureAnswers f ops
  | .delete _ _ _ :: ops => pureAnswers f ops

end Verif
