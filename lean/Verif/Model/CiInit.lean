import Verif.Model.CiTest
import Verif.Model.StatsData
import Verif.Model.Dag
import Verif.Model.Pag

/-!
# Model of the constructors of the CI tests: `cond_indep_tests.py:103-121`, `144-180`, `202-255`, `294-306`, `349-359`

Numbers given as `num_records` and `num_vars` are integers. A data set is a list of records; an array with no records but a number of
columns, and the conversion of entries to `database_type`, are left out. `verbose` is left out.
-/

namespace Verif

/-- A value given as `reference_graph` (`cond_indep_tests.py:158-163`): the type is compared exactly, so an object of a subclass of
`DAG` or `PAG` is `other`. -/
inductive GraphArg
  | dag (G : Dag Int)
  | pag (G : MG Int)
  | other (nodes : Finset Int)

/-- A value given as `static_conditioning` (`cond_indep_tests.py:165-168`). -/
inductive StaticArg
  | none
  | tuple (l : List Int)
  | other

/-- A `GraphCondIndep` object (`cond_indep_tests.py:155-180`): `ci_criterion`, `static_conditioning`, and the mutable part. -/
structure GraphTest where
  crit : Int → Int → List Int → Py Bool
  static : Option (List Int)
  state : CiState Bool

/-- `cond_indep_tests.py:144-180` (`GraphCondIndep.__init__`). -/
def graphTestInit (o : SetOrder Int) (g : GraphArg) (st : StaticArg) (countTests useCache : Bool) : Py GraphTest := do
  let (crit, nodes) ← (match g with
    | .dag G => .ok (fun x y zz => G.dsep o x y zz.toFinset, G.nodes)
    | .pag G => .ok (fun x y zz => G.isMSeparated o x y zz.toFinset, G.nodes)
    | .other _ => .error .typeError : Py ((Int → Int → List Int → Py Bool) × Finset Int))
  let static ← (match st with
    | .none => .ok Option.none
    | .tuple l => .ok (some l)
    | .other => .error .typeError : Py (Option (List Int)))
  return ⟨crit, static, CiState.init nodes.card countTests useCache⟩

/-- `GraphCondIndep.cond_indep` of a constructed object (`cond_indep_tests.py:182-198`). -/
def GraphTest.ask (o : SetOrder Int) (T : GraphTest) (s : CiState Bool) (x y : Int) (zz : List Int) : Py Bool × CiState Bool :=
  graphCondIndep o T.crit T.static s x y zz

/-- `cond_indep_tests.py:103-121` (`DSep.__init__`): `none` is an argument that is not a `DAG`. -/
def dsepTestInit (o : SetOrder Int) (g : Option (Dag Int)) (countTests useCache : Bool) : Py GraphTest :=
  match g with
  | none => .error .assertionError
  | some G => .ok ⟨fun x y zz => G.dsep o x y zz.toFinset, none, CiState.init G.nodes.card countTests useCache⟩

/-- `np.array(dataset)` and `num_records, num_vars = data.shape` (`cond_indep_tests.py:219-220`): records of different lengths raise
ValueError, and so does the empty list, which gives an array with one dimension. -/
def dataShape {E : Type} (data : List (List E)) : Py (Nat × Nat) :=
  match data with
  | [] => .error .valueError
  | r :: rs => if ∀ q ∈ rs, q.length = r.length then .ok (rs.length + 1, r.length) else .error .valueError

/-- The part of a `StatCondIndep` object that is set by its constructor (`cond_indep_tests.py:226-255`) and used later:
`num_records`, `num_vars`, `retained_graph`, and the mutable part. -/
structure StatTest (S : Type) where
  numRecords : Nat
  numVars : Nat
  retained : UGraph Int
  state : CiState S

/-- `cond_indep_tests.py:216-224`: the numbers of records and variables, from the data or as given. -/
def statSizes {E : Type} (dataset : Option (List (List E))) (numRecords numVars : Option Int) : Py (Nat × Nat) :=
  match dataset with
  | some data =>
    if numRecords = none ∧ numVars = none then dataShape data else .error .assertionError
  | none =>
    match numRecords with
    | none => .error .assertionError
    | some r =>
      if r > 0 then
        match numVars with
        | none => .error .assertionError
        | some v => if v > 0 then .ok (r.toNat, v.toNat) else .error .assertionError
      else .error .assertionError

/-- `cond_indep_tests.py:202-255` (`StatCondIndep.__init__`). `node_size` (lines 232-234) is only used by the mutual-information test;
see `cmiTestInit`. -/
def statTestInit {E S : Type} (dataset : Option (List (List E))) (retained : Option (UGraph Int)) (countTests useCache : Bool)
    (numRecords numVars : Option Int) : Py (StatTest S) := do
  let (r, v) ← statSizes dataset numRecords numVars
  return ⟨r, v, retained.getD (UGraph.empty ((List.range v).map Int.ofNat).toFinset), CiState.init v countTests useCache⟩

/-- `cond_indep_tests.py:294-306` (`CondIndepParCorr.__init__`), and the data the correlation matrix is computed from; without data
the matrix is `None`. -/
def parCorrTestInit (dataset : Option (List (List ℝ))) (weights : Option (List ℝ)) (retained : Option (UGraph Int))
    (countTests useCache : Bool) (numRecords numVars : Option Int) : Py (StatTest (WithBot ℝ) × Option (List (List ℝ))) := do
  if weights.isSome then throw .exception
  let T ← statTestInit dataset retained countTests useCache numRecords numVars
  return (T, dataset)

/-- `CondIndepParCorr.cond_indep` of a constructed object (`cond_indep_tests.py:257-269`, `308-345`): without a matrix every subscript
raises TypeError. -/
noncomputable def parCorrAsk (cdf : ℝ → ℝ) (nanInv : Nat → Nat → List Nat → Py (WithBot ℝ)) (threshold : ℝ)
    (T : StatTest (WithBot ℝ) × Option (List (List ℝ))) (s : CiState (WithBot ℝ)) (x y : Int) (zz : List Int) :
    Py Bool × CiState (WithBot ℝ) :=
  statCondIndep T.1.retained (fun x y zz => match T.2 with
    | none => .error .typeError
    | some data => parCorrData cdf nanInv data x.toNat y.toNat (zz.map Int.toNat)) (threshold : WithBot ℝ) s x y zz

/-- A `CondIndepCMI` object (`cond_indep_tests.py:349-359`): in addition `data`, `node_size` and `weights`. -/
structure CmiTest where
  base : StatTest ℝ
  data : List (List Int)
  nodeSize : List Int
  weights : Option (List ℝ)

/-- `cond_indep_tests.py:349-359` (`CondIndepCMI.__init__`) with lines 232-234; the numbers of records and variables cannot be given,
so without data the assertion of line 223 fails. -/
def cmiTestInit (dataset : Option (List (List Int))) (weights : Option (List ℝ)) (retained : Option (UGraph Int))
    (countTests useCache : Bool) : Py CmiTest := do
  let T ← statTestInit dataset retained countTests useCache none none
  let data := dataset.getD []
  let sizes ← getVarSize data T.numVars
  return ⟨T, data, sizes, weights⟩

/-- `CondIndepCMI.cond_indep` of a constructed object (`cond_indep_tests.py:361-401`). -/
noncomputable def CmiTest.ask (threshold : ℝ) (T : CmiTest) (s : CiState ℝ) (x y : Int) (zz : List Int) : Py Bool × CiState ℝ :=
  cmiCondIndep T.base.retained (fun x y zz => cmiStatistic T.data T.nodeSize T.weights x.toNat y.toNat (zz.map Int.toNat)) threshold s
    x y zz

/-- `StatCondIndep.cond_indep` of an object of the base class itself (`cond_indep_tests.py:257-272`): the statistic is `None`, which is
counted but not stored, and comparing it with the threshold raises TypeError. -/
def baseAsk {S : Type} (T : StatTest S) (s : CiState S) (x y : Int) (zz : List Int) : Py Bool × CiState S :=
  match T.retained.isConnected x y with
  | .error e => (.error e, s)
  | .ok true => (.ok false, s)
  | .ok false =>
    match s.count zz.length with
    | .error e => (.error e, s)
    | .ok s => (.error .typeError, s)

end Verif
